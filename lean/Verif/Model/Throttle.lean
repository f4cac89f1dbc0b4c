import Verif.Model.Upstream

/-! # How many requests ckube forwards (client-go v0.21.0 `rest.RESTClient`, golang.org/x/time/rate; not part of /repo)

`getRequest` (api/proxy.go:464-465) sends every request to a cluster with the client that discovery of the cluster uses, which `NewForConfig` makes
(cmd/cacheproxy/main.go:61, 131). No configuration sets `QPS`, `Burst` or `RateLimiter` (cmd/cacheproxy/main.go:26-58), so the client has a limiter of
its own with 5 requests per second (`DefaultQPS`) and a burst of 100 (`setDiscoveryDefaults`). `DoRaw` and `Stream` first wait for this
limiter (`tryThrottle`), with the context of the handler (api/proxy.go:431, 510); its limit of time runs from before the wait.

Modelled from memory of these sources. Times are milliseconds; `credit` counts the tokens of the limiter in the time they take to come, 200 ms
for one token, without the rounding of `float64`. Between the start of the context and the call of `Wait` no time passes. Retries after a
`Retry-After`, which wait for the limiter again, are further requests here (Model/Retry.lean). Watchers do not wait for a limiter (`Request.Watch`). -/

namespace Ckube

/-- The time one token takes: a second for `DefaultQPS` = 5 of them. -/
def tokenMs : Nat := 200

/-- A full limiter: the burst of `setDiscoveryDefaults`, 100 tokens. -/
def fullMs : Nat := 100 * tokenMs

/-- `rate.Limiter`: `lim.last` and `lim.tokens`. The zero values of a new limiter make it full at its first use, as here. -/
structure Bucket where
  last : Nat := 0
  credit : Int := (fullMs : Int)
deriving DecidableEq, Repr

/-- `Limiter.WaitN(ctx, 1)` at `now`, when the context ends `limit` later: how long it waits, or `none` for the error that the wait would exceed the
deadline of the context. `advance` and `reserveN`: a failed reservation changes `last` only, if the clock of the caller is behind. -/
def Bucket.reserve (b : Bucket) (now limit : Nat) : Option Nat × Bucket :=
  let c := min (fullMs : Int) (b.credit + ((now - b.last : Nat) : Int)) - (tokenMs : Int)
  if (-c).toNat ≤ limit then (some (-c).toNat, ⟨now, c⟩) else (none, { b with last := min b.last now })

/-- A request that is to be forwarded, and when its handler calls `DoRaw` or `Stream`. -/
structure Asked where
  cluster : Str
  watch : Bool := false
  time : Nat
deriving DecidableEq, Repr

/-- The deadline of the context, in milliseconds (api/proxy.go:430-431, 509-510). -/
def Asked.limit (a : Asked) : Nat := ownTimeout a.watch * 1000

/-- One limiter: requests in the order in which they take its lock, each with its wait. -/
def bucketRun (b : Bucket) : List Asked → List (Asked × Option Nat)
  | [] => []
  | a :: as => (a, (b.reserve a.time a.limit).1) :: bucketRun (b.reserve a.time a.limit).2 as

/-- `r.ClusterClients[cluster]` (api/proxy.go:465): a limiter for each cluster. -/
def throttle (s : Str → Bucket) : List Asked → List (Asked × Option Nat)
  | [] => []
  | a :: as =>
    (a, ((s a.cluster).reserve a.time a.limit).1) ::
      throttle (fun c => if c = a.cluster then ((s a.cluster).reserve a.time a.limit).2 else s c) as

end Ckube
