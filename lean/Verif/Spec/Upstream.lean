import Verif.Model.Upstream
import Verif.Spec.Proxy

/-! # What an API server should receive, and how long a request should be allowed to last -/

namespace Ckube.Spec

/-- The request `x` that reaches a server at `srv` is the client's request `r` with headers `h`: same method, the path below the
path of the server, the same body and headers, and the same query parameters apart from cluster markers and
the label selector (which may carry a pagination request). -/
structure Arrived (srv : Server) (h : Headers) (r : HReq) (x : Wire) : Prop where
  host : x.host = srv.host
  method : x.method = r.method
  path : x.path = srv.basePath ++ r.path
  contentType : x.contentType = h.contentType
  accept : x.accept = h.accept
  body : r.method ≠ lit "GET" → r.method ≠ lit "DELETE" → x.body = r.body
  params : ∀ k, k ≠ lit "labelSelector" → (k ∈ markerKeys → ∀ c, ¬ First r.rawQuery k (marker c)) →
    lookup k (parseQuery x.rawQuery) = lookup k (parseQuery r.rawQuery)

/-- Seconds a forwarded request should be allowed to last. -/
def limit (watch : Bool) : Nat := if watch then 30 * 60 else 60

/-- The request of a step of a trace, from the `start` steps of the trace. -/
def started (xs : List SendStep) : List (Bool × Str) :=
  xs.filterMap fun x => match x with
    | .start w c => some (w, c)
    | _ => none

end Ckube.Spec
