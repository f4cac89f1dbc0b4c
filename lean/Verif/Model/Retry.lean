import Verif.Model.Upstream
import Verif.Model.Server

/-! # Requests that are sent again (client-go v0.21.0 `rest.Request.request`, not part of /repo)

`proxyPass` sends a request with `DoRaw` and a context of one minute (api/proxy.go:509-512); `getRequest` gives it the body of the client's request, and
none to a `GET` (api/proxy.go:469-470, 488). `DoRaw` repeats the request, at most ten times, when the answer has the status 429 or one from 500 on and a
header `Retry-After` with a number of seconds; a `GET` also one second after a connection that was reset or closed without an answer. Watches are sent
with `Stream`, which repeats nothing. No backoff is configured, so `backoff.Sleep` is `time.Sleep`, which does not look at the context.

The body of a request that the `net/http` server has read is no `io.Seeker`, so `request` repeats the request with the body the transport has read
and closed, and `http.Client.Do` fails (`http: invalid Read on closed Body`). A request without a body has `http.NoBody`, which can be sent any number of times.

Modelled from memory of these sources. Times are nanoseconds. The API server and the connection to it are a function of the number of the attempt and its
time, the limiter (Model/Throttle.lean) is one of the same arguments, so all their states and all other requests are covered. The
transport is taken to have closed the body when the answer is there, and what is left of a request whose body cannot be read is taken to reach no API
server. Redirects are not modelled. -/

namespace Ckube

/-- An answer: status, the first value of `Retry-After` (empty when there is none) and the body. -/
structure Reply where
  code : Int
  retryAfter : Str := []
  body : Str := []
deriving DecidableEq, Repr

/-- What `http.Client.Do` returns. -/
inductive Got where
  | reply (r : Reply)
  /-- an error that `IsConnectionReset` or `IsProbableEOF` recognises -/
  | reset
  /-- any other error -/
  | error
deriving DecidableEq, Repr

/-- `strconv.Atoi`. -/
def atoi : Str → Option Int
  | 43 :: s => if s.head? = some 45 then none else parseInt64 s
  | s => parseInt64 s

/-- `checkWait` and `retryAfterSeconds`. -/
def checkWait (r : Reply) : Option Int :=
  if r.code = 429 ∨ 500 ≤ r.code then (if r.retryAfter = [] then none else atoi r.retryAfter) else none

/-- `time.Sleep(time.Duration(seconds) * time.Second)`: how long it sleeps. -/
def sleepFor (seconds : Int) : Nat := (wrap64 (seconds * 1000000000)).toNat

/-- What the loop of `request` does after `client.Do`. -/
inductive Next where
  /-- `return err` -/
  | fail
  /-- `fn(req, resp)` and `return nil` -/
  | stop (r : Reply)
  /-- the loop goes on after a pause, unless there were too many retries; then as `stop` -/
  | again (r : Reply) (seconds : Int)

/-- The answer that stands for a reset connection. -/
def resetReply : Reply := ⟨500, lit "1", []⟩

/-- `request` after `client.Do`: only a `GET` is repeated after an error. -/
def nextOf (get : Bool) : Got → Next
  | .error => .fail
  | .reset => if get then .again resetReply 1 else .fail
  | .reply r => match checkWait r with
    | some s => .again r s
    | none => .stop r

/-- A request that was sent, and what came of it how much later. -/
structure Sent where
  time : Nat
  got : Got
  took : Nat
deriving DecidableEq, Repr

/-- When an attempt was over. -/
def Sent.over (a : Sent) : Nat := a.time + a.took

/-- What `request` comes to. -/
inductive RawOutcome where
  /-- `DoRaw` gets an answer -/
  | answered (r : Reply)
  /-- `DoRaw` returns an error that is no answer -/
  | failed
deriving DecidableEq, Repr

/-- The attempts that reached the connection, the outcome, and when it was there. -/
structure Exchange where
  tries : List Sent
  out : RawOutcome
  fin : Nat
deriving DecidableEq, Repr

/-- A request: is it a `GET`, and is its body one that can be read once only? -/
structure RawReq where
  get : Bool
  hasBody : Bool

/-- The loop of `request`, with `left` retries left, before attempt `n`; `dl` is the deadline of the context. -/
def resend (api : Nat → Nat → Got × Nat) (wait : Nat → Nat → Option Nat) (q : RawReq) (dl : Nat) (left n now : Nat) : Exchange :=
  match wait n now with
  | none => ⟨[], .failed, now⟩
  | some w =>
    if (n ≠ 0 ∧ q.hasBody = true) ∨ dl ≤ now + w then ⟨[], .failed, now + w⟩
    else
      let a : Sent := ⟨now + w, (api n (now + w)).1, (api n (now + w)).2⟩
      if dl ≤ a.over then ⟨[a], .failed, dl⟩
      else match nextOf q.get a.got with
        | .fail => ⟨[a], .failed, a.over⟩
        | .stop r => ⟨[a], .answered r, a.over⟩
        | .again r s => match left with
          | 0 => ⟨[a], .answered r, a.over⟩
          | left + 1 =>
            let e := resend api wait q dl left (n + 1) (a.over + sleepFor s)
            { e with tries := a :: e.tries }

/-- `DoRaw` at time 0: ten retries, the context ends after a minute (api/proxy.go:509-512). A `GET` has no body (api/proxy.go:469-470). -/
def doRaw (api : Nat → Nat → Got × Nat) (wait : Nat → Nat → Option Nat) (q : RawReq) : Exchange :=
  resend api wait { q with hasBody := q.hasBody && !q.get } (ownTimeout false * 1000000000) 10 0 0

/-- What `proxyPass` makes of it (api/proxy.go:513-520): statuses from 200 to 206 are successes, others an `errors.StatusError` (with the status of the
answer, which is also the one in the answers of API servers). -/
def RawOutcome.upRes : RawOutcome → UpRes
  | .answered r => if 200 ≤ r.code ∧ r.code ≤ 206 then .ok r.code r.body else .status r.code
  | .failed => .fails

end Ckube
