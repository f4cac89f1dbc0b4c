import Verif.Model.Server

/-! # The access log (server/server.go:40-81)

The writer of `Server` together with `statusWriter`, which notes what it is asked to write. The line's method, path and duration are copied from the request and
the clock and are not modelled. A write to a connection that is broken is not modelled: `Write` reports all bytes. -/

namespace Ckube

/-- What a handler asks the writer for. -/
inductive Call (γ : Type) where
  | header (code : Int)
  | write (p : Part γ)

/-- `statusWriter` (server/server.go:40-44): the response, and what it notes. -/
structure Lw (γ : Type) where
  w : Wr γ := {}
  code : Int := 0
  length : Nat := 0

/-- net/http `bodyAllowedForStatus`: otherwise `Write` writes nothing and reports 0 bytes. -/
def bodyAllowed (status : Int) : Bool := !(decide (100 ≤ status ∧ status ≤ 199) || decide (status = 204) || decide (status = 304))

/-- `WriteHeader` and `Write` (server/server.go:46-60); `false`: the call panics. `len`: the number of bytes of a part. -/
def Lw.call {γ : Type} (len : Part γ → Nat) (l : Lw γ) : Call γ → Lw γ × Bool
  | .header code => match l.w.writeHeader code with
    | some w => ({ l with w := w, code := code }, true)
    | none => ({ l with code := code }, false)
  | .write p => ({ w := l.w.write p
                   code := if l.code = 0 then 200 else l.code
                   length := l.length + if bodyAllowed (l.w.status.getD 200) then len p else 0 }, true)

/-- Several calls, up to the first that panics. -/
def Lw.calls {γ : Type} (len : Part γ → Nat) : Lw γ → List (Call γ) → Lw γ × Bool
  | l, [] => (l, true)
  | l, c :: cs => match l.call len c with
    | (l', true) => l'.calls len cs
    | (l', false) => (l', false)

/-- `jsonResp` (server/server.go:124-129). -/
def jsonCalls {γ : Type} (code : Int) (p : Part γ) : List (Call γ) := [.header code, .write p]

/-- The calls after the handler has returned (server/server.go:171-192). -/
def HRes.calls {γ : Type} : HRes γ → List (Call γ)
  | .crash | .err | .nil => []
  | .status code v => jsonCalls code (.json v)
  | .bytes s => [.write (.bytes s)]
  | .value v => jsonCalls 200 (.json v)

/-- The result makes the function panic (server/server.go:176-178). -/
def HRes.panics {γ : Type} : HRes γ → Bool
  | .crash | .err => true
  | _ => false

/-- The function registered for a route (server/server.go:145-193), for a handler that makes the calls `h.1` and returns `h.2`; `false`: a panic escapes. -/
def answerLogged {γ : Type} (len : Part γ → Nat) (token : Str) (auth : Bool) (authorization : Str) (h : List (Call γ) × HRes γ) : Lw γ × Bool :=
  let x := if auth ∧ token ≠ [] ∧ contains authorization token = false then Lw.calls len {} (jsonCalls 401 .unauthorized)
    else
      let y := Lw.calls len {} (h.1 ++ h.2.calls)
      (y.1, y.2 && !h.2.panics)
  if x.2 then x else x.1.calls len (jsonCalls 500 .failure)

/-- The handlers as calls and a result. -/
abbrev CallHandlers (γ : Type) := HandlerId → Vars → List (Call γ) × HRes γ

/-- `Router.ServeHTTP` with `loggingMiddleware` (server/server.go:62-81, 93): the response and the line of the access log (status and length). The middleware runs for
routed requests only; when a panic escapes no line is written. -/
def serveLogged {γ : Type} (len : Part γ → Nat) (token : Str) (hs : CallHandlers γ) (method path authorization : Str) : Option (Wr γ × Int × Nat) :=
  if cleanPath path ≠ path then none
  else match routeOf method path routeTable with
    | none => none
    | some (r, vs) =>
      let x := answerLogged len token r.auth authorization (hs r.handler vs)
      if x.2 then some (x.1.w, x.1.code, x.1.length) else none

/-- A handler in the form of `Server`. -/
def asHandler {γ : Type} (h : List (Call γ) × HRes γ) (w : Wr γ) : Wr γ × HRes γ :=
  match Lw.calls (fun _ => 0) { w := w } h.1 with
  | (l, true) => (l.w, h.2)
  | (l, false) => (l.w, .crash)

/-- `Proxy` (api/proxy.go:64-70, 434-461, 513-520) as calls. -/
def proxyCalls (up : Answer → UpRes) (a : Answer) : List (Call Answer) × HRes Answer :=
  match a with
  | .crash => ([], .crash)
  | .object _ | .list .. | .table .. => ([], .value a)
  | .refused why => ([.header why.code], .status why.code a)
  | .noCluster _ => ([.header 404], .status 404 a)
  | .forward .. => match up a with
    | .ok _ body => ([], .bytes body)
    | .status code => ([.header code], .status code a)
    | .fails => ([], .err)
    | .stream rds => ((copyLoop [] rds).1.map fun s => .write (.bytes s), .nil)

/-- The health handler (server/route.go:26-30) as calls. -/
def healthyCalls {γ : Type} : List (Call γ) × HRes γ := ([.write (.bytes (lit "1")), .header 200], .nil)

/-- The handlers of the server for the request `r`; `rest` are the others. -/
def ckubeCalls (env : Env) (st : StoreI) (tord : Nat → List (Str × Str) → List (Str × Str)) (ord : Values) (up : Answer → UpRes) (r : HReq)
    (rest : CallHandlers Answer) : CallHandlers Answer := fun h vs => match h with
  | .proxy => proxyCalls up (proxy env st tord ord (r.withVars vs))
  | .healthy => healthyCalls
  | h => rest h vs

end Ckube
