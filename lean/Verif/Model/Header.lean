import Verif.Model.Server

/-! # The `Content-Type` of responses

The writer of `Server` with the one header ckube sets. Headers are fixed by the first `WriteHeader` or `Write`; without `Content-Type` net/http guesses it from the
first bytes. -/

namespace Ckube

/-- The response so far, the header map, and what of it was sent. -/
structure Hw (γ : Type) where
  w : Wr γ := {}
  pending : Option Str := none
  sent : Option (Option Str) := none

/-- `Header().Set("Content-Type", t)`. -/
def Hw.label {γ : Type} (h : Hw γ) (t : Str) : Hw γ := { h with pending := some t }

/-- `WriteHeader` (server/server.go:46-50). -/
def Hw.writeHeader {γ : Type} (h : Hw γ) (code : Int) : Option (Hw γ) :=
  (h.w.writeHeader code).map fun w => { h with w := w, sent := some (h.sent.getD h.pending) }

/-- `Write` (server/server.go:52-60). -/
def Hw.write {γ : Type} (h : Hw γ) (c : Part γ) : Hw γ := { h with w := h.w.write c, sent := some (h.sent.getD h.pending) }

/-- What the client sees when the handler is done; `none`: guessed. -/
def Hw.contentType {γ : Type} (h : Hw γ) : Option Str := h.sent.getD h.pending

def jsonType : Str := lit "application/json"

/-- `jsonResp` (server/server.go:124-129). -/
def jsonRespH {γ : Type} (h : Hw γ) (code : Int) (c : Part γ) : Option (Hw γ) := ((h.label jsonType).writeHeader code).map (·.write c)

/-- The result of the handler is written (server/server.go:146-153, 171-192). -/
def finishH {γ : Type} (h : Hw γ) : HRes γ → Option (Hw γ)
  | .crash | .err => jsonRespH h 500 .failure
  | .nil => some h
  | .status code v => match jsonRespH h code (.json v) with
    | some h => some h
    | none => jsonRespH (h.label jsonType) 500 .failure
  | .bytes s => some (h.write (.bytes s))
  | .value v => jsonRespH h 200 (.json v)

/-- The function registered for a route (server/server.go:145-193). -/
def answerRouteH {γ : Type} (token : Str) (auth : Bool) (authorization : Str) (f : Hw γ → Hw γ × HRes γ) : Option (Hw γ) × Bool :=
  if auth ∧ token ≠ [] ∧ contains authorization token = false then (jsonRespH {} 401 .unauthorized, false)
  else (finishH (f {}).1 (f {}).2, true)

/-- `errorProxy` (api/proxy.go:64-70). -/
def errorProxyH {γ : Type} (h : Hw γ) (code : Int) (v : γ) : Hw γ × HRes γ :=
  match (h.label jsonType).writeHeader code with
  | some h => (h, .status code v)
  | none => (h.label jsonType, .crash)

/-- What `Proxy` writes and returns (api/proxy.go:434-461, 513-520). -/
def proxyResultH (up : Answer → UpRes) (a : Answer) (h : Hw Answer) : Hw Answer × HRes Answer :=
  match a with
  | .crash => (h, .crash)
  | .object _ | .list .. | .table .. => (h, .value a)
  | .refused why => errorProxyH h why.code a
  | .noCluster _ => errorProxyH h 404 a
  | .forward .. => match up a with
    | .ok _ body => (h.label jsonType, .bytes body)
    | .status code => errorProxyH h code a
    | .fails => (h, .err)
    | .stream rds => ((copyLoop [] rds).1.foldl (fun h s => h.write (.bytes s)) (h.label jsonType), .nil)

/-- The health handler (server/route.go:26-30). -/
def healthyH {γ : Type} (h : Hw γ) : Hw γ × HRes γ :=
  match (h.write (.bytes (lit "1"))).writeHeader 200 with
  | some h => (h, .nil)
  | none => (h, .crash)

end Ckube
