import Verif.Model.Proxy
import Verif.Model.Stream

/-! # server/server.go and server/route.go

Requests are routed by gorilla/mux and written by net/http; both are not in /repo and are modelled from their
documented behaviour. Not modelled: response headers, timeouts, routes added by the
caller of `NewMuxServer`, the second `/metrics` route of `NewMuxServer` (server/server.go:94), which the
catch-all route hides. -/

namespace Ckube

/-! ## Routing -/

/-- A segment of a route's path: literal text or `{name}`. -/
inductive Seg where
  | txt (s : Str)
  | var (name : Str)
deriving DecidableEq

/-- The handlers of the route table (server/route.go). -/
inductive HandlerId where
  | healthy | metrics | deploy2service | proxy
deriving DecidableEq, Repr

/-- `route` (server/route.go:11-18) without `successStatus`, which is 200 in all routes whose handler's result is written as
JSON. -/
structure Route where
  /-- the path after its leading slash, cut at slashes -/
  segs : List Seg
  methods : List Str
  handler : HandlerId
  auth : Bool
  isPrefix : Bool := false

/-- Methods of a route without method (server/server.go:142). -/
def allMethods : List Str :=
  [lit "GET", lit "POST", lit "PUT", lit "DELETE", lit "PATCH", lit "OPTIONS", lit "HEAD"]

/-- `routeHandles` (server/route.go:20-111), in order. -/
def routeTable : List Route := [
  ⟨[.txt (lit "healthy")], [lit "GET"], .healthy, false, false⟩,
  ⟨[.txt (lit "metrics")], [lit "GET"], .metrics, false, false⟩,
  ⟨[.txt (lit "custom"), .txt (lit "v1"), .txt (lit "namespaces"), .var (lit "namespace"), .txt (lit "deployments"),
    .var (lit "deployment"), .txt (lit "services")], [lit "GET"], .deploy2service, true, false⟩,
  ⟨[.txt (lit "custom"), .txt (lit "v1"), .txt (lit "clusters"), .var (lit "cluster"), .txt (lit "namespaces"), .var (lit "namespace"),
    .txt (lit "deployments"), .var (lit "deployment"), .txt (lit "services")], [lit "GET"], .deploy2service, true, false⟩,
  ⟨[.txt (lit "apis"), .var (lit "group"), .var (lit "version"), .txt (lit "namespaces"), .var (lit "namespace"),
    .var (lit "resourceType")], [lit "GET"], .proxy, true, false⟩,
  ⟨[.txt (lit "apis"), .var (lit "group"), .var (lit "version"), .var (lit "resourceType")], allMethods, .proxy, true, false⟩,
  ⟨[.txt (lit "api"), .var (lit "version"), .var (lit "resourceType")], allMethods, .proxy, true, false⟩,
  ⟨[.txt (lit "api"), .var (lit "version"), .txt (lit "namespaces"), .var (lit "namespace"), .var (lit "resourceType")], allMethods,
    .proxy, true, false⟩,
  ⟨[.txt (lit "apis"), .var (lit "group"), .var (lit "version"), .txt (lit "namespaces"), .var (lit "namespace"),
    .var (lit "resourceType"), .var (lit "resource")], allMethods, .proxy, true, false⟩,
  ⟨[.txt (lit "apis"), .var (lit "group"), .var (lit "version"), .var (lit "resourceType"), .var (lit "resource")], allMethods, .proxy,
    true, false⟩,
  ⟨[.txt (lit "api"), .var (lit "version"), .var (lit "resourceType"), .var (lit "resource")], allMethods, .proxy, true, false⟩,
  ⟨[.txt (lit "api"), .var (lit "version"), .txt (lit "namespaces"), .var (lit "namespace"), .var (lit "resourceType"),
    .var (lit "resource")], allMethods, .proxy, true, false⟩,
  ⟨[], [], .proxy, true, true⟩]

/-- `mux.Vars`. -/
abbrev Vars := List (Str × Str)

/-- mux compiles a path to a regular expression in which `{name}` is `[^/]+`: the path is cut at slashes and a variable takes
one non-empty piece. -/
def matchSegs : List Seg → List Str → Option Vars
  | [], [] => some []
  | .txt a :: t, s :: ss => if a = s then matchSegs t ss else none
  | .var v :: t, s :: ss => if s = [] then none else (matchSegs t ss).map ((v, s) :: ·)
  | _, _ => none

/-- Whether the route takes the request, and the variables (server/server.go:132-144). The prefix is `/`, with which
every clean path begins. -/
def Route.matches (r : Route) (method path : Str) : Option Vars :=
  if r.isPrefix then some []
  else if method ∉ r.methods then none
  else match splitByte 47 path with
    | [] :: ss => matchSegs r.segs ss
    | _ => none

/-- The first route that takes the request. (mux goes on after a route with the right path and the wrong method.) -/
def routeOf (method path : Str) : List Route → Option (Route × Vars)
  | [] => none
  | r :: rs => match r.matches method path with
    | some vs => some (r, vs)
    | none => routeOf method path rs

/-- The pieces of Go's `path.Clean` of a rooted path. -/
def cleanSegs : List Str → List Str → List Str
  | acc, [] => acc.reverse
  | acc, s :: ss =>
    if s = [] ∨ s = lit "." then cleanSegs acc ss
    else if s = lit ".." then cleanSegs (acc.drop 1) ss
    else cleanSegs (s :: acc) ss

/-- mux `cleanPath`. -/
def cleanPath (p : Str) : Str :=
  let p := if p.head? = some 47 then p else 47 :: p
  let np := 47 :: join [47] (cleanSegs [] (splitByte 47 p))
  if p.getLast? = some 47 ∧ np ≠ [47] then np ++ [47] else np

/-! ## Answering -/

/-- A piece of a response body; `γ` is what handlers return to be written as JSON. -/
inductive Part (γ : Type) where
  | bytes (s : Str)
  /-- the status "token missing or error" (server/server.go:156-161) -/
  | unauthorized
  /-- a recovered panic, as JSON -/
  | failure
  | json (v : γ)
deriving DecidableEq, Repr

/-- The response so far: the status once it is sent, and the body. -/
structure Wr (γ : Type) where
  status : Option Int := none
  body : List (Part γ) := []
deriving DecidableEq, Repr

/-- `WriteHeader` of net/http and the flush of `statusWriter` (server/server.go:46-50): only the first status counts,
one outside 100-999 panics (`none`), an informational one is followed by 200. -/
def Wr.writeHeader {γ : Type} (w : Wr γ) (code : Int) : Option (Wr γ) :=
  if w.status.isSome then some w
  else if code < 100 ∨ 999 < code then none
  else if code ≤ 199 ∧ code ≠ 101 then some { w with status := some 200 }
  else some { w with status := some code }

/-- `Write` (server/server.go:52-60). -/
def Wr.write {γ : Type} (w : Wr γ) (c : Part γ) : Wr γ :=
  { status := some (w.status.getD 200), body := w.body ++ [c] }

/-- `jsonResp` (server/server.go:124-129). -/
def jsonResp {γ : Type} (w : Wr γ) (code : Int) (c : Part γ) : Option (Wr γ) :=
  (w.writeHeader code).map (·.write c)

/-- What a handler returns; `crash`: it panics. -/
inductive HRes (γ : Type) where
  | crash
  | nil
  | err
  | status (code : Int) (v : γ)
  | bytes (s : Str)
  | value (v : γ)

/-- The deferred function (server/server.go:146-153). -/
def recovered {γ : Type} (w : Wr γ) : Option (Wr γ) := jsonResp w 500 .failure

/-- The result of the handler is written (server/server.go:171-192). -/
def finish {γ : Type} (w : Wr γ) : HRes γ → Option (Wr γ)
  | .crash => recovered w
  | .nil => some w
  | .err => recovered w
  | .status code v => match jsonResp w code (.json v) with
    | some w => some w
    | none => recovered w
  | .bytes s => some (w.write (.bytes s))
  | .value v => jsonResp w 200 (.json v)

/-- The function registered for a route (server/server.go:145-193): the response, `none` when a panic escapes, and
whether the handler ran. -/
def answerRoute {γ : Type} (token : Str) (auth : Bool) (authorization : Str) (h : Wr γ → Wr γ × HRes γ) : Option (Wr γ) × Bool :=
  if auth ∧ token ≠ [] ∧ contains authorization token = false then (jsonResp {} 401 .unauthorized, false)
  else (finish (h {}).1 (h {}).2, true)

/-- The handlers, with the variables of the route. -/
abbrev Handlers (γ : Type) := HandlerId → Vars → Wr γ → Wr γ × HRes γ

/-- The outcome of a request. -/
inductive Served (γ : Type) where
  /-- mux redirects to the clean path -/
  | redirect (path : Str)
  | notFound
  /-- the response and, if a handler ran, which one -/
  | answered (resp : Option (Wr γ)) (ran : Option (HandlerId × Vars))

/-- `Router.ServeHTTP` with the routes of the server. -/
def serveReq {γ : Type} (token : Str) (hs : Handlers γ) (method path authorization : Str) : Served γ :=
  if cleanPath path ≠ path then .redirect (cleanPath path)
  else match routeOf method path routeTable with
    | none => .notFound
    | some (r, vs) =>
      let a := answerRoute token r.auth authorization (hs r.handler vs)
      .answered a.1 (if a.2 then some (r.handler, vs) else none)

/-! ## The handlers -/

/-- The health handler (server/route.go:26-30). -/
def healthy {γ : Type} (w : Wr γ) : Wr γ × HRes γ :=
  match (w.write (.bytes (lit "1"))).writeHeader 200 with
  | some w => (w, .nil)
  | none => (w, .crash)

/-- What came of a forwarded request. -/
inductive UpRes where
  /-- client-go accepted the answer -/
  | ok (code : Int) (body : Str)
  /-- the answer is a failure the API server described (`errors.StatusError`) -/
  | status (code : Int)
  /-- any other error -/
  | fails
  /-- the answer to a watch is read like this -/
  | stream (reads : List Rd)

/-- `errorProxy` (api/proxy.go:64-70). -/
def errorProxy {γ : Type} (w : Wr γ) (code : Int) (v : γ) : Wr γ × HRes γ :=
  match w.writeHeader code with
  | some w => (w, .status code v)
  | none => (w, .crash)

/-- HTTP status of a refusal (api/proxy.go:80, 246, 256, 295, 319). -/
def Refusal.code : Refusal → Int
  | .notFound => 404
  | _ => 400

/-- What `Proxy` writes and returns (api/proxy.go:434-461, 513-520 for forwarded requests). -/
def proxyResult (up : Answer → UpRes) (a : Answer) (w : Wr Answer) : Wr Answer × HRes Answer :=
  match a with
  | .crash => (w, .crash)
  | .object _ | .list .. | .table .. => (w, .value a)
  | .refused why => errorProxy w why.code a
  | .noCluster _ => errorProxy w 404 a
  | .forward .. => match up a with
    | .ok _ body => (w, .bytes body)
    | .status code => errorProxy w code a
    | .fails => (w, .err)
    | .stream rds => (((copyLoop [] rds).1.foldl (fun w s => w.write (.bytes s)) w), .nil)

/-- The request as the handler sees it: with the variables of its route. -/
def HReq.withVars (r : HReq) (vs : Vars) : HReq :=
  let v (k : String) := (lookup (lit k) vs).getD []
  { r with
    group := v "group"
    version := v "version"
    resourceType := v "resourceType"
    ns := v "namespace"
    resource := v "resource" }

/-- `Proxy` as a handler. -/
def proxyHandler (env : Env) (st : StoreI) (tord : Nat → List (Str × Str) → List (Str × Str)) (ord : Values) (up : Answer → UpRes)
    (r : HReq) (vs : Vars) (w : Wr Answer) : Wr Answer × HRes Answer :=
  proxyResult up (proxy env st tord ord (r.withVars vs)) w

end Ckube
