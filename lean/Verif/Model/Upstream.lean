import Verif.Model.Proxy
import Verif.Model.Num

/-! # What client-go makes of a forwarded request (client-go v0.21.0 `rest.Request`, not part of /repo)

`getRequest(…).RequestURI(u).DoRaw(ctx)` and `….Stream(ctx)` (api/proxy.go:433, 464-490, 512). Of client-go this models
`NewRequest` (timeout and Accept header), `Patch`, `Body`, `RequestURI`, `URL` and the bodies that `DoRaw` and `Stream` send.
Paths are decoded: `URL.String` followed by `url.Parse` gives the same path, though `%2F` in it is sent as `/`. Not
modelled here: retries (Model/Retry.lean), throttling (Model/Throttle.lean), TLS and credentials, the user agent. -/

namespace Ckube

/-- The address of an API server in a kube config: scheme and host, and a path (empty for most servers). -/
structure Server where
  host : Str
  basePath : Str := []

/-- The headers of the client's request that a Kubernetes API server looks at. -/
structure Headers where
  contentType : Str := []
  accept : Str := []

/-- An HTTP request as the API server receives it; an absent header is empty. -/
structure Wire where
  host : Str
  method : Str
  path : Str
  rawQuery : Str
  contentType : Str
  accept : Str
  body : Str
deriving DecidableEq

/-- `time.Duration.String` of a whole number of seconds. -/
def durText (secs : Nat) : Str :=
  if secs < 60 then natDigits secs ++ lit "s"
  else if secs < 3600 then natDigits (secs / 60) ++ lit "m" ++ natDigits (secs % 60) ++ lit "s"
  else natDigits (secs / 3600) ++ lit "h" ++ natDigits (secs / 60 % 60) ++ lit "m" ++ natDigits (secs % 60) ++ lit "s"

/-- `Request.URL`: the query is rebuilt from the parsed parameters; a timeout other than 0 replaces the parameter
`timeout`. -/
def wireQuery (rawQuery : Str) (secs : Nat) : Str :=
  encodeQuery (if secs = 0 then parseQuery rawQuery
    else insertKV (lit "timeout") [durText secs] (parseQuery rawQuery))

/-- The request that is sent. `secs` is the timeout of the `rest.Request`. The path of `RequestURI` replaces the
path prefix of the client, and `URL` replaces the path of the base URL by it. `Patch` sets the content type (api/proxy.go:478);
`Body` with a reader sets none (api/proxy.go:488). The Accept header is that of the client-go client, whose content type is
JSON. `Stream` sends no body. -/
def wire (srv : Str → Server) (h : Headers) (secs : Nat) : Answer → Option Wire
  | .forward w c m p q b => some {
      host := (srv c).host, method := m, path := p, rawQuery := wireQuery q secs,
      contentType := if m = lit "PATCH" then h.contentType else [],
      accept := lit "application/json, */*",
      body := if w then [] else b }
  | _ => none

/-! ## Timeouts

`getRequest` stores the timeout of a request in the `http.Client` of the cluster (api/proxy.go:465-466), which all requests of
the cluster share. `NewRequest` (in `c.Get()` and the others, api/proxy.go:468-478) reads it for the `timeout`
parameter, and `http.Client.Do` reads it again for the deadline. Requests run in goroutines of their own, so steps of
several requests alternate. -/

/-- How far a request is. `param` is the timeout of the `rest.Request`, `deadline` how long it may last, in seconds. -/
inductive SendPhase where
  | begun
  | stored
  | built (param : Nat)
  | sent (param deadline : Nat)
deriving DecidableEq, Repr

/-- A forwarded request. -/
structure SendReq where
  watch : Bool
  cluster : Str
  phase : SendPhase := .begun
deriving DecidableEq

/-- The timeout `proxyPass` (api/proxy.go:509, one minute) and `proxyPassWatch` (api/proxy.go:430, thirty minutes) use, in
seconds: the local variable `timeout`, which is also the limit of the context. -/
def ownTimeout (watch : Bool) : Nat := if watch then 1800 else 60

/-- The earlier of a limit and a timeout, where 0 is no timeout. -/
def capped (limit t : Nat) : Nat := if t = 0 then limit else min limit t

/-- All requests, and `Client.Timeout` of each cluster. -/
structure SendState where
  cell : Str → Nat
  reqs : List SendReq := []

/-- One step of one request. -/
inductive SendStep where
  /-- the handler reaches `proxyPass` -/
  | start (watch : Bool) (cluster : Str)
  /-- `c.Client.Timeout = timeout` (api/proxy.go:466) -/
  | store (i : Nat)
  /-- `NewRequest` -/
  | build (i : Nat)
  /-- `http.Client.Do`; `DoRaw` also limits the context by the timeout of the request -/
  | send (i : Nat)
deriving DecidableEq

/-- The effect of a step; `none` when it cannot be taken. -/
def SendState.step (s : SendState) : SendStep → Option SendState
  | .start w c => some { s with reqs := s.reqs ++ [⟨w, c, .begun⟩] }
  | .store i =>
    match s.reqs[i]? with
    | some ⟨w, c, .begun⟩ =>
      some ⟨fun c' => if c' = c then ownTimeout w else s.cell c', s.reqs.set i ⟨w, c, .stored⟩⟩
    | _ => none
  | .build i =>
    match s.reqs[i]? with
    | some ⟨w, c, .stored⟩ => some { s with reqs := s.reqs.set i ⟨w, c, .built (s.cell c)⟩ }
    | _ => none
  | .send i =>
    match s.reqs[i]? with
    | some ⟨w, c, .built p⟩ =>
      let d := capped (ownTimeout w) (s.cell c)
      some { s with reqs := s.reqs.set i ⟨w, c, .sent p (if w then d else capped d p)⟩ }
    | _ => none

/-- A sequence of steps. -/
def SendState.run (s : SendState) : List SendStep → Option SendState
  | [] => some s
  | x :: xs => (s.step x).bind (·.run xs)

end Ckube
