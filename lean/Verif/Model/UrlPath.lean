import Verif.Model.WatchReq

/-! # Paths of requests (Go 1.19 `net/url`, client-go v0.21.0 `rest.Request`; not part of /repo)

The target of a request is read by `url.ParseRequestURI` (net/http), written by `r.Request.URL.String()` (api/proxy.go:428, 507), read again by
`url.Parse` in `RequestURI(u)` (api/proxy.go:433, 512), which keeps the decoded path only, and written by `http.NewRequest` from the URL that
`Request.URL` makes of this path and the address of the API server.

Modelled for targets that begin with `/`, as all but those of OPTIONS and CONNECT do. Not modelled: what `url.Parse` makes of a reference that begins
with `//` (here: an error); mux redirects requests for such paths (Model/Server.lean). The address of the API server has no escapes in its path.
`pathUnescape` and `cutByte` are those of Model/WatchReq.lean. -/

namespace Ckube

/-- Bytes that `escape(_, encodePath)` writes as they are. -/
def pathSafe (c : UInt8) : Bool :=
  unreserved c || c = 36 || c = 38 || c = 43 || c = 44 || c = 47 || c = 58 || c = 59 || c = 61 || c = 64

/-- One byte of `escape(_, encodePath)`. -/
def pathByte (c : UInt8) : Str :=
  if pathSafe c then [c] else [37, upperHex (c.toNat / 16), upperHex (c.toNat % 16)]

/-- `escape(_, encodePath)`. -/
def pathEscape (s : Str) : Str := s.flatMap pathByte

/-- `validEncoded(_, encodePath)`. -/
def validEncoded (s : Str) : Bool := s.all fun c => pathSafe c || c ∈ lit "!'()*[]%"

/-- `url.URL`, without scheme, host and fragment. -/
structure GoURL where
  path : Str
  rawPath : Str := []
  rawQuery : Str := []
  forceQuery : Bool := false
deriving DecidableEq, Repr

/-- `URL.setPath`. -/
def setPath (p : Str) : Option (Str × Str) :=
  (pathUnescape p).map fun path => (path, if p = pathEscape path then [] else p)

/-- `URL.EscapedPath`. -/
def GoURL.escapedPath (u : GoURL) : Str :=
  if u.rawPath ≠ [] ∧ validEncoded u.rawPath = true ∧ pathUnescape u.rawPath = some u.path then u.rawPath
  else if u.path = lit "*" then lit "*"
  else pathEscape u.path

/-- `URL.String` of a URL whose path begins with `/`. -/
def GoURL.text (u : GoURL) : Str :=
  u.escapedPath ++ (if u.forceQuery = true ∨ u.rawQuery ≠ [] then 63 :: u.rawQuery else [])

/-- `stringContainsCTLByte`. -/
def hasControl (s : Str) : Bool := s.any fun b => b < 32 || b = 127

/-- `parse` of a text that begins with one `/`: control bytes, the query, the path. -/
def parseRooted (s : Str) : Option GoURL :=
  if hasControl s = true then none
  else if s.head? ≠ some 47 then none
  else if s.getLast? = some 63 ∧ s.count 63 = 1 then
    (setPath s.dropLast).map fun e => ⟨e.1, e.2, [], true⟩
  else (setPath (cutByte 63 s).1).map fun e => ⟨e.1, e.2, (cutByte 63 s).2, false⟩

/-- `url.Parse`: without the fragment, whose escapes must be legal. -/
def parseRef (s : Str) : Option GoURL :=
  if [47, 47] <+: s then none
  else if pathUnescape (cutByte 35 s).2 = none then none
  else parseRooted (cutByte 35 s).1

/-- The path and the query of the request to the API server, and how they are written: `RequestURI(u)` keeps path and query (api/proxy.go:433, 512),
`Request.URL` puts the path into a copy of the base URL, whose text `http.NewRequest` reads. `edit` is what the handlers do with the query
(api/proxy.go:176, 427). `none`: the request is refused, or not sent. -/
def forwardTarget (raw : Str) (edit : Str → Str) : Option (Str × Str) :=
  (parseRooted raw).bind fun u =>
    (parseRef { u with rawQuery := edit u.rawQuery }.text).bind fun v =>
      (setPath (pathEscape v.path)).map fun e => (GoURL.escapedPath ⟨e.1, e.2, [], false⟩, v.rawQuery)

end Ckube
