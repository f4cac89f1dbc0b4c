import Verif.Model.Upstream
import Verif.Model.Store

/-! # The request of a watcher (watcher/watcher.go:144-152)

`rt.Get().RequestURI(url).Timeout(time.Hour).Watch(ctx)`. Of client-go and `net/url`, which are not part of /repo, this models `Request.RequestURI`,
`Request.URL` and `url.Parse` of a text that begins with one slash. -/

namespace Ckube

/-- `url` (watcher/watcher.go:145-150). -/
def watchURL (r : GVR) : Str :=
  if r.group = [] then lit "/api/" ++ r.version ++ lit "/" ++ r.resource ++ lit "?watch=true"
  else lit "/apis/" ++ r.group ++ lit "/" ++ r.version ++ lit "/" ++ r.resource ++ lit "?watch=true"

/-- `strings.Cut(s, c)`: before and after the first `c`. -/
def cutByte (c : UInt8) (s : Str) : Str × Str :=
  match indexByte c s with
  | none => (s, [])
  | some i => (s.take i, s.drop (i + 1))

/-- `url.PathUnescape`; `none` is an error. -/
def pathUnescape : Str → Option Str
  | [] => some []
  | c :: r =>
    if c = 37 then
      match r with
      | a :: b :: r' =>
        match hexVal a, hexVal b with
        | some x, some y => (pathUnescape r').map ((x * 16 + y).toUInt8 :: ·)
        | _, _ => none
      | _ => none
    else (pathUnescape r).map (c :: ·)

/-- `url.Parse` of a text that begins with one slash: path and query. Control characters and broken escapes in the path or the fragment are
errors. -/
def parseURI (u : Str) : Option (Str × Str) :=
  if u.any fun b => b < 32 || b = 127 then none
  else match pathUnescape (cutByte 35 u).2, pathUnescape (cutByte 63 (cutByte 35 u).1).1 with
    | some _, some p => some (p, (cutByte 63 (cutByte 35 u).1).2)
    | _, _ => none

/-- The request that is sent; `none`: `RequestURI` found the URL unreadable and `Watch` returns the error. -/
def watchWire (srv : Server) (r : GVR) : Option Wire :=
  (parseURI (watchURL r)).map fun x => {
    host := srv.host, method := lit "GET", path := x.1, rawQuery := wireQuery x.2 3600,
    contentType := [], accept := lit "application/json, */*", body := [] }

end Ckube
