import Verif.Model.Str

/-! # The copy loop of a proxied watch (api/proxy.go:443-461)

Not modelled: errors and partial writes to the client (the results of `Write` are ignored by the code), and when bytes
arrive. -/

namespace Ckube

/-- The result of one `reader.Read` of a one byte slice: the byte, if any was read, and whether an error (or
`io.EOF`) came with it; `gone`: the client's context is done when the loop looks at it after this read. -/
structure Rd where
  data : Option UInt8
  err : Bool := false
  gone : Bool := false
deriving DecidableEq, Repr

/-- How the loop ends: it returned, or it waits for the next read. -/
inductive Loop where
  | returned
  | waits (buf : Str)
deriving DecidableEq, Repr

/-- The loop (api/proxy.go:444-461): the writes to the client and how it ends. `t` is a fresh slice, its byte is 0 when
nothing was read. -/
def copyLoop : Str → List Rd → List Str × Loop
  | buf, [] => ([], .waits buf)
  | buf, r :: rs =>
    if r.err then ([buf], .returned)
    else
      let t := r.data.getD 0
      let buf := buf ++ [t]
      let out := if t = 10 then [buf] else []
      let buf := if t = 10 then [] else buf
      if r.gone then (out, .returned)
      else ((out ++ (copyLoop buf rs).1), (copyLoop buf rs).2)

end Ckube
