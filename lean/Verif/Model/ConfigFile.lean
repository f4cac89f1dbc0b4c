import Verif.Model.Reload
import Verif.Model.Page

/-! # The configuration file (common/config.go:3-20, cmd/cacheproxy/main.go:70-80)

`json.Unmarshal` into a `common.Config`. A type error is returned after the rest has been decoded, and `loadFromConfig` then gives up, so `none` stands for it at
once. A nil map or slice and an empty one are the same here: the code only ranges over them. Simplification: a second `proxies` member is decoded into the elements the
first has left, as in Go, but what is left beyond their number in the capacity of the slice is taken as zero. -/

namespace Ckube

/-- A `string` receives a JSON value; `none`: type error. -/
def readStr (old : Str) : JV → Option Str
  | .str s => some s
  | .null => some old
  | _ => none

/-- An entry of a `map[string]string`: the value is decoded into an empty string. -/
def readEntry (m : List (Str × Str)) (kv : Str × JV) : Option (List (Str × Str)) := (readStr [] kv.2).map fun v => insertKV kv.1 v m

/-- A `map[string]string` receives a JSON value; entries are added to an existing map. -/
def readIndex (old : List (Str × Str)) : JV → Option (List (Str × Str))
  | .null => some []
  | .obj ms => ms.foldlM readEntry old
  | _ => none

/-- A member of an element of `proxies` (common/config.go:3-9). -/
def readProxyMember (p : ProxyConf) (kv : Str × JV) : Option ProxyConf :=
  let k := foldKey 0 kv.1
  if k = lit "group" then (readStr p.group kv.2).map fun v => { p with group := v }
  else if k = lit "version" then (readStr p.version kv.2).map fun v => { p with version := v }
  else if k = lit "resource" then (readStr p.resource kv.2).map fun v => { p with resource := v }
  else if k = lit "list_kind" then (readStr p.listKind kv.2).map fun v => { p with listKind := v }
  else if k = lit "index" then (readIndex p.index kv.2).map fun v => { p with index := v }
  else some p

/-- A `Proxy` receives a JSON value. -/
def readProxy (p : ProxyConf) : JV → Option ProxyConf
  | .null => some p
  | .obj ms => ms.foldlM readProxyMember p
  | _ => none

/-- The elements of an array; `old`: the elements the slice has. -/
def readElems : List ProxyConf → List JV → Option (List ProxyConf)
  | _, [] => some []
  | old, x :: xs => (readProxy (old.headD {}) x).bind fun p => (readElems old.tail xs).map (p :: ·)

/-- A `[]Proxy` receives a JSON value. -/
def readProxies (old : List ProxyConf) : JV → Option (List ProxyConf)
  | .null => some []
  | .arr xs => readElems old xs
  | _ => none

/-- A member of the configuration (common/config.go:15-20). -/
def readConfigMember (c : Config) (kv : Str × JV) : Option Config :=
  let k := foldKey 0 kv.1
  if k = lit "proxies" then (readProxies c.proxies kv.2).map fun v => { c with proxies := v }
  else if k = lit "default_cluster" then (readStr c.defaultCluster kv.2).map fun v => { c with defaultCluster := v }
  else if k = lit "token" then (readStr c.token kv.2).map fun v => { c with token := v }
  else some c

/-- A `Config` receives a JSON value. -/
def readConfig (c : Config) : JV → Option Config
  | .null => some c
  | .obj ms => ms.foldlM readConfigMember c
  | _ => none

/-- The configuration in a file with the bytes `bs` (cmd/cacheproxy/main.go:70-80); `none`: the load fails. -/
def configText (bs : Str) : Option Config := (Json.parse bs).bind (readConfig {})

end Ckube
