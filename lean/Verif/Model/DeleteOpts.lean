import Verif.Model.ObjType
import Verif.Model.Page

/-! # `metav1.DeleteOptions` (k8s.io/apimachinery v0.21.0, `apis/meta/v1/types.go`) and its JSON form

`json.Unmarshal(opts, &options)` and `json.Marshal(options)` (api/proxy.go:123, 127). The error of
`Unmarshal` is ignored by the code: after a syntax error nothing is decoded, a member of the wrong type is
skipped, except that a pointer is allocated for it. A nil slice and an empty slice are the same here.
Simplification: a `dryRun` member that occurs a second time is decoded into an empty slice. -/

namespace Ckube

/-- `metav1.DeleteOptions`; `pre` are the preconditions (uid, resource version). -/
structure DelOpts where
  kind : Str := []
  apiVersion : Str := []
  grace : Option Int := none
  pre : Option (Option Str × Option Str) := none
  orphan : Option Bool := none
  policy : Option Str := none
  dryRun : List Str := []
deriving DecidableEq, Repr

/-- A `*string` receives a JSON value. -/
def setPtrStr (old : Option Str) : JV → Option Str
  | .null => none
  | .str s => some s
  | _ => some (old.getD [])

/-- A `*int64` receives a JSON value. -/
def setPtrInt (old : Option Int) : JV → Option Int
  | .null => none
  | .num raw => some ((parseInt64 raw).getD (old.getD 0))
  | _ => some (old.getD 0)

/-- A `*bool` receives a JSON value. -/
def setPtrBool (old : Option Bool) : JV → Option Bool
  | .null => none
  | .bool b => some b
  | _ => some (old.getD false)

/-- One member of `preconditions`. -/
def setPre (p : Option Str × Option Str) (kv : Str × JV) : Option Str × Option Str :=
  let k := foldKey 0 kv.1
  if k = lit "uid" then (setPtrStr p.1 kv.2, p.2)
  else if k = lit "resourceversion" then (p.1, setPtrStr p.2 kv.2)
  else p

/-- A `*Preconditions` receives a JSON value. -/
def setPtrPre (old : Option (Option Str × Option Str)) : JV → Option (Option Str × Option Str)
  | .null => none
  | .obj ms => some (ms.foldl setPre (old.getD (none, none)))
  | _ => some (old.getD (none, none))

/-- An element of a `[]string`. -/
def strElem : JV → Str
  | .str s => s
  | _ => []

/-- A `[]string` receives a JSON value. -/
def setStrs (old : List Str) : JV → List Str
  | .null => []
  | .arr xs => xs.map strElem
  | _ => old

/-- One member of the options. -/
def setDelMember (o : DelOpts) (kv : Str × JV) : DelOpts :=
  let k := foldKey 0 kv.1
  if k = lit "kind" then { o with kind := setStr o.kind kv.2 }
  else if k = lit "apiversion" then { o with apiVersion := setStr o.apiVersion kv.2 }
  else if k = lit "graceperiodseconds" then { o with grace := setPtrInt o.grace kv.2 }
  else if k = lit "preconditions" then { o with pre := setPtrPre o.pre kv.2 }
  else if k = lit "orphandependents" then { o with orphan := setPtrBool o.orphan kv.2 }
  else if k = lit "propagationpolicy" then { o with policy := setPtrStr o.policy kv.2 }
  else if k = lit "dryrun" then { o with dryRun := setStrs o.dryRun kv.2 }
  else o

/-- `json.Unmarshal` into zero options, errors ignored (api/proxy.go:122-123). -/
def decodeDelete (s : Str) : DelOpts :=
  match Json.parse s with
  | some (.obj ms) => ms.foldl setDelMember {}
  | _ => {}

/-- A member that is left out when there is nothing to write. -/
def optMember {α : Type} (k : Str) (f : α → JV) : Option α → List (Str × JV)
  | none => []
  | some a => [(k, f a)]

/-- A string member with `omitempty`. -/
def strMember (k s : Str) : List (Str × JV) := if s = [] then [] else [(k, .str s)]

/-- The members of the preconditions. -/
def preMembers (p : Option Str × Option Str) : List (Str × JV) :=
  optMember (lit "uid") JV.str p.1 ++ optMember (lit "resourceVersion") JV.str p.2

/-- The members `json.Marshal` writes for the options (all have `omitempty`). -/
def DelOpts.members (o : DelOpts) : List (Str × JV) :=
  strMember (lit "kind") o.kind ++ strMember (lit "apiVersion") o.apiVersion
    ++ optMember (lit "gracePeriodSeconds") (fun i => JV.num (intDigits i)) o.grace
    ++ optMember (lit "preconditions") (fun p => JV.obj (preMembers p)) o.pre
    ++ optMember (lit "orphanDependents") JV.bool o.orphan
    ++ optMember (lit "propagationPolicy") JV.str o.policy
    ++ (if o.dryRun = [] then [] else [(lit "dryRun", JV.arr (o.dryRun.map JV.str))])

/-- `json.Marshal(options)`. -/
def DelOpts.toJson (o : DelOpts) : Str := Json.enc (.obj o.members)

end Ckube
