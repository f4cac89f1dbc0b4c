import Verif.Model.Json
import Verif.Model.Store

/-! # `ObjType`, the form of objects of unregistered kinds (watcher/watcher.go:46-94)

JSON values decoded into `interface{}` and encoded again. Two parts are parameters: `num`, the text that
`json.Marshal` prints for the `float64` that a number literal was decoded to (`none`: out of range, which
`json.Unmarshal` turns into nil and an error that is ignored here), and `om`, the JSON value of an
`ObjectMeta` that was decoded from a JSON value. -/

namespace Ckube

mutual
/-- `json.Marshal` of a value made of nil, bool, numbers, strings, slices and maps; object members in the
given order. -/
def Json.enc : JV → Str
  | .null => lit "null"
  | .bool true => lit "true"
  | .bool false => lit "false"
  | .num raw => raw
  | .str s => Json.encStr s
  | .arr xs => [91] ++ Json.encElems xs ++ [93]
  | .obj ms => [123] ++ Json.encMembers ms ++ [125]

def Json.encElems : List JV → Str
  | [] => []
  | x :: xs => Json.enc x ++ (match xs with | [] => [] | _ :: _ => [44] ++ Json.encElems xs)

def Json.encMembers : List (Str × JV) → Str
  | [] => []
  | (k, v) :: ms => Json.encStr k ++ [58] ++ Json.enc v ++ (match ms with | [] => [] | _ :: _ => [44] ++ Json.encMembers ms)
end

/-- A Go map filled in this order: of several entries with one key the last remains. Written in the order of
the keys, as `json.Marshal` does. -/
def goMap (ms : List (Str × JV)) : List (Str × JV) :=
  sortBy (fun a b => strLe a.1 b.1) (ms.foldl (fun m e => insertKV e.1 e.2 m) [])

mutual
/-- `json.Unmarshal` into `interface{}`. -/
def toGo (num : Str → Option Str) : JV → JV
  | .null => .null
  | .bool b => .bool b
  | .num raw => match num raw with | some t => .num t | none => .null
  | .str s => .str s
  | .arr xs => .arr (toGoElems num xs)
  | .obj ms => .obj (goMap (toGoMembers num ms))

def toGoElems (num : Str → Option Str) : List JV → List JV
  | [] => []
  | x :: xs => toGo num x :: toGoElems num xs

def toGoMembers (num : Str → Option Str) : List (Str × JV) → List (Str × JV)
  | [] => []
  | (k, v) :: ms => (k, toGo num v) :: toGoMembers num ms
end

/-- `ObjType` (watcher/watcher.go:46-50); `om` is the JSON value of its `ObjectMeta`. -/
structure ObjType where
  apiVersion : Str := []
  kind : Str := []
  om : JV
  data : List (Str × JV)

/-- `v, ok := m[k]; ok` then `v.(string)` (watcher/watcher.go:55-60): `none` when the conversion panics. -/
def strField (k : Str) (m : List (Str × JV)) : Option Str :=
  match lookup k m with
  | none => some []
  | some (.str s) => some s
  | some _ => none

/-- The map that `json.Unmarshal(bytes, &m)` leaves (watcher/watcher.go:53-54): empty on any error of
the text, nil (here: empty) for `null`. -/
def decodeMap (num : Str → Option Str) (bytes : Str) : List (Str × JV) :=
  match Json.parse bytes with
  | some (.obj ms) => goMap (toGoMembers num ms)
  | _ => []

/-- `(*ObjType).UnmarshalJSON` (watcher/watcher.go:52-70); `none` when it panics. -/
def ObjType.unmarshal (num : Str → Option Str) (om : JV → JV) (bytes : Str) : Option ObjType :=
  let m := decodeMap num bytes
  match strField (lit "apiVersion") m, strField (lit "kind") m with
  | some a, some k =>
    some { apiVersion := a, kind := k
           om := om ((lookup (lit "metadata") m).getD .null)
           data := eraseKV (lit "metadata") (eraseKV (lit "kind") (eraseKV (lit "apiVersion") m)) }
  | _, _ => none

/-- The members of `TypeMeta` and `ObjectMeta`: empty strings are omitted, the metadata never. -/
def ObjType.typeMembers (o : ObjType) : List (Str × JV) :=
  (if o.kind = [] then [] else [(lit "kind", JV.str o.kind)])
    ++ (if o.apiVersion = [] then [] else [(lit "apiVersion", JV.str o.apiVersion)])
    ++ [(lit "metadata", o.om)]

/-- `(*ObjType).MarshalJSON` (watcher/watcher.go:72-94). -/
def ObjType.marshal (o : ObjType) : Str :=
  let bsm := Json.enc (.obj o.data)
  let bso := Json.enc (.obj o.typeMembers)
  if bsm = lit "{}" ∨ bsm = lit "null" then bso
  else if bso = lit "{}" then bsm
  else bsm.take (bsm.length - 1) ++ [44] ++ bso.drop 1

end Ckube
