import Verif.Model.Kube
import Verif.Model.Quote
import Verif.Model.Json
import Verif.Model.Base64
import Verif.Model.Constants

/-! # page/page.go -/

namespace Ckube

/-- `page.Paginate` (page/page.go:17-23). The integers are `int64` in the code; the model keeps
them as integers, theorems state the range where it matters. -/
structure Paginate where
  page : Int := 0
  pageSize : Int := 0
  total : Int := 0
  sort : Str := []
  search : Str := []
deriving DecidableEq, Repr

/-! ## Search parts -/

/-- The loop of `SearchParts` (page/page.go:38-51) before `trimPart`: `cur` is
`search[start:i]`, `skip` says that the current byte is the second `;` of a pair. The last byte
is never examined (the loop runs to `l-1`). -/
def rawParts : Bool → Str → Str → List Str
  | _, cur, [] => [cur]
  | true, cur, c :: r => rawParts false (cur ++ [c]) r
  | false, cur, c :: r =>
    if c = partsSep then
      match r.head? with
      | none => rawParts false (cur ++ [c]) r
      | some d => if d = partsSep then rawParts true (cur ++ [c]) r else cur :: rawParts false [] r
    else rawParts false (cur ++ [c]) r

/-- `strings.ReplaceAll(s, ";;", ";")` (page/page.go:36); the flag says that the current byte
was already consumed. -/
def undouble : Bool → Str → Str
  | _, [] => []
  | true, _ :: r => undouble false r
  | false, c :: r =>
    if c = partsSep ∧ r.head? = some partsSep then partsSep :: undouble true r
    else c :: undouble false r

/-- `strings.ReplaceAll(s, ";", ";;")` (page/page.go:181). -/
def double (s : Str) : Str := s.flatMap fun c => if c = partsSep then [partsSep, partsSep] else [c]

/-- `Paginate.SearchParts` (page/page.go:30-59). -/
def searchParts (search : Str) : List Str :=
  ((rawParts false [] search).map (undouble false)).filter (fun p => !p.isEmpty)

/-- `SetSearchWithParts` (page/page.go:179-188): the new search. -/
def joinParts (parts : List Str) : Str := join [partsSep] (parts.map double)

/-! ## Matching -/

/-- `parseValue` (page/page.go:61-66). -/
def parseValue (v : Str) : Str × Bool :=
  match v with
  | [] => ([], false)
  | c :: r => if c = 33 then (r, true) else (c :: r, false)

/-- `Match` for a single part (page/page.go:82-138); `none` is an error. `m` in the order in
which this run iterates over the map. -/
def match1 (isPrint : Nat → Bool) (m : List (Str × Str)) (part : Str) : Option Bool :=
  let search := trimSpace part
  if search = [] then some true
  else if hasPrefix search advPrefix then
    if search.length = advPrefix.length then none
    else ((parseToLabelSelector (search.drop advPrefix.length)).bind asSelector).map
      fun rs => selMatches rs m
  else
    let kv : Str × Str := match indexByte 61 search with
      | none => ([], search)
      | some i => (search.take i, search.drop (i + 1))
    let value := (parseValue kv.2).1
    let reverse := (parseValue kv.2).2
    if kv.1 ≠ [] then
      match lookup kv.1 m with
      | none => none
      | some v => some (if reverse then !contains (quote isPrint v) value
                        else contains (quote isPrint v) value)
    else
      if m.any (fun e => contains (quote isPrint e.2) value) then some (!reverse) else some reverse

/-- The loop of `Match` over several parts (page/page.go:70-79): the number of matching parts. -/
def matchLoop (isPrint : Nat → Bool) (m : List (Str × Str)) : List Str → Nat → Option Nat
  | [], n => some n
  | p :: ps, n =>
    match match1 isPrint m p with
    | none => none
    | some r => matchLoop isPrint m ps (if r then n + 1 else n)

/-- `Match` (page/page.go:68-139). -/
def matchParts (isPrint : Nat → Bool) (m : List (Str × Str)) (parts : List Str) : Option Bool :=
  match parts with
  | [p] => match1 isPrint m p
  | ps => (matchLoop isPrint m ps 0).map (fun n => n = ps.length)

/-- `Paginate.Match` (page/page.go:25-28). -/
def Paginate.matches (isPrint : Nat → Bool) (p : Paginate) (m : List (Str × Str)) : Option Bool :=
  matchParts isPrint m (searchParts p.search)

/-! ## The advanced part -/

/-- `SearchSelector` (page/page.go:141-161). -/
def searchSelector (search : Str) : Option LabelSelector :=
  match (searchParts search).find? (hasPrefix · advPrefix) with
  | none => some {}
  | some part =>
    if part.length = advPrefix.length then some {}
    else parseToLabelSelector (part.drop advPrefix.length)

/-- `SetSearchSelector` (page/page.go:163-177): the new search, `none` on error. -/
def setSearchSelector (search : Str) (sel : LabelSelector) : Option Str :=
  (formatSelector sel).map fun sstr =>
    joinParts ((advPrefix ++ sstr)
      :: (searchParts search).filter (fun part => !hasPrefix part advPrefix))

/-- Replace the requirement on `key` (page/page.go:195-208, 222-235). -/
def restrictTo (key : Str) (vals : List Str) (s : LabelSelector) : LabelSelector :=
  { s with matchExprs := ⟨key, .isIn, vals⟩ :: s.matchExprs.filter (fun r => r.key ≠ key) }

def nsKey : Str := lit "namespace"
def clusterKey : Str := lit "cluster"

/-- `Namespaces` (page/page.go:190-210): the new search, `none` on error. -/
def setNamespaces (search : Str) (nss : List Str) : Option Str :=
  (searchSelector search).bind fun s => setSearchSelector search (restrictTo nsKey nss s)

/-- `Clusters` (page/page.go:212-237): the new search, `none` on error. -/
def setClusters (search : Str) (css : List Str) : Option Str :=
  (searchSelector search).bind fun s =>
    if [] ∈ css then none else setSearchSelector search (restrictTo clusterKey css s)

/-- `GetClusters` (page/page.go:239-254). -/
def getClusters (search : Str) : List Str :=
  match searchSelector search with
  | none => []
  | some s => match s.matchExprs.find? (fun r => r.key = clusterKey) with
    | none => []
    | some r => r.vals

/-! ## JSON form -/

/-- The members `json.Marshal` writes for a `Paginate` (`omitempty`, page/page.go:18-22). -/
def Paginate.members (p : Paginate) : List (Str × Str) :=
  (if p.page = 0 then [] else [(lit "page", intDigits p.page)])
    ++ (if p.pageSize = 0 then [] else [(lit "page_size", intDigits p.pageSize)])
    ++ (if p.total = 0 then [] else [(lit "total", intDigits p.total)])
    ++ (if p.sort = [] then [] else [(lit "sort", Json.encStr p.sort)])
    ++ (if p.search = [] then [] else [(lit "search", Json.encStr p.search)])

/-- One member `"name":value`. -/
def encMember (kv : Str × Str) : Str := [34] ++ kv.1 ++ [34, 58] ++ kv.2

/-- `json.Marshal(page)` (page/page.go:297). -/
def Paginate.toJson (p : Paginate) : Str := [123] ++ join [44] (p.members.map encMember) ++ [125]

/-- Case folding of a member name as done by encoding/json for field names made of ASCII
letters and `_`: ASCII case, `ſ` (U+017F) as `s`, `K` (U+212A) as `k`. The number is how many
bytes to skip. -/
def foldKey : Nat → Str → Str
  | _, [] => []
  | n + 1, _ :: r => foldKey n r
  | 0, c :: r =>
    if 65 ≤ c ∧ c ≤ 90 then (c + 32) :: foldKey 0 r
    else if c = 0xC5 ∧ r.head? = some 0xBF then 115 :: foldKey 1 r
    else if c = 0xE2 ∧ r.take 2 = [0x84, 0xAA] then 107 :: foldKey 2 r
    else c :: foldKey 0 r

/-- An `int64` field receives a JSON value: numbers that are `int64` literals are stored,
`null` and type errors leave it unchanged. -/
def setInt (old : Int) : JV → Int
  | .num raw => (parseInt64 raw).getD old
  | _ => old

/-- A `string` field receives a JSON value. -/
def setStr (old : Str) : JV → Str
  | .str s => s
  | _ => old

/-- One member of the JSON object is stored in the field with that name (exact match first,
then case-insensitive; both select the same field because the lower-case names are distinct). -/
def setMember (p : Paginate) (kv : Str × JV) : Paginate :=
  let k := foldKey 0 kv.1
  if k = lit "page" then { p with page := setInt p.page kv.2 }
  else if k = lit "page_size" then { p with pageSize := setInt p.pageSize kv.2 }
  else if k = lit "total" then { p with total := setInt p.total kv.2 }
  else if k = lit "sort" then { p with sort := setStr p.sort kv.2 }
  else if k = lit "search" then { p with search := setStr p.search kv.2 }
  else p

/-- `_ = json.Unmarshal(rr, &paginate)` (api/proxy.go:168) on a zero `Paginate`: a syntax error
leaves it zero, type errors of single members are skipped. -/
def decodePaginate (s : Str) : Paginate :=
  match Json.parse s with
  | some (.obj ms) => ms.foldl setMember {}
  | _ => {}

/-! ## Client-side options -/

/-- `QueryListOptions` (page/page.go:296-327) on the label selector of the options (the other
options are returned as they are); `none` is an error. -/
def queryListOptions (labelSelector : Str) (page : Paginate) : Option Str :=
  if page.toJson = lit "{}" then some labelSelector
  else
    (parseToLabelSelector labelSelector).bind fun ls =>
      formatSelector { ls with matchExprs :=
        ⟨paginateKey, .notIn, splittingValue (Base64.encode page.toJson)⟩
          :: ls.matchExprs.filter (fun m => m.key ≠ paginateKey) }

/-- `QueryGetOptions`, `QueryCreateOptions`, `QueryUpdateOptions`, `QueryPatchOptions`
(page/page.go:256-286): the string field used for the cluster marker and the error flag. -/
def wrapField (field cluster : Str) : Str × Bool :=
  if field ≠ [] then (field, true) else (clusterPrefix ++ cluster, false)

/-- `QueryDeleteOptions` (page/page.go:288-294) on `DryRun`. -/
def wrapDryRun (dryRun : List Str) (cluster : Str) : List Str × Bool :=
  if dryRun.length ≠ 0 then (dryRun, true) else ([clusterPrefix ++ cluster], false)

/-- `MakeupResPaginate` (page/page.go:329-349): the total, from `remainingItemCount` (`none`
when absent) and the number of items; `int64` arithmetic wraps. -/
def makeupTotal (remain : Option Int) (items : Int) (page : Paginate) : Int :=
  wrap64 (wrap64 (remain.getD 0 + wrap64 (wrap64 (page.page - 1) * page.pageSize)) + items)

end Ckube
