import Verif.Model.Constants
import Verif.Model.Page

/-! # Sorting of query results (store/memory/memory.go:172-272) -/

namespace Ckube

/-- The parts of a cached object the code looks at besides its opaque content: `metav1.Object`
accessors. `deleted` is `GetDeletionTimestamp() != nil`, `owners` the (kind, name) of the owner
references. -/
structure ObjMeta where
  name : Str := []
  ns : Str := []
  labels : List (Str × Str) := []
  annos : List (Str × Str) := []
  deleted : Bool := false
  owners : List (Str × Str) := []
  deriving DecidableEq

/-- An `interface{}` put into the store. `om = none`: the value does not implement
`metav1.Object`. `selector` is `spec.selector` of a service (`none`: nil map); `body` stands for the rest. -/
structure Obj where
  om : Option ObjMeta := none
  selector : Option (List (Str × Str)) := none
  body : Str := []
  deriving DecidableEq

/-- `store.Object` (store/model.go:15-18). -/
structure SObj where
  index : List (Str × Str)
  obj : Obj
  deriving DecidableEq

/-- What `strconv.ParseFloat(_, 64)` can return without error, as far as `<` and `==` see it: NaN,
or a number; the numbers are totally ordered and are represented by their rank. -/
inductive GoFloat where
  | nan
  | num (rank : Int)
  deriving DecidableEq

/-- Go `<` on floats. -/
def GoFloat.lt : GoFloat → GoFloat → Bool
  | .num a, .num b => a < b
  | _, _ => false

/-- Go `==` on floats. -/
def GoFloat.eq : GoFloat → GoFloat → Bool
  | .num a, .num b => a = b
  | _, _ => false

/-- `innerSort` (store/memory/memory.go:172-176); `num`: the type is `int`. -/
structure SortKey where
  key : Str
  num : Bool
  reverse : Bool
  deriving DecidableEq

/-- Outcome of reading one item of a sort expression. -/
inductive SortItem where
  /-- the item is empty (store/memory/memory.go:190-192) -/
  | skip
  /-- more than two blank separated parts: `return objs, nil` (store/memory/memory.go:199-201) -/
  | giveUp
  /-- an error is returned -/
  | bad
  | key (k : SortKey)
  deriving DecidableEq

/-- The direction part of an item (store/memory/memory.go:197-214): the text before it and whether it is
`desc`. -/
def sortDirection (s : Str) : Option (Option (Str × Bool)) :=
  if (32 : UInt8) ∈ s then
    match splitByte 32 s with
    | [a, b] =>
      if b = sortDesc then some (some (a, true))
      else if b = sortAsc then some (some (a, false))
      else some none
    | _ => none
  else some (some (s, false))

/-- The type part of an item (store/memory/memory.go:215-229): the key and whether it is a number; `none`
is an error. -/
def sortType (s : Str) : Option (Str × Bool) :=
  if keyTypeSep ∈ s then
    match splitByte keyTypeSep s with
    | [a, b] =>
      if b = keyTypeInt then some (a, true)
      else if b = keyTypeStr then some (a, false)
      else none
    | _ => none
  else some (s, false)

/-- One item of the sort expression (store/memory/memory.go:188-234); `index` is the index of the first
object. In `sortDirection` the outer `none` stands for `giveUp`: after `strings.Contains(s, " ")`
there are at least two parts. -/
def sortItem (index : List (Str × Str)) (item : Str) : SortItem :=
  let s := trimSpace item
  if s = [] then .skip
  else match sortDirection s with
    | none => .giveUp
    | some none => .bad
    | some (some (s, reverse)) =>
      match sortType s with
      | none => .bad
      | some (k, num) =>
        match lookup k index with
        | none => .bad
        | some _ => .key ⟨k, num, reverse⟩

/-- Outcome of reading the sort expression. -/
inductive SortSpec where
  | giveUp
  | bad
  | keys (ks : List SortKey)
  deriving DecidableEq

/-- The loop over the items (store/memory/memory.go:188-235). -/
def sortLoop (index : List (Str × Str)) : List Str → List SortKey → SortSpec
  | [], acc => .keys acc
  | i :: is, acc =>
    match sortItem index i with
    | .skip => sortLoop index is acc
    | .giveUp => .giveUp
    | .bad => .bad
    | .key k => sortLoop index is (acc ++ [k])

/-- Value of an index key of an object: Go map access, empty when missing. -/
def SObj.val (o : SObj) (k : Str) : Str := (lookup k o.index).getD []

/-- What the comparison function does with one key (store/memory/memory.go:239-267). -/
inductive Cmp where
  /-- a number could not be parsed: `sortErr` is set and the loop left -/
  | fail
  /-- equal: go on with the next key -/
  | eq
  | lt (r : Bool)
  deriving DecidableEq

/-- One round of the loop of the comparison function (store/memory/memory.go:239-267). -/
def cmpKey (parseFloat : Str → Option GoFloat) (k : SortKey) (a b : SObj) : Cmp :=
  if k.num then
    match parseFloat (a.val k.key), parseFloat (b.val k.key) with
    | some x, some y => if x.eq y then .eq else .lt (if k.reverse then !x.lt y else x.lt y)
    | _, _ => .fail
  else if a.val k.key = b.val k.key then .eq
  else .lt (if k.reverse then !strLt (a.val k.key) (b.val k.key) else strLt (a.val k.key) (b.val k.key))

/-- The comparison function (store/memory/memory.go:237-270): its value and whether it set `sortErr`. -/
def cmpObjs (parseFloat : Str → Option GoFloat) : List SortKey → SObj → SObj → Bool × Bool
  | [], _, _ => (true, false)
  | k :: ks, a, b =>
    match cmpKey parseFloat k a b with
    | .fail => (true, true)
    | .eq => cmpObjs parseFloat ks a b
    | .lt r => (r, false)

/-- A run of `sort.Slice`: the new contents of the slice, and the pairs of elements compared. -/
structure SortRun (α : Type) where
  result : List α
  trace : List (α × α)

/-- `sort.Slice` as the code may rely on it. Its algorithm is not fixed by the Go documentation; a
`SliceSort` is any algorithm with these properties. `sorted` says more than the documentation, which only
covers strict weak orders: the comparison function of ckube answers `true` on ties. -/
structure SliceSort where
  run : (SObj → SObj → Bool) → List SObj → SortRun SObj
  perm : ∀ less l, (run less l).result.Perm l
  /-- compared elements are elements of the slice -/
  mem : ∀ less l a b, (a, b) ∈ (run less l).trace → a ∈ l ∧ b ∈ l
  /-- two or more elements: each takes part in a comparison -/
  touched : ∀ less l, 2 ≤ l.length → ∀ a ∈ l, ∃ b, (a, b) ∈ (run less l).trace ∨ (b, a) ∈ (run less l).trace
  /-- if every comparison made was answered in accordance with a total preorder (ties in any way), the
  result is sorted -/
  sorted : ∀ less l (le : SObj → SObj → Prop), (∀ a b, le a b ∨ le b a) → (∀ a b c, le a b → le b c → le a c) →
    (∀ a b, (a, b) ∈ (run less l).trace →
      (less a b = true → le a b) ∧ (less a b = false → le b a)) →
    (run less l).result.Pairwise le

/-- The sort expression used by `sortObjs` (store/memory/memory.go:179-181, 186). -/
def sortItems (s : Str) : List Str :=
  splitByte 44 (if s = [] then lit "cluster, namespace, name" else s)

/-- `sortObjs` (store/memory/memory.go:178-272): the objects and whether an error is returned. -/
def sortObjs (alg : SliceSort) (parseFloat : Str → Option GoFloat) (objs : List SObj) (s : Str) :
    List SObj × Bool :=
  match objs with
  | [] => ([], false)
  | o :: _ =>
    match sortLoop o.index (sortItems s) [] with
    | .giveUp => (objs, false)
    | .bad => (objs, true)
    | .keys ks =>
      let r := alg.run (fun a b => (cmpObjs parseFloat ks a b).1) objs
      (r.result, r.trace.any fun p => (cmpObjs parseFloat ks p.1 p.2).2)

end Ckube
