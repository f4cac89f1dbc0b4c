import Verif.Model.Json
import Verif.Model.Sort

/-! # The in-memory store, used by one goroutine at a time (store/memory/memory.go)

A `syncResourceStore` is an association list; a nil map and an empty map behave alike. The list order is
the order in which the map is iterated; `Shuffle` (below) relates a store to the same store with
other orders. The interleavings of several goroutines are in `Model/Conc.lean`. A nil pointer
dereference is `none`. Objects are values: the annotations that `buildResourceWithIndex` writes into the
object it is given are written to the copy that is stored. -/

namespace Ckube

/-- `store.GroupVersionResource` (store/model.go:3-7). -/
structure GVR where
  group : Str
  version : Str
  resource : Str
  deriving DecidableEq

/-- namespace → name → object (store/memory/memory.go:107-110) -/
abbrev Leaf := List (Str × SObj)
abbrev NsMap := List (Str × Leaf)
/-- cluster → namespace → name → object (store/memory/memory.go:105-111) -/
abbrev ClMap := List (Str × NsMap)

/-- `memoryStore` (store/memory/memory.go:100-114) together with the gauge
`prommonitor.Resources` it maintains, keyed by cluster, resource type and namespace. -/
structure Store where
  conf : List (GVR × List (Str × Str))
  data : List (GVR × ClMap)
  gauge : List ((Str × GVR × Str) × Nat) := []

/-- `syncResourceStore.Init` (store/memory/memory.go:39-49). -/
def initKV {κ ν : Type} [DecidableEq κ] (k : κ) (zero : ν) (m : List (κ × ν)) : List (κ × ν) :=
  match lookup k m with
  | some _ => m
  | none => insertKV k zero m

/-- `NewMemoryStore` (store/memory/memory.go:116-124). -/
def newStore (conf : List (GVR × List (Str × Str))) : Store :=
  { conf := conf, data := conf.foldl (fun d e => initKV e.1 ([] : ClMap) d) [] }

/-- `IsStoreGVR` (store/memory/memory.go:131-133). -/
def Store.isStoreGVR (s : Store) (g : GVR) : Bool := (lookup g s.data).isSome

/-- Value of one configured index (store/memory/memory.go:363-391). `eval` stands for executing a Go template
or a JSON path on the JSON form of the object; it returns what has been written, which is empty when
the expression does not parse. That an expression may leave state in the shared template object for the
next one is left to `sharedIndex` (Model/Template.lean). -/
def indexValue (eval : Str → Obj → Str) (o : Obj) (expr : Str) : Str :=
  if contains expr (lit "{{") then eval expr o
  else if !contains expr (lit "{") then expr
  else eval expr o

/-- `json.Marshal` of a `map[string]string`: members sorted by key. -/
def encodeMap (m : List (Str × Str)) : Str :=
  [123] ++ join [44] ((sortBy (fun a b => strLe a.1 b.1) m).map fun kv =>
    Json.encStr kv.1 ++ [58] ++ Json.encStr kv.2) ++ [125]

/-- The index before the built-in entries (store/memory/memory.go:363-391). -/
def confIndex (eval : Str → Obj → Str) (conf : List (Str × Str)) (o : Obj) : List (Str × Str) :=
  conf.map fun kv => (kv.1, indexValue eval o kv.2)

/-- `buildResourceWithIndex` (store/memory/memory.go:354-429): namespace, name and the object to store. -/
def build (eval : Str → Obj → Str) (conf : List (Str × Str)) (cluster : Str) (o : Obj) : Str × Str × SObj :=
  let idx := confIndex eval conf o
  let ns := (lookup (lit "namespace") idx).getD []
  let name := (lookup (lit "name") idx).getD []
  let idx := insertKV (lit "cluster") cluster idx
  match o.om with
  | none => (ns, name, ⟨idx, o⟩)
  | some m =>
    let idx := insertKV (lit "is_deleted") (if m.deleted then lit "true" else lit "false") idx
    let anno := insertKV indexAnno (encodeMap idx) (insertKV clusterAnno cluster m.annos)
    let idx := insertKV (lit "name") m.name (insertKV (lit "namespace") m.ns idx)
    (m.ns, m.name, ⟨idx, { o with om := some { m with annos := anno } }⟩)

/-- Index configuration of a type (`m.indexConf[gvr]`, nil when absent). -/
def Store.confOf (s : Store) (g : GVR) : List (Str × Str) := (lookup g s.conf).getD []

/-- `initResourceNamespace` (store/memory/memory.go:126-129) on the clusters of the resource type. -/
def initNs (cluster ns : Str) (cm : ClMap) : ClMap :=
  let cm := initKV cluster [] cm
  insertKV cluster (initKV ns [] ((lookup cluster cm).getD [])) cm

/-- Replace the leaf of a namespace; `initNs` has been called, so it exists. -/
def updLeaf (cluster ns : Str) (f : Leaf → Leaf) (cm : ClMap) : ClMap :=
  let nm := (lookup cluster cm).getD []
  insertKV cluster (insertKV ns (f ((lookup ns nm).getD [])) nm) cm

/-- The common part of the three notifications: initialise, change the leaf, set the gauge to the length
of the leaf (store/memory/memory.go:145-170). `none`: the resource type is not configured and
`m.resourceMap.Get(gvr)` is nil. -/
def Store.notify (s : Store) (g : GVR) (cluster ns : Str) (f : Leaf → Leaf) : Option Store :=
  match lookup g s.data with
  | none => none
  | some cm =>
    let cm := updLeaf cluster ns f (initNs cluster ns cm)
    let leaf := (lookup ns ((lookup cluster cm).getD [])).getD []
    some { s with data := insertKV g cm s.data, gauge := insertKV (cluster, g, ns) leaf.length s.gauge }

/-- `OnResourceAdded` and `OnResourceModified`, whose bodies are identical
(store/memory/memory.go:145-161). -/
def Store.put (eval : Str → Obj → Str) (s : Store) (g : GVR) (cluster : Str) (o : Obj) : Option Store :=
  let b := build eval (s.confOf g) cluster o
  s.notify g cluster b.1 (insertKV b.2.1 b.2.2)

/-- `OnResourceAdded` (store/memory/memory.go:145-152). -/
def Store.onAdded (eval : Str → Obj → Str) (s : Store) (g : GVR) (cluster : Str) (o : Obj) : Option Store :=
  s.put eval g cluster o

/-- `OnResourceModified` (store/memory/memory.go:154-161). -/
def Store.onModified (eval : Str → Obj → Str) (s : Store) (g : GVR) (cluster : Str) (o : Obj) : Option Store :=
  s.put eval g cluster o

/-- `OnResourceDeleted` (store/memory/memory.go:163-170). -/
def Store.onDeleted (eval : Str → Obj → Str) (s : Store) (g : GVR) (cluster : Str) (o : Obj) : Option Store :=
  let b := build eval (s.confOf g) cluster o
  s.notify g cluster b.1 (eraseKV b.2.1)

/-- `Clean` (store/memory/memory.go:135-143): the new store and whether an error is returned. The namespaces
stay, emptied; the gauge is not touched. -/
def Store.clean (s : Store) (g : GVR) (cluster : Str) : Option (Store × Bool) :=
  match lookup g s.data with
  | none => none
  | some cm =>
    match lookup cluster cm with
    | none => some (s, true)
    | some nm =>
      some ({ s with data := insertKV g (insertKV cluster (nm.map fun e => (e.1, ([] : Leaf))) cm) s.data }, false)

/-- `Get` (store/memory/memory.go:274-287); `none` is nil. -/
def Store.get (s : Store) (g : GVR) (cluster ns name : Str) : Option Obj :=
  (lookup g s.data).bind fun cm => (lookup cluster cm).bind fun nm => (lookup ns nm).bind fun leaf =>
    (lookup name leaf).map SObj.obj

/-- The calls that change a store (store/interface.go:17-20). -/
inductive Notice where
  | added (g : GVR) (cluster : Str) (o : Obj)
  | modified (g : GVR) (cluster : Str) (o : Obj)
  | deleted (g : GVR) (cluster : Str) (o : Obj)
  | clean (g : GVR) (cluster : Str)

/-- The resource type of a call. -/
def Notice.gvr : Notice → GVR
  | .added g _ _ | .modified g _ _ | .deleted g _ _ | .clean g _ => g

/-- One call. -/
def Store.step (eval : Str → Obj → Str) (s : Store) : Notice → Option Store
  | .added g c o => s.onAdded eval g c o
  | .modified g c o => s.onModified eval g c o
  | .deleted g c o => s.onDeleted eval g c o
  | .clean g c => (s.clean g c).map Prod.fst

/-- A history of calls. -/
def Store.run (eval : Str → Obj → Str) (s : Store) : List Notice → Option Store
  | [] => some s
  | n :: h => (s.step eval n).bind fun s' => s'.run eval h

/-! ## Queries -/

/-- `store.Query` (store/interface.go:10-13). -/
structure Query where
  ns : Str := []
  page : Paginate := {}

/-- `store.QueryResult` (store/model.go:9-13); `error`: `Error` is not nil. -/
structure QueryResult where
  error : Bool := false
  items : List Obj := []
  total : Int := 0
  deriving DecidableEq

/-- The objects the nested `ForEach` of `Query` visits, in this order (store/memory/memory.go:292-307). -/
def visited (ns : Str) (cm : ClMap) : List SObj :=
  cm.flatMap fun c => c.2.flatMap fun n => if ns = [] ∨ ns = n.1 then n.2.map Prod.snd else []

/-- The slice bounds (store/memory/memory.go:318-332); `int64` arithmetic wraps. -/
def bounds (page pageSize l : Int) : Int × Int :=
  if pageSize = 0 then (0, l)
  else
    let start := wrap64 (wrap64 (page - 1) * pageSize)
    let stop := wrap64 (start + pageSize)
    (if start ≥ l then l else start, if stop ≥ l then l else stop)

/-- `l[start:end]`; `none` when the runtime panics. After the clamping above the capacity of the slice does not
matter: `end` is at most the length. -/
def slice {α : Type} (l : List α) (start stop : Int) : Option (List α) :=
  if 0 ≤ start ∧ start ≤ stop ∧ stop ≤ l.length then
    some ((l.drop start.toNat).take (stop - start).toNat)
  else none

/-- `Query` on the objects `vs` it visits, in this order (store/memory/memory.go:290-337); `none` when it
panics. -/
def queryList (isPrint : Nat → Bool) (alg : SliceSort) (parseFloat : Str → Option GoFloat) (vs : List SObj)
    (q : Query) : Option QueryResult :=
  let resources := vs.filter fun o => q.page.matches isPrint o.index == some true
  let matchErr := vs.any fun o => (q.page.matches isPrint o.index).isNone
  if resources.length = 0 then some { error := matchErr }
  else
    let sorted := sortObjs alg parseFloat resources q.page.sort
    if sorted.2 then some { error := true }
    else
      let l : Int := resources.length
      let b := bounds q.page.page q.page.pageSize l
      (slice sorted.1 b.1 b.2).map fun items =>
        { error := matchErr, items := items.map SObj.obj, total := l }

/-- `Query` on the clusters of the type (store/memory/memory.go:290-337); `none` when it panics. -/
def queryMap (isPrint : Nat → Bool) (alg : SliceSort) (parseFloat : Str → Option GoFloat) (cm : ClMap)
    (q : Query) : Option QueryResult :=
  queryList isPrint alg parseFloat (visited q.ns cm) q

/-- `Query` (store/memory/memory.go:289-337); `none` when it panics, also because the type is not
configured. -/
def Store.query (isPrint : Nat → Bool) (alg : SliceSort) (parseFloat : Str → Option GoFloat) (s : Store)
    (g : GVR) (q : Query) : Option QueryResult :=
  (lookup g s.data).bind fun cm => queryMap isPrint alg parseFloat cm q

/-! ## Map iteration orders -/

/-- `b` holds the same entries as `a`, in any order; their values are related by `R`. -/
def ShuffleMap {κ ν : Type} (R : ν → ν → Prop) (a b : List (κ × ν)) : Prop :=
  ∃ l : List (κ × ν × ν), (l.map fun e => (e.1, e.2.1)).Perm a ∧ (l.map fun e => (e.1, e.2.2)) = b
    ∧ ∀ e ∈ l, R e.2.1 e.2.2

/-- The clusters of a type with other iteration orders of all the maps. -/
def Shuffle (a b : ClMap) : Prop :=
  ShuffleMap (ShuffleMap (fun (x y : Leaf) => x.Perm y)) a b

/-- A possible answer of `Query`: the maps are iterated in any order. -/
def Store.answers (isPrint : Nat → Bool) (alg : SliceSort) (parseFloat : Str → Option GoFloat) (s : Store)
    (g : GVR) (q : Query) (r : Option QueryResult) : Prop :=
  match lookup g s.data with
  | none => r = none
  | some cm => ∃ cm', Shuffle cm cm' ∧ r = queryMap isPrint alg parseFloat cm' q

/-- The answer of `Query` when it meets the stored objects in some order. This allows more than `Store.answers`: the objects of two
clusters may be mixed. Claims about every answer are proved for these. -/
def Store.mayAnswer (isPrint : Nat → Bool) (alg : SliceSort) (parseFloat : Str → Option GoFloat) (s : Store)
    (g : GVR) (q : Query) (r : Option QueryResult) : Prop :=
  match lookup g s.data with
  | none => r = none
  | some cm => ∃ vs : List SObj, vs.Perm (visited q.ns cm) ∧ r = queryList isPrint alg parseFloat vs q

end Ckube
