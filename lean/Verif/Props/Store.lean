import Verif.Lemmas.Found
import Verif.Lemmas.SliceSort

/-! # C20–C23, C30, C31: the cache as a map, and queries

`conf` is the configuration (resource types with their index expressions), `h` any history of
notifications. `eval` stands for the evaluation of index expressions, `isPrint` for `strconv.IsPrint` above
ASCII, `pf` for `strconv.ParseFloat` and `alg` for `sort.Slice`; every theorem holds for every choice.
`(newStore conf).run eval h = some s`: the history was processed without a crash, which by C31 is the case
whenever all its resource types are configured. -/

namespace Ckube
open Spec

variable {isPrint : Nat → Bool} {eval : Str → Obj → Str} {alg : SliceSort} {pf : Str → Option GoFloat}
  {conf : List (GVR × List (Str × Str))} {h : List Notice} {s : Store}

/-! ## Data of the examples -/

/-- Resource type `pods`. -/
def exPods : GVR := ⟨[], lit "v1", lit "pods"⟩
def exNodes : GVR := ⟨[], lit "v1", lit "nodes"⟩
/-- Two types, one with a configured index. -/
def exConf : List (GVR × List (Str × Str)) :=
  [(exPods, [(lit "node", lit "{.spec.nodeName}")]), (exNodes, [])]
/-- Every index expression yields the body of the object. -/
def exEval : Str → Obj → Str := fun _ o => o.body
def exPod (name body : String) : Obj :=
  { om := some { name := lit name, ns := lit "prod", annos := [(lit "owner", lit "me")] }, body := lit body }
def exHist : List Notice :=
  [.added exPods (lit "c1") (exPod "web" "n1"), .added exPods (lit "c1") (exPod "db" "n2"),
   .modified exPods (lit "c1") (exPod "web" "n3"), .added exPods (lit "c2") (exPod "web" "n1"),
   .deleted exPods (lit "c1") (exPod "db" "")]

/-! ## C20 -/

/-- **C20**: after any history, a read returns the object of the latest add or modify of that identity, up to
the two annotations ckube adds, unless a later delete or clean removed it; and nothing otherwise. -/
theorem C20_latest (hrun : (newStore conf).run eval h = some s) (id : Ident) :
    (∀ o, Latest eval (confAt conf) h id o →
      ∃ o', s.get id.gvr id.cluster id.ns id.name = some o' ∧ SameButMarks o o')
    ∧ ((∀ o, ¬ Latest eval (confAt conf) h id o) → s.get id.gvr id.cluster id.ns id.name = none) := by
  obtain ⟨_, hc, hl⟩ := run_look h hrun
  have hcf : s.confOf = confAt conf := by unfold Store.confOf confAt; rw [hc]
  rw [hcf] at hl
  rw [get_look]
  constructor
  · intro o ho
    rw [(hl id).1 o ho]
    exact ⟨_, rfl, build_same eval _ _ o⟩
  · intro hno
    rw [(hl id).2 hno]
    rfl

/-- The example history runs; the modified object is the latest one, the deleted one is gone. -/
example : ((newStore exConf).run exEval exHist).isSome = true
    ∧ Latest exEval (confAt exConf) exHist ⟨exPods, lit "c1", lit "prod", lit "web"⟩ (exPod "web" "n3")
    ∧ ((newStore exConf).run exEval exHist).map (fun s => ((s.get exPods (lit "c1") (lit "prod") (lit "web")).map Obj.body,
        s.get exPods (lit "c1") (lit "prod") (lit "db"))) = some (some (lit "n3"), none) := by
  refine ⟨by decide +kernel, ⟨[.added exPods (lit "c1") (exPod "web" "n1"), .added exPods (lit "c1") (exPod "db" "n2")],
    .modified exPods (lit "c1") (exPod "web" "n3"),
    [.added exPods (lit "c2") (exPod "web" "n1"), .deleted exPods (lit "c1") (exPod "db" "")],
    rfl, ⟨rfl, rfl⟩, ?_⟩, by decide +kernel⟩
  intro n hn
  simp only [List.mem_cons, List.not_mem_nil, or_false] at hn
  rcases hn with rfl | rfl
  · refine ⟨?_, fun h => h⟩
    rintro o' ⟨_, h⟩
    exact absurd h (by decide +kernel)
  · refine ⟨fun _ h => h, ?_⟩
    intro h
    have h' : identOf exEval (confAt exConf) exPods (lit "c1") (exPod "db" "")
      = ⟨exPods, lit "c1", lit "prod", lit "web"⟩ := h
    exact absurd h' (by decide +kernel)

/-! ## C23 -/

/-- **C23**: the answer of an unpaged query, in whatever order the maps are iterated, consists of the cached
objects of the type that are in the requested namespace and accepted by the search: there is a list of them,
every identity once, exactly the matching ones, whose cached objects are the items of the answer; `Total`
is their number. (An answer with an error carries no promise.) -/
theorem C23_exact (hconf : ConfOK conf) (hrun : (newStore conf).run eval h = some s) (g : GVR) (q : Query)
    (hsize : q.page.pageSize = 0) (res : QueryResult) (hans : s.mayAnswer isPrint alg pf g q (some res))
    (hok : res.error = false) :
    ∃ found : List (Ident × Obj × Obj), (found.map Prod.fst).Nodup
      ∧ (∀ id o, (∃ o', (id, o, o') ∈ found) ↔ Matching isPrint eval conf h g q id o)
      ∧ (∀ e ∈ found, s.get e.1.gvr e.1.cluster e.1.ns e.1.name = some e.2.2)
      ∧ res.items = found.map (fun e => e.2.2) ∧ res.total = found.length := by
  obtain ⟨found, f1, f2, f3, f4, f5⟩ := answer_found hconf hrun g q res hans hok
  refine ⟨found.map fun e => (e.1, e.2.1, e.2.2.obj), ?_, ?_, ?_, ?_, by rw [f4]; simp⟩
  · rw [List.map_map]; exact f1
  · intro id o
    rw [← f2]
    constructor
    · rintro ⟨o', ho'⟩
      obtain ⟨e, he, heq⟩ := List.mem_map.mp ho'
      cases heq
      exact ⟨e.2.2, he⟩
    · rintro ⟨so, hso⟩
      exact ⟨so.obj, List.mem_map.mpr ⟨_, hso, rfl⟩⟩
  · intro e he
    obtain ⟨x, hx, rfl⟩ := List.mem_map.mp he
    rw [get_look, (f3 x hx).2]
    rfl
  · rw [List.map_map]
    rcases f5 with ⟨rfl, hi⟩ | ⟨rs, _, _, items, hs, hi⟩
    · simpa using hi
    · have hl : ((found.map fun e => e.2.2).length : Int) = found.length := by simp
      unfold bounds at hs
      rw [if_pos hsize, ← hl, slice_all] at hs
      simp only [Option.some.injEq] at hs
      rw [hi, ← hs, List.map_map]
      rfl

/-- A query for the pods on nodes `n1…`: the two of them in all clusters. -/
example : ConfOK exConf ∧ (((newStore exConf).run exEval exHist).bind fun s =>
      s.query (fun _ => true) insertionSort (fun _ => none) exPods { page := { search := lit "node=n1" } }).map
        (fun r => (r.error, r.total, r.items.map Obj.body)) = some (false, 1, [lit "n1"])
    ∧ (((newStore exConf).run exEval exHist).bind fun s =>
      s.query (fun _ => true) insertionSort (fun _ => none) exPods {}).map
        (fun r => (r.error, r.total, r.items.map Obj.body)) = some (false, 2, [lit "n3", lit "n1"]) := by
  refine ⟨⟨by decide +kernel, ?_⟩, by decide +kernel, by decide +kernel⟩
  intro e he
  simp only [exConf, List.mem_cons, List.not_mem_nil, or_false] at he
  rcases he with rfl | rfl <;> decide +kernel

/-! ## C21 -/

/-- The identity or, for `Clean`, the type and cluster a call is about. -/
def Spec.Touches (eval : Str → Obj → Str) (conf : GVR → List (Str × Str)) (n : Notice) (id : Ident) : Prop :=
  (∃ o, Writes eval conf n id o) ∨ Removes eval conf n id

/-- **C21**, reads: a notification that is not about an identity does not change what a read of it returns. -/
theorem C21_get_isolated (hrun : (newStore conf).run eval h = some s) (n : Notice) {s' : Store}
    (hstep : s.step eval n = some s') (id : Ident) (hid : ¬ Touches eval (confAt conf) n id) :
    s'.get id.gvr id.cluster id.ns id.name = s.get id.gvr id.cluster id.ns id.name := by
  obtain ⟨hw, hc, _⟩ := run_look h hrun
  have hcf : s.confOf = confAt conf := by unfold Store.confOf confAt; rw [hc]
  obtain ⟨_, _, hl⟩ := step_look hw hstep
  rw [hcf] at hl
  rw [get_look, get_look, (hl id).2.2 (fun o ho => hid (Or.inl ⟨o, ho⟩)) (fun hr => hid (Or.inr hr))]

/-- **C21**, queries of another resource type: the possible answers are the same. -/
theorem C21_query_other_type (n : Notice) {s' : Store} (hstep : s.step eval n = some s') (g : GVR) (hg : g ≠ n.gvr)
    (q : Query) (r : Option QueryResult) : s'.answers isPrint alg pf g q r ↔ s.answers isPrint alg pf g q r := by
  have hd : lookup g s'.data = lookup g s.data := by
    have hn : ∀ {g' c ns f}, g ≠ g' → s.notify g' c ns f = some s' → lookup g s'.data = lookup g s.data := by
      intro g' c ns f hne h
      obtain ⟨cm, hl, _, hd, _⟩ := notify_some h
      rw [hd, lookup_insertKV, if_neg (Ne.symm hne)]
    cases n with
    | added g' c o => exact hn hg hstep
    | modified g' c o => exact hn hg hstep
    | deleted g' c o => exact hn hg hstep
    | clean g' c =>
      have h' : (s.clean g' c).map Prod.fst = some s' := hstep
      rw [Option.map_eq_some_iff] at h'
      obtain ⟨⟨s2, e⟩, h', rfl⟩ := h'
      obtain ⟨cm, hl, ⟨_, rfl, _⟩ | ⟨nm, _, _, rfl⟩⟩ := clean_some h'
      · rfl
      · simp only [lookup_insertKV]
        exact if_neg (Ne.symm hg)
  unfold Store.answers
  rw [hd]

/-- **C21**, unpaged queries of the same type: among the identities the notification is not about, exactly the
same ones are returned before and after, with the same objects. -/
theorem C21_query_isolated (hconf : ConfOK conf) (hrun : (newStore conf).run eval h = some s) (n : Notice) {s' : Store}
    (hstep : s.step eval n = some s') (g : GVR) (q : Query) (hsize : q.page.pageSize = 0) (res res' : QueryResult)
    (hans : s.mayAnswer isPrint alg pf g q (some res)) (hans' : s'.mayAnswer isPrint alg pf g q (some res'))
    (hok : res.error = false) (hok' : res'.error = false) :
    ∃ found found' : List (Ident × Obj), (found.map Prod.fst).Nodup ∧ (found'.map Prod.fst).Nodup
      ∧ res.items = found.map Prod.snd ∧ res'.items = found'.map Prod.snd
      ∧ ∀ id o, ¬ Touches eval (confAt conf) n id → ((id, o) ∈ found ↔ (id, o) ∈ found') := by
  have hrun' : (newStore conf).run eval (h ++ [n]) = some s' := by
    rw [run_append, hrun, Option.bind_some, Store.run, hstep]; rfl
  obtain ⟨f, f1, f2, f3, f4, _⟩ := C23_exact hconf hrun g q hsize res hans hok
  obtain ⟨f', f1', f2', f3', f4', _⟩ := C23_exact hconf hrun' g q hsize res' hans' hok'
  have hm : ∀ (l : List (Ident × Obj × Obj)), (l.map fun e => (e.1, e.2.2)).map Prod.fst = l.map Prod.fst
      ∧ (l.map fun e => (e.1, e.2.2)).map Prod.snd = l.map fun e => e.2.2 := by
    intro l; simp [List.map_map, Function.comp_def]
  refine ⟨f.map fun e => (e.1, e.2.2), f'.map fun e => (e.1, e.2.2), by rw [(hm f).1]; exact f1,
    by rw [(hm f').1]; exact f1', by rw [(hm f).2]; exact f4, by rw [(hm f').2]; exact f4', ?_⟩
  intro id o hid
  have hget := C21_get_isolated hrun n hstep id hid
  have hmat : ∀ x, Matching isPrint eval conf h g q id x ↔ Matching isPrint eval conf (h ++ [n]) g q id x := by
    intro x
    unfold Matching
    have : Latest eval (confAt conf) h id x ↔ Latest eval (confAt conf) (h ++ [n]) id x := by
      rw [latest_concat]
      constructor
      · intro hx; exact Or.inr ⟨hx, fun o' ho' => hid (Or.inl ⟨o', ho'⟩), fun hr => hid (Or.inr hr)⟩
      · rintro (hx | hx)
        · exact absurd (Or.inl ⟨x, hx⟩) hid
        · exact hx.1
    rw [this]
  constructor
  · intro hin
    obtain ⟨e, he, heq⟩ := List.mem_map.mp hin
    cases heq
    obtain ⟨o', ho'⟩ := (f2' e.1 e.2.1).mpr ((hmat _).mp ((f2 e.1 e.2.1).mp ⟨e.2.2, he⟩))
    have a1 := f3 e he
    have a2 := f3' _ ho'
    simp only at a2
    rw [hget, a1, Option.some.injEq] at a2
    exact List.mem_map.mpr ⟨_, ho', by rw [a2]⟩
  · intro hin
    obtain ⟨e, he, heq⟩ := List.mem_map.mp hin
    cases heq
    obtain ⟨o', ho'⟩ := (f2 e.1 e.2.1).mpr ((hmat _).mpr ((f2' e.1 e.2.1).mp ⟨e.2.2, he⟩))
    have a1 := f3' e he
    have a2 := f3 _ ho'
    simp only at a2
    rw [← hget, a1, Option.some.injEq] at a2
    exact List.mem_map.mpr ⟨_, ho', by rw [a2]⟩

/-- A change of one pod is not about the other. -/
example : ¬ Touches exEval (confAt exConf) (.modified exPods (lit "c1") (exPod "web" "n9"))
      ⟨exPods, lit "c2", lit "prod", lit "web"⟩
    ∧ (((newStore exConf).run exEval exHist).bind fun s =>
        s.step exEval (.modified exPods (lit "c1") (exPod "web" "n9"))).isSome = true := by
  refine ⟨?_, by decide +kernel⟩
  rintro (⟨_, _, h⟩ | h)
  · exact absurd h (by decide +kernel)
  · exact h

/-! ## C22 -/

/-- **C22**: cleaning a resource type of a cluster removes all its objects, changes nothing else, and reports an
error exactly when nothing was ever received for that type and cluster. -/
theorem C22_clean (hrun : (newStore conf).run eval h = some s) (g : GVR) (c : Str) {s' : Store} {e : Bool}
    (hclean : s.clean g c = some (s', e)) :
    (∀ ns name, s'.get g c ns name = none)
    ∧ (∀ g' c' ns name, ¬ (g' = g ∧ c' = c) → s'.get g' c' ns name = s.get g' c' ns name)
    ∧ (e = true ↔ ∀ n ∈ h, ∀ o, n ≠ .added g c o ∧ n ≠ .modified g c o ∧ n ≠ .deleted g c o) := by
  refine ⟨?_, ?_, ?_⟩
  · intro ns name
    rw [get_look, clean_look hclean]
    simp
  · intro g' c' ns name hne
    rw [get_look, get_look, clean_look hclean]
    rw [if_neg (fun hh => hne ⟨hh.1.symm, hh.2.symm⟩)]
  · have hk := run_known hrun g c
    rw [newStore_known] at hk
    simp only [Bool.false_eq_true, or_false] at hk
    have he : e = true ↔ ¬ known s g c = true := by
      unfold known
      obtain ⟨cm, hl, ⟨hn, _, he⟩ | ⟨nm, hn, he, _⟩⟩ := clean_some hclean <;> simp [hl, hn, he]
    rw [he, hk]
    constructor
    · intro hno n hn o
      refine ⟨?_, ?_, ?_⟩ <;> rintro rfl <;> exact hno ⟨_, hn, rfl, rfl⟩
    · rintro hno ⟨n, hn, hm⟩
      cases n with
      | added g' c' o => obtain ⟨rfl, rfl⟩ := hm; exact (hno _ hn o).1 rfl
      | modified g' c' o => obtain ⟨rfl, rfl⟩ := hm; exact (hno _ hn o).2.1 rfl
      | deleted g' c' o => obtain ⟨rfl, rfl⟩ := hm; exact (hno _ hn o).2.2 rfl
      | clean g' c' => exact hm.elim

/-- Cleaning a cluster that was seen, and one that was not. -/
example : (((newStore exConf).run exEval exHist).bind fun s => (s.clean exPods (lit "c1")).map fun r =>
        (r.2, r.1.get exPods (lit "c1") (lit "prod") (lit "web"),
          (r.1.get exPods (lit "c2") (lit "prod") (lit "web")).isSome)) = some (false, none, true)
    ∧ (((newStore exConf).run exEval exHist).bind fun s => (s.clean exPods (lit "c3")).map Prod.snd) = some true := by
  decide +kernel

/-! ## C30 -/

/-- Objects received by notifications of API objects have metadata. -/
theorem latest_api {cf : GVR → List (Str × Str)} (hapi : ApiObjects h) {id : Ident} {o : Obj}
    (ho : Latest eval cf h id o) : ∃ m, o.om = some m := by
  obtain ⟨h₁, n, h₂, rfl, hw, _⟩ := ho
  have := hapi n (by simp)
  rw [← Option.isSome_iff_exists]
  cases n with
  | added _ _ _ => obtain ⟨rfl, _⟩ := hw; exact this
  | modified _ _ _ => obtain ⟨rfl, _⟩ := hw; exact this
  | deleted _ _ _ => exact hw.elim
  | clean _ _ => exact hw.elim

/-- **C30**: all API objects of a resource type that a query looks at have the same index keys, namely the
configured ones and `cluster`, `is_deleted`, `namespace`, `name`. -/
theorem C30_same_keys (hrun : (newStore conf).run eval h = some s) (hapi : ApiObjects h) (g : GVR)
    (cm : ClMap) (hg : lookup g s.data = some cm) (ns : Str) (so : SObj) (hso : so ∈ visited ns cm) (k : Str) :
    lookup k so.index ≠ none ↔ k ∈ (confAt conf g).map Prod.fst
      ∨ k ∈ [lit "cluster", lit "is_deleted", lit "namespace", lit "name"] := by
  rw [visited_entries] at hso
  obtain ⟨⟨⟨c, n, name⟩, so'⟩, hso', rfl⟩ := List.mem_map.mp hso
  obtain ⟨⟨o, ho, rfl⟩, _⟩ := (entries_latest hrun hg).mp hso'
  obtain ⟨m, hm⟩ := latest_api hapi ho
  unfold build
  rw [hm]
  simp only [lookup_insertKV, lookup_confIndex, List.mem_cons, List.not_mem_nil, or_false]
  have hk : (lookup k (confAt conf g)).map (indexValue eval o) ≠ none ↔ k ∈ (confAt conf g).map Prod.fst := by
    rw [ne_eq, Option.map_eq_none_iff, lookup_eq_none]
    simp only [not_forall, not_not, List.mem_map, Prod.exists, exists_and_right, exists_eq_right]
  by_cases h1 : lit "name" = k
  · simp [h1]
  · by_cases h2 : lit "namespace" = k
    · rw [if_neg h1, if_pos h2]; simp [h2]
    · by_cases h3 : lit "is_deleted" = k
      · rw [if_neg h1, if_neg h2, if_pos h3]; simp [h3]
      · by_cases h4 : lit "cluster" = k
        · rw [if_neg h1, if_neg h2, if_neg h3, if_pos h4]; simp [h4]
        · rw [if_neg h1, if_neg h2, if_neg h3, if_neg h4, hk]
          simp [Ne.symm h1, Ne.symm h2, Ne.symm h3, Ne.symm h4]

/-- **C30**, consequence for searches: a search with a part `key=value` whose key no object of the type has is
answered with an error as soon as one object is in the requested namespace. -/
theorem C30_unknown_search_key (hrun : (newStore conf).run eval h = some s) (hapi : ApiObjects h) (g : GVR)
    (q : Query) (part key value : Str) (hpart : part ∈ searchParts q.page.search)
    (htrim : trimSpace part = key ++ lit "=" ++ value) (hkey : key ≠ []) (heq : (61 : UInt8) ∉ key)
    (hadv : ¬ advPrefix <+: key ++ lit "=" ++ value)
    (hunknown : key ∉ (confAt conf g).map Prod.fst ∧ key ∉ [lit "cluster", lit "is_deleted", lit "namespace", lit "name"])
    (id : Ident) (o : Obj) (hid : Latest eval (confAt conf) h id o ∧ id.gvr = g ∧ (q.ns = [] ∨ q.ns = id.ns))
    (res : QueryResult) (hans : s.mayAnswer isPrint alg pf g q (some res)) : res.error = true := by
  unfold Store.mayAnswer at hans
  cases hg : lookup g s.data with
  | none => rw [hg] at hans; simp at hans
  | some cm =>
    rw [hg] at hans
    obtain ⟨vs, hvs, hq⟩ := hans
    cases hok : res.error with
    | true => rfl
    | false =>
      exfalso
      obtain ⟨hno, _⟩ := queryList_cases hq.symm hok
      obtain ⟨hl, rfl, hns⟩ := hid
      have hin : ((id.cluster, id.ns, id.name), (build eval (confAt conf id.gvr) id.cluster o).2.2) ∈ entries q.ns cm :=
        (entries_latest hrun hg).mpr ⟨⟨o, hl, rfl⟩, hns⟩
      have hin2 := mem_visited hin
      have hin' := hvs.symm.subset (mem_visited hin)
      have hkeys := C30_same_keys hrun hapi id.gvr cm hg q.ns _ hin2 key
      rw [List.any_eq_false] at hno
      have := hno _ hin'
      simp only [Bool.not_eq_true, Option.isNone_eq_false_iff, Option.isSome_iff_ne_none] at this
      refine this ((matchParts_none isPrint _ _).mpr ⟨part, hpart, ?_⟩)
      have hl0 : lookup key (build eval (confAt conf id.gvr) id.cluster o).2.2.index = none := by
        by_contra hc
        exact (hkeys.mp hc).elim hunknown.1 hunknown.2
      have e : key ++ lit "=" ++ value = key ++ 61 :: value := by simp [lit]
      rw [e] at htrim hadv
      rw [match1_key htrim hkey heq hadv, hl0]
      rfl

/-- **C30**, consequence for sorting: a sort expression naming a key no object of the type has is answered with
an error as soon as one object matches. Items with more than one blank inside are excluded: they switch
sorting off silently (see C27). -/
theorem C30_unknown_sort_key (hconf : ConfOK conf) (hrun : (newStore conf).run eval h = some s) (hapi : ApiObjects h)
    (g : GVR) (q : Query) (item : Str) (k : SortKey) (hitem : item ∈ splitByte 44 q.page.sort) (hsort : q.page.sort ≠ [])
    (hmeans : ItemMeans item k) (hblank : trimSpace item ≠ [])
    (hone : ∀ i ∈ splitByte 44 q.page.sort, (splitByte 32 (trimSpace i)).length ≤ 2)
    (hunknown : k.key ∉ (confAt conf g).map Prod.fst ∧ k.key ∉ [lit "cluster", lit "is_deleted", lit "namespace", lit "name"])
    (id : Ident) (o : Obj) (hid : Matching isPrint eval conf h g q id o)
    (res : QueryResult) (hans : s.mayAnswer isPrint alg pf g q (some res)) : res.error = true := by
  unfold Store.mayAnswer at hans
  cases hg : lookup g s.data with
  | none => rw [hg] at hans; simp at hans
  | some cm =>
    rw [hg] at hans
    obtain ⟨vs, hvs, hq⟩ := hans
    cases hok : res.error with
    | true => rfl
    | false =>
      exfalso
      obtain ⟨_, sorted, hperm, hcase, _⟩ := queryList_cases hq.symm hok
      have hgid : id.gvr = g := hid.2.1
      have hid' : id = ⟨g, id.cluster, id.ns, id.name⟩ := by cases id; simp_all
      obtain ⟨hin, hm⟩ := (matching_entry (isPrint := isPrint) hconf hrun hg q
        (c := id.cluster) (n := id.ns) (name := id.name)).mpr ⟨o, hid' ▸ hid, rfl⟩
      have hin' := hvs.symm.subset (mem_visited hin)
      have hin3 : (build eval (confAt conf g) id.cluster o).2.2 ∈
          vs.filter fun o => q.page.matches isPrint o.index == some true :=
        List.mem_filter.mpr ⟨hin', by simp [hm]⟩
      rcases hcase with ⟨h0, _, _⟩ | ⟨hs, _⟩
      · rw [h0] at hin3; simp at hin3
      · generalize hr : (vs.filter fun o => q.page.matches isPrint o.index == some true) = rs at hs hin3
        unfold sortObjs at hs
        cases rs with
        | nil => simp at hin3
        | cons x xs =>
          have hx : x ∈ vs := (List.mem_filter.mp (by rw [hr]; simp)).1
          have hx' : x ∈ visited q.ns cm := by
            exact hvs.subset hx
          have hkeys := C30_same_keys hrun hapi g cm hg q.ns x hx' k.key
          have hl0 : lookup k.key x.index = none := by
            by_contra hc
            exact (hkeys.mp hc).elim hunknown.1 hunknown.2
          simp only at hs
          have hsi : sortItems q.page.sort = splitByte 44 q.page.sort := by unfold sortItems; rw [if_neg hsort]
          rw [hsi] at hs
          cases hlp : sortLoop x.index (splitByte 44 q.page.sort) [] with
          | giveUp =>
            obtain ⟨i, hi, hlen⟩ := sortLoop_giveUp _ _ hlp
            have := hone i hi
            omega
          | bad => rw [hlp] at hs; simp at hs
          | keys ks =>
            obtain ⟨ks', _, hf, hk⟩ := sortLoop_keys _ _ _ hlp
            have hmem : item ∈ (splitByte 44 q.page.sort).filter fun i => trimSpace i ≠ [] :=
              List.mem_filter.mpr ⟨hitem, by simpa using hblank⟩
            obtain ⟨k', hk', hm'⟩ := forall₂_mem hf item hmem
            have : k'.key = k.key := itemMeans_key hm' hmeans
            exact hk k' hk' (by rw [this]; exact hl0)

/-- The example history consists of API objects; a search for an unknown key is an error. -/
example : ApiObjects exHist ∧ (((newStore exConf).run exEval exHist).bind fun s =>
      s.query (fun _ => true) insertionSort (fun _ => none) exPods { page := { search := lit "zone=a" } }).map
        (fun r => (r.error, r.total)) = some (true, 0)
    ∧ (((newStore exConf).run exEval exHist).bind fun s =>
      s.query (fun _ => true) insertionSort (fun _ => none) exPods { page := { sort := lit "name, zone" } }).map
        (fun r => (r.error, r.total)) = some (true, 0) := by
  refine ⟨?_, by decide +kernel, by decide +kernel⟩
  intro n hn
  simp only [exHist, List.mem_cons, List.not_mem_nil, or_false] at hn
  rcases hn with rfl | rfl | rfl | rfl | rfl <;> rfl

end Ckube
