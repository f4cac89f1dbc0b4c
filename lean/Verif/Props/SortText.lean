import Verif.Lemmas.SortText
import Verif.Props.SearchText
import Verif.Props.Numeral
import Verif.Props.Sort

/-! # C127: queries in the language of PAGINATE_SPEC.md -/

namespace Ckube
open Spec

theorem number_at {m : List (Str × Str)} {o : SObj} (ho : o.index = m) {k : Str} {i : ℤ} (h : NumAt m k i) :
    ∃ x, number parseFloat64 (o.val k) = some x ∧ parseFloat64 (o.val k) = some (.num x) ∧ doubleValue x = i ∧ Numeral (o.val k) i := by
  obtain ⟨v, h1, h2, h3⟩ := h
  obtain ⟨x, h4, h5⟩ := C114_small h2 (by exact_mod_cast h3)
  have hv : o.val k = v := by rw [SObj.val, ho, h1]; rfl
  rw [hv]
  exact ⟨x, by rw [number, h4], h4, h5, h2⟩

theorem text_at {m : List (Str × Str)} {o : SObj} (ho : o.index = m) {k v : Str} (h : lookup k m = some v) : o.val k = v := by
  rw [SObj.val, ho, h]; rfl

theorem value_lt {k : SortKey} {a b : SObj} (ha : HasKey a.index k) (hb : HasKey b.index k) (h : ValueLt parseFloat64 k a b) : SmallerBy k a.index b.index := by
  unfold HasKey at ha hb
  unfold ValueLt at h
  unfold SmallerBy
  by_cases hn : k.num = true
  · rw [if_pos hn] at ha hb h ⊢
    obtain ⟨i, hi⟩ := ha
    obtain ⟨j, hj⟩ := hb
    obtain ⟨x, x1, x2, x3, x4⟩ := number_at (o := a) rfl hi
    obtain ⟨y, y1, y2, y3, y4⟩ := number_at (o := b) rfl hj
    rw [x1, y1] at h
    refine ⟨i, j, hi, hj, ?_⟩
    by_contra hle
    have : (j : ℚ) ≤ (i : ℚ) := by exact_mod_cast not_lt.mp hle
    have := C114_order y4 x4 y2 x2 this
    have h' : x < y := h
    omega
  · rw [if_neg hn] at ha hb h ⊢
    obtain ⟨v, hv⟩ := ha
    obtain ⟨w, hw⟩ := hb
    rw [text_at (o := a) rfl hv, text_at (o := b) rfl hw] at h
    exact ⟨v, w, hv, hw, strLt_lt h⟩

theorem value_eq {k : SortKey} {a b : SObj} (ha : HasKey a.index k) (hb : HasKey b.index k) (h : ValueEq parseFloat64 k a b) : SameBy k a.index b.index := by
  unfold HasKey at ha hb
  unfold ValueEq at h
  unfold SameBy
  by_cases hn : k.num = true
  · rw [if_pos hn] at ha hb h ⊢
    obtain ⟨i, hi⟩ := ha
    obtain ⟨j, hj⟩ := hb
    obtain ⟨x, x1, x2, x3, x4⟩ := number_at (o := a) rfl hi
    obtain ⟨y, y1, y2, y3, y4⟩ := number_at (o := b) rfl hj
    rw [x1, y1, Option.some.injEq] at h
    subst h
    have : (i : ℚ) = (j : ℚ) := by rw [← x3, ← y3]
    have : i = j := by exact_mod_cast this
    subst this
    exact ⟨i, hi, hj⟩
  · rw [if_neg hn] at ha hb h ⊢
    obtain ⟨v, hv⟩ := ha
    obtain ⟨w, hw⟩ := hb
    rw [text_at (o := a) rfl hv, text_at (o := b) rfl hw] at h
    subst h
    exact ⟨v, hv, hw⟩

theorem lexLe_precede : ∀ {ks : List SortKey} {a b : SObj}, (∀ k ∈ ks, HasKey a.index k) → (∀ k ∈ ks, HasKey b.index k) → LexLe parseFloat64 ks a b →
    MayPrecede ks a.index b.index
  | [], _, _, _, _, _ => trivial
  | k :: ks, a, b, ha, hb, h => by
    have ha0 := ha k (by simp)
    have hb0 := hb k (by simp)
    rcases h with h | ⟨h1, h2⟩
    · left
      by_cases hr : k.reverse = true
      · rw [if_pos hr] at h ⊢
        exact value_lt hb0 ha0 h
      · rw [if_neg hr] at h ⊢
        exact value_lt ha0 hb0 h
    · right
      exact ⟨value_eq ha0 hb0 h1, lexLe_precede (fun k hk => ha k (List.mem_cons_of_mem _ hk)) (fun k hk => hb k (List.mem_cons_of_mem _ hk)) h2⟩

/-- **C127**: let the search text of a query say the conditions `cs` and its sort text the keys `ks`, let page and page size be legal, and let every object of the type have the
indexes that the two texts name (and, where the sort text says `!int`, whole numbers there). Then the query is answered without error, with the requested page of the list of
exactly the cached objects of the type and namespace for which all conditions hold, in the order of the keys. Missing for the full claim: what is missing for
C126; numbers that are not whole or larger than 2^53; page 0 and negative numbers (`C28_false_page_zero`, `C28_false_negative`) and the order of a query without a sort text
(`C127_false_default`). -/
theorem C127_answered_partial {isPrint : Nat → Bool} {eval : Str → Obj → Str} {alg : SliceSort} {conf : List (GVR × List (Str × Str))} {h : List Notice} {s : Store}
    (hconf : ConfOK conf) (hrun : (newStore conf).run eval h = some s) (hapi : ApiObjects h) (g : GVR) (q : Query)
    {cs : List Cond} (hs : SearchSays cs q.page.search) {ks : List SortKey} (hk : SortSays ks q.page.sort) (hp : ValidPaging q.page)
    (hobj : ∀ id o idx, Latest eval (confAt conf) h id o → id.gvr = g → IsIndex eval (confAt conf g) id.cluster o idx →
      (∀ e ∈ idx, Printable isPrint e.2) ∧ (∀ c ∈ cs, CondKnown idx c) ∧ ∀ k ∈ ks, HasKey idx k)
    (hkeys : ∀ k ∈ ks, k.key ∈ (confAt conf g).map Prod.fst ∨ k.key ∈ [lit "cluster", lit "is_deleted", lit "namespace", lit "name"])
    (res : QueryResult) (hans : s.mayAnswer isPrint alg parseFloat64 g q (some res)) :
    res.error = false ∧ ∃ found : List (Ident × Obj × SObj), (found.map Prod.fst).Nodup
      ∧ (∀ id o, (∃ so, (id, o, so) ∈ found) ↔ Latest eval (confAt conf) h id o ∧ id.gvr = g ∧ (q.ns = [] ∨ q.ns = id.ns)
          ∧ ∃ idx, IsIndex eval (confAt conf g) id.cluster o idx ∧ ∀ c ∈ cs, CondHolds idx c)
      ∧ (∀ e ∈ found, IsIndex eval (confAt conf g) e.1.cluster e.2.1 e.2.2.index ∧ s.get e.1.gvr e.1.cluster e.1.ns e.1.name = some e.2.2.obj)
      ∧ found.Pairwise (fun a b => MayPrecede ks a.2.2.index b.2.2.index)
      ∧ res.total = found.length ∧ res.items = pageOf q.page.page q.page.pageSize (found.map fun e => e.2.2.obj) := by
  have hks := sortSays_means hk
  have hnumval : ∀ id o, Matching isPrint eval conf h g q id o → ∀ k ∈ ks, k.num = true →
      ∃ v, indexValueOf eval (confAt conf g) id.cluster o k.key = some v ∧ (∃ x, parseFloat64 v = some (.num x)) := by
    rintro id o ⟨a, b, c, idx, d, e⟩ k hkk hn
    have := (hobj id o idx a b d).2.2 k hkk
    rw [HasKey, if_pos hn] at this
    obtain ⟨i, v, hv, hv2, hv3⟩ := this
    obtain ⟨x, hx, -⟩ := C114_small hv2 (by exact_mod_cast hv3)
    exact ⟨v, by rw [← d.2 k.key]; exact hv, x, hx⟩
  have herr : res.error = false := by
    refine C25_accepted hconf hrun hapi g q ks hks hkeys ?_ ?_ res hans
    · intro id o idx a b c d hnone
      obtain ⟨c, hc, hnk⟩ := (C126_read_partial (hobj id o idx a b d).1 hs).1.mp hnone
      exact hnk ((hobj id o idx a b d).2.1 c hc)
    · intro id o hm k hkk hn
      obtain ⟨v, hv, x, hx⟩ := hnumval id o hm k hkk hn
      exact ⟨v, hv, by rw [number, hx]; rfl⟩
  have hnan : NoNaNs isPrint eval parseFloat64 conf h g q ks := by
    intro id o hm k hkk hn v hv
    obtain ⟨v', hv', x, hx⟩ := hnumval id o hm k hkk hn
    rw [hv, Option.some.injEq] at hv'
    rw [hv', hx]
    simp
  have hempty : EmptyNoNaN parseFloat64 := by unfold EmptyNoNaN; decide +kernel
  obtain ⟨found, ⟨f1, f2, f3⟩, f4, f5, f6⟩ := C25_sorted_partial hconf hrun g q hp ks hks hempty hnan res hans herr
  refine ⟨herr, found, f1, fun id o => ?_, f3, ?_, f4, f5⟩
  · rw [f2, Matching]
    constructor
    · rintro ⟨a, b, c, idx, d, e⟩
      exact ⟨a, b, c, idx, d, (C126_read_partial (hobj id o idx a b d).1 hs).2.mp e⟩
    · rintro ⟨a, b, c, idx, d, e⟩
      exact ⟨a, b, c, idx, d, (C126_read_partial (hobj id o idx a b d).1 hs).2.mpr e⟩
  · rw [List.pairwise_map] at f6
    have hall : ∀ e ∈ found, ∀ k ∈ ks, HasKey e.2.2.index k := by
      rintro ⟨id, o, so⟩ he
      obtain ⟨a, b, -⟩ := (f2 id o).mp ⟨so, he⟩
      exact (hobj id o so.index a b (f3 _ he).1).2.2
    exact f6.imp_of_mem fun ha hb hab => lexLe_precede (hall _ ha) (hall _ hb) hab

/-! ## Example and refutation -/

/-- The sort text and the keys of the example below. -/
def exSortText : Str := lit " node!int desc, ,name asc"
def exSortKeys : List SortKey := [⟨lit "node", true, true⟩, ⟨lit "name", false, false⟩]

theorem exSortText_says : SortSays exSortKeys exSortText := by
  have sp : Spaces (lit " ") := ⟨[[32]], by decide, by decide⟩
  refine Or.inr ⟨by decide, [([⟨lit "node", true, true⟩], lit " node!int desc"), ([], lit " "), ([⟨lit "name", false, false⟩], lit "name asc")], ?_, rfl, by decide +kernel⟩
  intro e he
  simp only [List.mem_cons, List.not_mem_nil, or_false] at he
  rcases he with rfl | rfl | rfl
  · exact .item (a := lit " ") (x := lit "node!int desc") (b := []) sp (.mk (k := lit "node") (typ := lit "!int") (dir := lit " desc") (num := true) (rev := true)
      (indexKey_of (by decide) (by decide +kernel)) (by decide) (by decide)) spaces_nil
  · exact .nothing sp
  · exact .item (a := []) (x := lit "name asc") (b := []) spaces_nil (.mk (k := lit "name") (typ := []) (dir := lit " asc") (num := false) (rev := false)
      (indexKey_of (by decide) (by decide +kernel)) (by decide) (by decide)) spaces_nil

/-- The search of the example below. -/
theorem exSearch_says : SearchSays [.part (lit "node") true (lit "3"), .text false (lit "c1")] (lit "node=!3; c1") := by
  have sp : Spaces (lit " ") := ⟨[[32]], by decide, by decide⟩
  refine ⟨[([.part (lit "node") true (lit "3")], lit "node=!3"), ([.text false (lit "c1")], lit " c1")], ?_, ?_, rfl, by decide +kernel⟩
  · intro e he
    simp only [List.mem_cons, List.not_mem_nil, or_false] at he
    rcases he with rfl | rfl
    · exact .cond (a := []) (x := lit "node=!3") (b := []) spaces_nil (.part (k := lit "node") (neg := true) (v := lit "3") (indexKey_of (by decide) (by decide +kernel))
        (sought_of (by decide) (by decide))) (solid_of (by decide) (by decide +kernel)) spaces_nil
    · exact .cond (a := lit " ") (x := lit "c1") (b := []) sp (.text (neg := false) (sought_of (by decide) (by decide)) (by decide) (fun _ => by decide +kernel))
        (solid_of (by decide) (by decide +kernel)) spaces_nil
  · intro e he r
    simp only [List.tail_cons, List.mem_cons, List.not_mem_nil, or_false] at he
    subst he
    simp [lit]

/-- The indexes of a pod of the examples. -/
theorem exIndex {cl : Str} {name body : String} {idx : List (Str × Str)} (h : IsIndex exEval (confAt exConf exPods) cl (exPod name body) idx) :
    lookup (lit "node") idx = some (lit body) ∧ lookup (lit "name") idx = some (lit name)
    ∧ ∀ e ∈ idx, e.2 = cl ∨ e.2 = lit "false" ∨ e.2 = lit "prod" ∨ e.2 = lit name ∨ e.2 = lit body := by
  have hlk : lookup (lit "node") (confAt exConf exPods) = some (lit "{.spec.nodeName}") := by decide +kernel
  have hconf : confAt exConf exPods = [(lit "node", lit "{.spec.nodeName}")] := by decide +kernel
  have hev : indexValue exEval (exPod name body) (lit "{.spec.nodeName}") = lit body := by
    unfold indexValue
    rw [if_neg (by decide +kernel), if_neg (by decide +kernel)]
    rfl
  refine ⟨?_, ?_, ?_⟩
  · rw [h.2]
    unfold indexValueOf
    simp only [hlk, Option.map_some, exPod]
    rw [if_neg (by decide), if_neg (by decide), if_neg (by decide), if_neg (by decide)]
    exact congrArg some hev
  · rw [h.2]
    unfold indexValueOf
    simp only [exPod]
    rw [if_neg (by decide), if_neg (by decide), if_neg (by decide)]
    simp only [if_true]
  · rintro ⟨k, v⟩ he
    have hv : indexValueOf exEval (confAt exConf exPods) cl (exPod name body) k = some v := by rw [← h.2]; exact lookup_eq_some_of_mem h.1 he
    unfold indexValueOf at hv
    rw [hconf] at hv
    by_cases h1 : k = lit "cluster"
    · rw [if_pos h1, Option.some.injEq] at hv
      exact Or.inl hv.symm
    · rw [if_neg h1] at hv
      simp only [exPod] at hv
      by_cases h2 : k = lit "is_deleted"
      · rw [if_pos h2, Option.some.injEq] at hv
        exact Or.inr (Or.inl hv.symm)
      · rw [if_neg h2] at hv
        by_cases h3 : k = lit "namespace"
        · rw [if_pos h3, Option.some.injEq] at hv
          exact Or.inr (Or.inr (Or.inl hv.symm))
        · rw [if_neg h3] at hv
          by_cases h4 : k = lit "name"
          · rw [if_pos h4, Option.some.injEq] at hv
            exact Or.inr (Or.inr (Or.inr (Or.inl hv.symm)))
          · rw [if_neg h4] at hv
            by_cases h5 : k = lit "node"
            · subst h5
              have : lookup (lit "node") [(lit "node", lit "{.spec.nodeName}")] = some (lit "{.spec.nodeName}") := by decide +kernel
              rw [this, Option.map_some, Option.some.injEq] at hv
              have hev' : indexValue exEval { om := some { name := lit name, ns := lit "prod", annos := [(lit "owner", lit "me")] }, body := lit body } (lit "{.spec.nodeName}") = lit body := hev
              rw [hev'] at hv
              exact Or.inr (Or.inr (Or.inr (Or.inr hv.symm)))
            · have : lookup k [(lit "node", lit "{.spec.nodeName}")] = none := by
                rw [lookup_eq_none]
                intro w hm
                simp only [List.mem_cons, List.not_mem_nil, or_false, Prod.mk.injEq] at hm
                exact h5 hm.1
              rw [this] at hv
              simp at hv

/-- The hypotheses of `C127_answered_partial` are met by three pods with the numbers 9, 10 and 30, the search `node=!3; c1` and the sort text ` node!int desc, ,name asc`;
the first two pods are listed, the larger number first. -/
example : ConfOK exConf ∧ ((newStore exConf).run exEval (exThree "9" "10" "30")).isSome = true ∧ ApiObjects (exThree "9" "10" "30")
    ∧ ValidPaging { page := 1, pageSize := 5, search := lit "node=!3; c1", sort := exSortText }
    ∧ (∀ id o idx, Latest exEval (confAt exConf) (exThree "9" "10" "30") id o → id.gvr = exPods → IsIndex exEval (confAt exConf exPods) id.cluster o idx →
      (∀ e ∈ idx, Printable (fun _ => true) e.2) ∧ (∀ c ∈ [Cond.part (lit "node") true (lit "3"), .text false (lit "c1")], CondKnown idx c) ∧ ∀ k ∈ exSortKeys, HasKey idx k)
    ∧ (∀ k ∈ exSortKeys, k.key ∈ (confAt exConf exPods).map Prod.fst ∨ k.key ∈ [lit "cluster", lit "is_deleted", lit "namespace", lit "name"])
    ∧ ((exSort (exThree "9" "10" "30") { page := 1, pageSize := 5, search := lit "node=!3; c1", sort := exSortText }).bind id).map
        (fun r => (r.error, r.total, r.items.map fun o => o.om.map ObjMeta.name)) = some (false, 2, [some (lit "y"), some (lit "x")]) := by
  refine ⟨⟨by decide +kernel, by decide +kernel⟩, by decide +kernel, exThree_api _ _ _, Or.inr ⟨by decide, by decide, by decide⟩, ?_, by decide +kernel, by decide +kernel⟩
  rintro id o idx ⟨h₁, n, h₂, heq, hw, -⟩ - hidx
  have hn : n ∈ exThree "9" "10" "30" := by rw [heq]; simp
  have fin : ∀ (name body : String) (i : ℕ), IsIndex exEval (confAt exConf exPods) (lit "c1") (exPod name body) idx → Printable (fun _ => true) (lit name) →
      Printable (fun _ => true) (lit body) → Numeral (lit body) i → i ≤ 2 ^ 53 →
      (∀ e ∈ idx, Printable (fun _ => true) e.2) ∧ (∀ c ∈ [Cond.part (lit "node") true (lit "3"), .text false (lit "c1")], CondKnown idx c) ∧ ∀ k ∈ exSortKeys, HasKey idx k := by
    intro name body i h1 hp1 hp2 hnum hle
    obtain ⟨g1, g2, g3⟩ := exIndex h1
    refine ⟨?_, ?_, ?_⟩
    · intro e he
      rcases g3 e he with h | h | h | h | h <;> rw [h]
      · exact (show Printable (fun _ => true) (lit "c1") by unfold Printable; decide +kernel)
      · exact (show Printable (fun _ => true) (lit "false") by unfold Printable; decide +kernel)
      · exact (show Printable (fun _ => true) (lit "prod") by unfold Printable; decide +kernel)
      · exact hp1
      · exact hp2
    · intro c hc
      simp only [List.mem_cons, List.not_mem_nil, or_false] at hc
      rcases hc with rfl | rfl
      · exact ⟨_, g1⟩
      · trivial
    · intro k hk
      simp only [exSortKeys, List.mem_cons, List.not_mem_nil, or_false] at hk
      rcases hk with rfl | rfl
      · exact ⟨i, lit body, g1, by exact_mod_cast hnum, by rw [abs_of_nonneg (by positivity)]; exact_mod_cast hle⟩
      · exact ⟨_, g2⟩
  simp only [exThree, List.mem_cons, List.not_mem_nil, or_false] at hn
  rcases hn with rfl | rfl | rfl <;> obtain ⟨rfl, rfl⟩ := hw
  · exact fin "x" "9" 9 hidx (by unfold Printable; decide +kernel) (by unfold Printable; decide +kernel)
      (by exact_mod_cast numeral_digits (n := 9) (by decide +kernel)) (by norm_num)
  · exact fin "y" "10" 10 hidx (by unfold Printable; decide +kernel) (by unfold Printable; decide +kernel)
      (by exact_mod_cast numeral_digits (n := 10) (by decide +kernel)) (by norm_num)
  · exact fin "z" "30" 30 hidx (by unfold Printable; decide +kernel) (by unfold Printable; decide +kernel)
      (by exact_mod_cast numeral_digits (n := 30) (by decide +kernel)) (by norm_num)

/-- What the refutation runs: three pods with an index `uid`. -/
def exUid (p : Paginate) : Option (Option QueryResult) :=
  ((newStore [(exPods, [(lit "uid", lit "{.metadata.uid}")])]).run exEval (exThree "3" "2" "1")).bind fun s => (lookup exPods s.data).map fun cm =>
    queryMap (fun _ => true) insertionSort parseFloat64 cm { page := p }

/-- **C127 is false** for queries without a sort text, which PAGINATE_SPEC.md says are sorted by uid and name first: with an index `uid` (here the only configured index)
that is `3`, `2` and `1` for the pods `x`, `y` and `z`, they are listed in the order of their names. -/
theorem C127_false_default :
    ((exUid {}).bind id).map (fun r => (r.error, r.items.map fun o => o.om.map ObjMeta.name)) = some (false, [some (lit "x"), some (lit "y"), some (lit "z")])
    ∧ ((exUid {}).bind id).map (fun r => r.items.map Obj.body) = some [lit "3", lit "2", lit "1"]
    ∧ ((exUid { sort := lit "uid,name" }).bind id).map (fun r => (r.error, r.items.map fun o => o.om.map ObjMeta.name))
      = some (false, [some (lit "z"), some (lit "y"), some (lit "x")]) :=
  ⟨by decide +kernel, by decide +kernel, by decide +kernel⟩

end Ckube
