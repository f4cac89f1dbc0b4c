import Verif.Lemmas.Pages
import Verif.Props.Store

/-! # C28, C31: cache operations do not crash

A crash (a nil dereference or a slice index out of range) is `none`. -/

namespace Ckube
open Spec

variable {isPrint : Nat → Bool} {eval : Str → Obj → Str} {alg : SliceSort} {pf : Str → Option GoFloat}
  {conf : List (GVR × List (Str × Str))} {h : List Notice} {s : Store}

/-- Page parameters for which paging is well defined: no paging, or a positive page and page size whose
product is an `int64`. -/
def Spec.ValidPaging (p : Paginate) : Prop :=
  p.pageSize = 0 ∨ (1 ≤ p.page ∧ 1 ≤ p.pageSize ∧ p.page * p.pageSize ≤ 9223372036854775807)

theorem queryList_some (vs : List SObj) (q : Query) (hp : ValidPaging q.page) :
    (queryList isPrint alg pf vs q).isSome = true := by
  unfold queryList
  simp only
  generalize hr : (vs.filter fun o => q.page.matches isPrint o.index == some true) = rs
  split
  · rfl
  · split
    · rfl
    · rw [Option.isSome_map]
      have hperm : (sortObjs alg pf rs q.page.sort).1.Perm rs := by
        unfold sortObjs
        split
        · exact List.Perm.refl _
        · split
          · exact List.Perm.refl _
          · exact List.Perm.refl _
          · exact alg.perm _ _
      rw [← hperm.length_eq]
      rcases hp with h0 | ⟨h1, h2, h3⟩
      · unfold bounds
        rw [if_pos h0, slice_all]
        rfl
      · rw [slice_page _ h1 h2 (by omega)]
        rfl

theorem queryMap_some (cm : ClMap) (q : Query) (hp : ValidPaging q.page) :
    (queryMap isPrint alg pf cm q).isSome = true :=
  queryList_some (visited q.ns cm) q hp

/-- **C31**: a history of notifications about configured types never crashes, and afterwards no further
notification, clean or validly paged query on a configured type does. (Reads cannot crash: `Store.get`
is a total function in the model because the code checks every level.) -/
theorem C31_no_crash (hh : ∀ n ∈ h, n.gvr ∈ conf.map Prod.fst) :
    ∃ s, (newStore conf).run eval h = some s
      ∧ (∀ n : Notice, n.gvr ∈ conf.map Prod.fst → s.step eval n ≠ none)
      ∧ (∀ g c, g ∈ conf.map Prod.fst → s.clean g c ≠ none)
      ∧ (∀ g q, g ∈ conf.map Prod.fst → ValidPaging q.page → ¬ s.mayAnswer isPrint alg pf g q none) := by
  have h1 := run_isSome (eval := eval) (s := newStore conf) (h := h)
    (fun n hn => (newStore_types conf n.gvr).mpr (hh n hn))
  obtain ⟨s, hs⟩ := Option.isSome_iff_exists.mp h1
  have ht : ∀ g, g ∈ conf.map Prod.fst → (lookup g s.data).isSome = true := by
    intro g hg
    rw [run_types hs, newStore_types]
    exact hg
  refine ⟨s, hs, ?_, ?_, ?_⟩
  · intro n hn
    rw [← Option.isSome_iff_ne_none, step_isSome]
    exact ht _ hn
  · intro g c hg
    rw [← Option.isSome_iff_ne_none, clean_isSome]
    exact ht _ hg
  · intro g q hg hp hans
    obtain ⟨cm, hcm⟩ := Option.isSome_iff_exists.mp (ht g hg)
    unfold Store.mayAnswer at hans
    rw [hcm] at hans
    obtain ⟨vs, _, hq⟩ := hans
    have := queryList_some (isPrint := isPrint) (alg := alg) (pf := pf) vs q hp
    rw [← hq] at this
    simp at this

/-- **C31**, the boundary: every notification, clean or query on a type that is not configured crashes. -/
theorem C31_unconfigured_crashes (hrun : (newStore conf).run eval h = some s) (g : GVR)
    (hg : g ∉ conf.map Prod.fst) : (∀ n : Notice, n.gvr = g → s.step eval n = none)
      ∧ (∀ c, s.clean g c = none) ∧ (∀ q, s.answers isPrint alg pf g q none)
      ∧ s.isStoreGVR g = false := by
  have hn : lookup g s.data = none := by
    have := run_types hrun g
    cases hl : lookup g s.data with
    | none => rfl
    | some cm =>
      rw [hl] at this
      exact absurd ((newStore_types conf g).mp this.symm) hg
  refine ⟨?_, ?_, ?_, ?_⟩
  · rintro n rfl
    rw [← Option.isNone_iff_eq_none, ← Option.not_isSome, step_isSome, hn]
    rfl
  · intro c
    rw [← Option.isNone_iff_eq_none, ← Option.not_isSome, clean_isSome, hn]
    rfl
  · intro q
    unfold Store.answers
    rw [hn]
  · unfold Store.isStoreGVR
    rw [hn]
    rfl

/-- The example history is about configured types; a third type is not configured. -/
example : (∀ n ∈ exHist, n.gvr ∈ exConf.map Prod.fst)
    ∧ (⟨lit "apps", lit "v1", lit "deployments"⟩ : GVR) ∉ exConf.map Prod.fst
    ∧ ValidPaging { page := 3, pageSize := 10 } := by
  refine ⟨by decide +kernel, by decide +kernel, Or.inr ⟨by decide, by decide, by decide⟩⟩

/-- **C28** on well defined page parameters: a query on a configured type gives an answer; without an
error its items are all the matching objects (page size 0) or the requested page of them, empty past the end.
Missing for the full claim: page 0, negative numbers and pages ending past 2^63 - 1, where the query crashes
(`C28_false_page_zero`, `C28_false_negative`, `C28_false_overflow`). -/
theorem C28_pages_partial (hconf : ConfOK conf) (hrun : (newStore conf).run eval h = some s) (g : GVR)
    (hg : g ∈ conf.map Prod.fst) (q : Query) (hp : ValidPaging q.page) (r : Option QueryResult)
    (hans : s.mayAnswer isPrint alg pf g q r) :
    ∃ res, r = some res ∧ (res.error = false → ∃ all : List (Ident × Obj), (all.map Prod.fst).Nodup
      ∧ (∀ id, id ∈ all.map Prod.fst ↔ ∃ o, Matching isPrint eval conf h g q id o)
      ∧ (∀ e ∈ all, s.get e.1.gvr e.1.cluster e.1.ns e.1.name = some e.2) ∧ res.total = all.length
      ∧ (q.page.pageSize = 0 → res.items = all.map Prod.snd)
      ∧ (q.page.pageSize ≠ 0 → res.items
          = ((all.map Prod.snd).drop ((q.page.page - 1) * q.page.pageSize).toNat).take q.page.pageSize.toNat)
      ∧ (q.page.pageSize ≠ 0 → (q.page.page - 1) * q.page.pageSize ≥ res.total → res.items = [])) := by
  have ht : (lookup g s.data).isSome = true := by
    rw [run_types hrun, newStore_types]
    exact hg
  obtain ⟨cm, hcm⟩ := Option.isSome_iff_exists.mp ht
  have hans0 := hans
  unfold Store.mayAnswer at hans
  rw [hcm] at hans
  obtain ⟨vs, _, hq⟩ := hans
  have hsome := queryList_some (isPrint := isPrint) (alg := alg) (pf := pf) vs q hp
  rw [← hq] at hsome
  obtain ⟨res, rfl⟩ := Option.isSome_iff_exists.mp hsome
  refine ⟨res, rfl, ?_⟩
  intro hok
  obtain ⟨found, f1, f2, f3, f4, f5⟩ := answer_found hconf hrun g q res hans0 hok
  have hmap : (found.map fun e => (e.1, e.2.2.obj)).map Prod.snd = (found.map fun e => e.2.2).map SObj.obj := by
    simp [List.map_map, Function.comp_def]
  have hmain : (q.page.pageSize = 0 → res.items = (found.map fun e => e.2.2).map SObj.obj) ∧
      (q.page.pageSize ≠ 0 → res.items = (((found.map fun e => e.2.2).map SObj.obj).drop
        ((q.page.page - 1) * q.page.pageSize).toNat).take q.page.pageSize.toNat) := by
    rcases f5 with ⟨rfl, hi⟩ | ⟨_, _, _, items, h1, h2⟩
    · exact ⟨fun _ => hi, fun _ => by rw [hi]; simp⟩
    · have hl : ((found.map fun e => e.2.2).length : Int) = found.length := by simp
      rw [← hl] at h1
      rcases hp with h0 | ⟨p1, p2, p3⟩
      · refine ⟨fun _ => ?_, fun hne => absurd h0 hne⟩
        unfold bounds at h1
        rw [if_pos h0, slice_all] at h1
        simp only [Option.some.injEq] at h1
        rw [h2, h1]
      · refine ⟨fun h0 => by omega, fun _ => ?_⟩
        rw [slice_page _ p1 p2 (by omega)] at h1
        simp only [Option.some.injEq] at h1
        rw [h2, ← h1, List.map_take, List.map_drop]
  refine ⟨found.map fun e => (e.1, e.2.2.obj), ?_, ?_, ?_, by rw [f4]; simp, ?_, ?_, ?_⟩
  · rw [List.map_map]; exact f1
  · intro id
    rw [List.map_map]
    constructor
    · intro hid
      obtain ⟨e, he, rfl⟩ := List.mem_map.mp hid
      exact ⟨e.2.1, (f2 _ _).mp ⟨e.2.2, he⟩⟩
    · rintro ⟨o, ho⟩
      obtain ⟨so, hso⟩ := (f2 _ _).mpr ho
      exact List.mem_map.mpr ⟨_, hso, rfl⟩
  · intro e he
    obtain ⟨x, hx, rfl⟩ := List.mem_map.mp he
    rw [get_look, (f3 x hx).2]
    rfl
  · rw [hmap]; exact hmain.1
  · rw [hmap]; exact hmain.2
  · intro hne hpast
    rw [hmain.2 hne, List.drop_eq_nil_of_le (by rw [List.length_map, List.length_map]; omega)]
    simp

theorem wrap64_sub_one {page : Int} (h : -2^63 < page ∧ page < 2^63) : wrap64 (page - 1) = page - 1 := wrap64_id (by omega) (by omega)

/-- **C28**, exactly: with the maps in the same order, a query whose page begins and ends at an `int64` crashes if and only if the query without paging finds something and the
page begins before the first object, or the page size is negative and the page does not end after the last object. -/
theorem C28_crash_exact (cm : ClMap) (q : Query) {res : QueryResult}
    (hall : queryMap isPrint alg pf cm { q with page := { q.page with page := 0, pageSize := 0 } } = some res) (hok : res.error = false)
    (hpage : -2^63 < q.page.page ∧ q.page.page < 2^63) (hstart : -2^63 ≤ (q.page.page - 1) * q.page.pageSize ∧ (q.page.page - 1) * q.page.pageSize < 2^63)
    (hend : -2^63 ≤ q.page.page * q.page.pageSize ∧ q.page.page * q.page.pageSize < 2^63) :
    queryMap isPrint alg pf cm q = none ↔ q.page.pageSize ≠ 0 ∧ 0 < res.total
      ∧ ((q.page.page - 1) * q.page.pageSize < 0 ∨ (q.page.pageSize < 0 ∧ q.page.page * q.page.pageSize < res.total)) := by
  have hm : ∀ m : List (Str × Str), Paginate.matches isPrint { q.page with page := 0, pageSize := 0 } m = q.page.matches isPrint m := fun _ => rfl
  unfold queryMap queryList at hall ⊢
  simp only [hm] at hall ⊢
  generalize hr : ((visited q.ns cm).filter fun o => q.page.matches isPrint o.index == some true) = rs at hall ⊢
  have hperm : (sortObjs alg pf rs q.page.sort).1.length = rs.length := by
    unfold sortObjs
    split
    · rfl
    · split
      · rfl
      · rfl
      · exact (alg.perm _ _).length_eq
  generalize sortObjs alg pf rs q.page.sort = so at hall hperm ⊢
  by_cases h0 : rs.length = 0
  · rw [if_pos h0] at hall ⊢
    obtain rfl := Option.some.inj hall
    simp
  · rw [if_neg h0] at hall ⊢
    cases hs : so.2 with
    | true =>
      rw [hs, if_pos rfl] at hall
      obtain rfl := Option.some.inj hall
      simp at hok
    | false =>
      simp only [hs, Bool.false_eq_true, if_false] at hall ⊢
      have hlen : (rs.length : Int) = so.1.length := by rw [hperm]
      have htot : res.total = rs.length := by
        have hb : bounds 0 0 (rs.length : Int) = (0, (rs.length : Int)) := rfl
        rw [hb, hlen, slice_all] at hall
        obtain rfl := Option.some.inj hall
        exact hlen.symm
      rw [htot, Option.map_eq_none_iff]
      have hse : q.page.page * q.page.pageSize = (q.page.page - 1) * q.page.pageSize + q.page.pageSize := by
        rw [Int.sub_mul]; omega
      unfold slice bounds
      by_cases hz : q.page.pageSize = 0
      · simp only [hz, hperm]
        simp
      · simp only [if_neg hz, wrap64_sub_one hpage]
        rw [wrap64_id (i := (q.page.page - 1) * q.page.pageSize) (by omega) (by omega)]
        rw [hse] at hend ⊢
        rw [wrap64_id (by omega) (by omega)]
        generalize (q.page.page - 1) * q.page.pageSize = st at *
        rw [hperm]
        have hpos : 0 < (rs.length : Int) := by omega
        generalize (rs.length : Int) = l at *
        generalize q.page.pageSize = sz at *
        by_cases c1 : st ≥ l
        · by_cases c2 : st + sz ≥ l
          · simp only [if_pos c1, if_pos c2]
            rw [if_pos (by omega)]
            simp; omega
          · simp only [if_pos c1, if_neg c2]
            rw [if_neg (by omega)]
            simp; omega
        · by_cases c2 : st + sz ≥ l
          · simp only [if_neg c1, if_pos c2]
            by_cases c3 : 0 ≤ st
            · rw [if_pos (by omega)]
              simp; omega
            · rw [if_neg (by omega)]
              simp; omega
          · simp only [if_neg c1, if_neg c2]
            by_cases c3 : 0 ≤ st ∧ 0 ≤ sz
            · rw [if_pos (by omega)]
              simp; omega
            · rw [if_neg (by omega)]
              simp; omega

/-- `int64` arithmetic is arithmetic modulo 2^64, with the representative from -2^63. -/
theorem wrap64_bmod (i : Int) : wrap64 i = i.bmod 18446744073709551616 := by
  unfold wrap64
  rw [Int.bmod_def]
  split <;> omega

theorem wrap64_bounds (page size : Int) : wrap64 (wrap64 (page - 1) * size) = ((page - 1) * size).bmod 18446744073709551616
    ∧ wrap64 (wrap64 (wrap64 (page - 1) * size) + size) = (page * size).bmod 18446744073709551616 := by
  have h1 : wrap64 (wrap64 (page - 1) * size) = ((page - 1) * size).bmod 18446744073709551616 := by
    rw [wrap64_bmod, wrap64_bmod, Int.bmod_mul_bmod]
  refine ⟨h1, ?_⟩
  rw [h1, wrap64_bmod, Int.bmod_add_bmod]
  congr 1
  rw [Int.sub_mul]; omega

/-- **C28**, exactly, for all pages and page sizes: let `a` and `b` be begin and end of the page, counted modulo 2^64. With the maps in the
same order, a query with a page size that finds something gives the objects from `a` up to `b` of the query without paging, or it crashes:
if `a` is negative, or if `b` is before `a` and before the end. -/
theorem C28_exact (cm : ClMap) (q : Query) {res : QueryResult}
    (hall : queryMap isPrint alg pf cm { q with page := { q.page with page := 0, pageSize := 0 } } = some res) (hok : res.error = false) :
    let a := ((q.page.page - 1) * q.page.pageSize).bmod 18446744073709551616
    let b := (q.page.page * q.page.pageSize).bmod 18446744073709551616
    queryMap isPrint alg pf cm q =
      if q.page.pageSize = 0 ∨ res.total = 0 then some res
      else if a < 0 ∨ (b < a ∧ b < res.total) then none
      else some { res with items := (res.items.take b.toNat).drop a.toNat } := by
  intro a b
  have hm : ∀ m : List (Str × Str), Paginate.matches isPrint { q.page with page := 0, pageSize := 0 } m = q.page.matches isPrint m := fun _ => rfl
  unfold queryMap queryList at hall ⊢
  simp only [hm] at hall ⊢
  generalize hr : ((visited q.ns cm).filter fun o => q.page.matches isPrint o.index == some true) = rs at hall ⊢
  have hperm : (sortObjs alg pf rs q.page.sort).1.length = rs.length := by
    unfold sortObjs
    split
    · rfl
    · split
      · rfl
      · rfl
      · exact (alg.perm _ _).length_eq
  generalize sortObjs alg pf rs q.page.sort = so at hall hperm ⊢
  by_cases h0 : rs.length = 0
  · rw [if_pos h0] at hall ⊢
    obtain rfl := Option.some.inj hall
    simp
  · rw [if_neg h0] at hall ⊢
    cases hs : so.2 with
    | true =>
      rw [hs, if_pos rfl] at hall
      obtain rfl := Option.some.inj hall
      simp at hok
    | false =>
      simp only [hs, Bool.false_eq_true, if_false] at hall ⊢
      have hlen : (rs.length : Int) = so.1.length := by rw [hperm]
      have hb0 : bounds 0 0 (rs.length : Int) = (0, (rs.length : Int)) := rfl
      rw [hb0, hlen, slice_all] at hall
      obtain rfl := Option.some.inj hall
      simp only at hok ⊢
      have hne : (so.1.length : Int) ≠ 0 := by rw [hperm]; omega
      rw [hlen]
      unfold bounds
      by_cases hz : q.page.pageSize = 0
      · rw [if_pos (Or.inl hz), if_pos hz, slice_all]
        rfl
      · rw [if_neg hz, if_neg (not_or.mpr ⟨hz, hne⟩)]
        simp only [(wrap64_bounds q.page.page q.page.pageSize).2]
        rw [(wrap64_bounds q.page.page q.page.pageSize).1]
        generalize ha : ((q.page.page - 1) * q.page.pageSize).bmod 18446744073709551616 = a' at *
        generalize hb : (q.page.page * q.page.pageSize).bmod 18446744073709551616 = b' at *
        have ea : a = a' := ha
        have eb : b = b' := hb
        rw [ea, eb]
        unfold slice
        by_cases hc : a' < 0 ∨ (b' < a' ∧ b' < (so.1.length : Int))
        · rw [if_pos hc, if_neg]
          · rfl
          · split <;> split <;> omega
        · rw [if_neg hc, if_pos (by split <;> split <;> omega)]
          simp only [Option.map_some, Option.some.injEq, QueryResult.mk.injEq, true_and, and_true]
          rw [List.map_take, List.map_drop, List.drop_take]
          have hl : (so.1.map SObj.obj).length = so.1.length := List.length_map ..
          generalize so.1.map SObj.obj = L at hl ⊢
          rw [← hl] at hc ⊢
          by_cases c1 : a' ≥ (L.length : Int)
          · rw [if_pos c1, List.drop_eq_nil_of_le (by omega), List.drop_eq_nil_of_le (by omega)]
            simp
          · rw [if_neg c1]
            by_cases c2 : b' ≥ (L.length : Int)
            · rw [if_pos c2, List.take_of_length_le, List.take_of_length_le] <;> rw [List.length_drop] <;> omega
            · rw [if_neg c2]
              congr 1
              omega

/-- Two objects: page 0 of size 1 crashes, page -1 of size -5 does not, page 1 of size -1 does. -/
example : let q (p z : Int) : Query := { page := { page := p, pageSize := z } }
    ((newStore exConf).run exEval exHist).bind (fun s => (lookup exPods s.data).map fun cm =>
      ((queryMap (fun _ => true) insertionSort (fun _ => none) cm (q 0 0)).map (·.total), (queryMap (fun _ => true) insertionSort (fun _ => none) cm (q 0 1)).isNone,
        (queryMap (fun _ => true) insertionSort (fun _ => none) cm (q (-1) (-5))).isNone, (queryMap (fun _ => true) insertionSort (fun _ => none) cm (q 1 (-1))).isNone))
      = some (some 2, true, false, true) := by
  decide +kernel

/-- **C28 is false** for page 0 with a page size: one object, page 0, page size 1 crashes. -/
theorem C28_false_page_zero : ∃ s, (newStore exConf).run exEval exHist = some s
    ∧ s.answers (fun _ => true) insertionSort (fun _ => none) exPods { page := { page := 0, pageSize := 1 } } none := by
  have hs : ((newStore exConf).run exEval exHist).isSome = true := by decide +kernel
  have hq : ((newStore exConf).run exEval exHist).bind (fun s => (lookup exPods s.data).map fun cm =>
      queryMap (fun _ => true) insertionSort (fun _ => none) cm { page := { page := 0, pageSize := 1 } })
      = some none := by decide +kernel
  obtain ⟨s, h⟩ := Option.isSome_iff_exists.mp hs
  rw [h] at hq
  refine ⟨s, h, ?_⟩
  simp only [Option.bind_some, Option.map_eq_some_iff] at hq
  obtain ⟨cm, h1, h2⟩ := hq
  unfold Store.answers
  rw [h1]
  exact ⟨cm, Shuffle.refl cm, h2.symm⟩

/-- **C28 is false** for a negative page. -/
theorem C28_false_negative : ∃ s, (newStore exConf).run exEval exHist = some s
    ∧ s.answers (fun _ => true) insertionSort (fun _ => none) exPods { page := { page := -1, pageSize := 5 } } none := by
  have hs : ((newStore exConf).run exEval exHist).isSome = true := by decide +kernel
  have hq : ((newStore exConf).run exEval exHist).bind (fun s => (lookup exPods s.data).map fun cm =>
      queryMap (fun _ => true) insertionSort (fun _ => none) cm { page := { page := -1, pageSize := 5 } })
      = some none := by decide +kernel
  obtain ⟨s, h⟩ := Option.isSome_iff_exists.mp hs
  rw [h] at hq
  refine ⟨s, h, ?_⟩
  simp only [Option.bind_some, Option.map_eq_some_iff] at hq
  obtain ⟨cm, h1, h2⟩ := hq
  unfold Store.answers
  rw [h1]
  exact ⟨cm, Shuffle.refl cm, h2.symm⟩

/-- **C28 is false** for a page that ends past 2^63 - 1: the end of the slice wraps around. -/
theorem C28_false_overflow : ∃ s, (newStore exConf).run exEval exHist = some s
    ∧ s.answers (fun _ => true) insertionSort (fun _ => none) exPods
        { page := { page := 2, pageSize := 9223372036854775807 } } none := by
  have hs : ((newStore exConf).run exEval exHist).isSome = true := by decide +kernel
  have hq : ((newStore exConf).run exEval exHist).bind (fun s => (lookup exPods s.data).map fun cm =>
      queryMap (fun _ => true) insertionSort (fun _ => none) cm
        { page := { page := 2, pageSize := 9223372036854775807 } }) = some none := by decide +kernel
  obtain ⟨s, h⟩ := Option.isSome_iff_exists.mp hs
  rw [h] at hq
  refine ⟨s, h, ?_⟩
  simp only [Option.bind_some, Option.map_eq_some_iff] at hq
  obtain ⟨cm, h1, h2⟩ := hq
  unfold Store.answers
  rw [h1]
  exact ⟨cm, Shuffle.refl cm, h2.symm⟩

/-- **C28 is false** for a page whose begin overflows: page 2^62 + 1 of size 4 shows the first objects once more, instead of none. -/
theorem C28_false_wrapped : ∃ (s : Store) (res : QueryResult), (newStore exConf).run exEval exHist = some s
    ∧ s.answers (fun _ => true) insertionSort (fun _ => none) exPods
        { page := { page := 4611686018427387905, pageSize := 4 } } (some res) ∧ res.error = false ∧ res.total = 2 ∧ res.items.length = 2 := by
  have hs : ((newStore exConf).run exEval exHist).isSome = true := by decide +kernel
  have hq : (((newStore exConf).run exEval exHist).bind (fun s => (lookup exPods s.data).bind fun cm =>
      queryMap (fun _ => true) insertionSort (fun _ => none) cm
        { page := { page := 4611686018427387905, pageSize := 4 } })).map (fun r => (r.error, r.total, r.items.length))
      = some (false, 2, 2) := by decide +kernel
  obtain ⟨s, h⟩ := Option.isSome_iff_exists.mp hs
  rw [h] at hq
  simp only [Option.bind_some, Option.map_eq_some_iff, Option.bind_eq_some_iff, Prod.mk.injEq] at hq
  obtain ⟨r, ⟨cm, h1, h2⟩, h3, h4, h5⟩ := hq
  refine ⟨s, r, h, ?_, h3, h4, h5⟩
  unfold Store.answers
  rw [h1]
  exact ⟨cm, Shuffle.refl cm, h2.symm⟩

end Ckube
