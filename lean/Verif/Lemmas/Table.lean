import Verif.Model.Proxy
import Verif.Lemmas.Store
import Verif.Lemmas.Search
import Verif.Lemmas.Url
import Verif.Lemmas.IndexJson

/-! # `serverPrint` -/

namespace Ckube

theorem foldl_insertKV {κ ν μ : Type} [DecidableEq κ] (f : μ → ν) : ∀ (l : List (κ × μ)) (m : List (κ × ν)),
    (m.map Prod.fst ++ l.map Prod.fst).Nodup →
    l.foldl (fun m e => insertKV e.1 (f e.2) m) m = m ++ l.map fun e => (e.1, f e.2)
  | [], m, _ => by simp
  | e :: l, m, h => by
    rw [List.foldl_cons, insertKV_new, foldl_insertKV f l]
    · simp
    · simpa using h
    · have := (List.nodup_append.mp h).2.2
      intro hm
      exact this _ hm _ (by simp) rfl

/-- A marshalled string map is unmarshalled. -/
theorem decodeStrMap_encodeMap {m : List (Str × Str)} (hm : IsMap m)
    (h : ∀ e ∈ m, validUtf8 e.1 = true ∧ validUtf8 e.2 = true) :
    decodeStrMap (encodeMap m) = sortBy (fun a b => strLe a.1 b.1) m := by
  unfold decodeStrMap
  rw [parse_encodeMap h]
  simp only
  have hp := sortBy_perm (fun a b : Str × Str => strLe a.1 b.1) m
  have hs : IsMap (sortBy (fun a b : Str × Str => strLe a.1 b.1) m) := (hp.map Prod.fst).nodup_iff.mpr hm
  rw [foldl_insertKV strElem]
  · simp [List.map_map, Function.comp_def, strElem]
  · unfold IsMap at hs
    simpa [List.map_map, Function.comp_def] using hs

theorem tableCols_mem {idx : List (Str × Str)} (k : Str) : k ∈ tableCols idx ↔
    k = lit "cluster" ∨ k = lit "name" ∨ k ∈ idx.map Prod.fst := by
  unfold tableCols
  rw [List.mem_append, mem_sortBy, List.mem_filter]
  have hns : lit "namespace" ∈ idx.map Prod.fst ↔ (lookup (lit "namespace") idx).isSome = true := by
    constructor
    · intro h
      rw [Option.isSome_iff_ne_none]
      intro hn
      obtain ⟨e, he, hk⟩ := List.mem_map.mp h
      exact lookup_eq_none.mp hn e.2 (by rw [← hk]; exact he)
    · intro h
      obtain ⟨v, hv⟩ := Option.isSome_iff_exists.mp h
      exact List.mem_map.mpr ⟨_, mem_of_lookup hv, rfl⟩
  simp only [Bool.and_eq_true, decide_eq_true_eq]
  by_cases h1 : k = lit "cluster"
  · subst h1; cases lookup (lit "namespace") idx <;> simp
  by_cases h2 : k = lit "name"
  · subst h2; cases lookup (lit "namespace") idx <;> simp
  by_cases h3 : k = lit "namespace"
  · subst h3
    rw [hns]
    cases lookup (lit "namespace") idx <;> simp [h1, h2]
  · cases lookup (lit "namespace") idx <;> simp [h1, h2, h3]

theorem tableCols_nodup {idx : List (Str × Str)} (h : IsMap idx) : (tableCols idx).Nodup := by
  unfold tableCols
  rw [List.nodup_append]
  refine ⟨?_, ?_, ?_⟩
  · split <;> decide
  · exact ((sortBy_perm _ _).nodup_iff).mpr (List.Nodup.filter _ h)
  · intro a ha b hb hab
    subst hab
    rw [mem_sortBy, List.mem_filter] at hb
    simp only [Bool.and_eq_true, decide_eq_true_eq] at hb
    split at ha <;> simp [hb] at ha

theorem map_fst_zipIdx' : ∀ (l : List Str) (n : Nat), (l.zipIdx n).map Prod.fst = l
  | [], _ => rfl
  | a :: l, n => by rw [List.zipIdx_cons, List.map_cons, map_fst_zipIdx' l]

theorem lookup_zipIdx {l : List Str} (hn : l.Nodup) (k : Str) (j : Nat) :
    lookup k l.zipIdx = some j ↔ l[j]? = some k := by
  have hm : IsMap l.zipIdx := by unfold IsMap; rw [map_fst_zipIdx']; exact hn
  rw [lookup_iff hm, List.mk_mem_zipIdx_iff_getElem?]

theorem colIndex_eq {cols : List Str} (hn : cols.Nodup) : colIndex cols = cols.zipIdx := by
  unfold colIndex
  rw [show (fun (m : List (Str × Nat)) (e : Str × Nat) => insertKV e.1 e.2 m)
      = fun m e => insertKV e.1 (id e.2) m from rfl, foldl_insertKV id]
  · simp
  · rw [map_fst_zipIdx']; simpa using hn

/-- Filling the cells of a row. -/
theorem fillCells_some {cols : List Str} (hn : cols.Nodup) : ∀ {es : List (Str × Str)} {cells : List (Option Str)},
    IsMap es → (∀ e ∈ es, e.1 ∈ cols) → cells.length = cols.length →
    ∃ out, fillCells cols.zipIdx es cells = some out ∧ out.length = cols.length
      ∧ ∀ (j : Nat) (k : Str), cols[j]? = some k → out[j]? = match lookup k es with | some v => some (some v) | none => cells[j]?
  | [], cells, _, _, hl => ⟨cells, rfl, hl, fun j k _ => by simp [lookup]⟩
  | (k, v) :: es, cells, hm, hk, hl => by
    obtain ⟨j, hj⟩ := List.mem_iff_getElem?.mp (hk (k, v) (by simp))
    have hlk : lookup k cols.zipIdx = some j := (lookup_zipIdx hn k j).mpr hj
    have hlt : j < cells.length := by rw [hl]; exact (List.getElem?_eq_some_iff.mp hj).1
    have hm' : IsMap es := (List.nodup_cons.mp hm).2
    have hknot : k ∉ es.map Prod.fst := (List.nodup_cons.mp hm).1
    obtain ⟨out, h1, h2, h3⟩ := fillCells_some hn (es := es) (cells := cells.set j (some v)) hm'
      (fun e he => hk e (by simp [he])) (by simpa using hl)
    refine ⟨out, ?_, h2, ?_⟩
    · unfold fillCells
      rw [hlk, Option.getD_some]
      rw [if_pos hlt, h1]
    · intro j' k' hj'
      rw [h3 j' k' hj']
      have hcons : lookup k' ((k, v) :: es) = if k = k' then some v else lookup k' es := rfl
      rw [hcons]
      by_cases hkk : k = k'
      · subst hkk
        have : j' = j := by
          have h4 := (lookup_zipIdx hn k j').mpr hj'
          rw [hlk] at h4
          exact (Option.some.inj h4).symm
        subst this
        have hnone : lookup k es = none := lookup_eq_none.mpr fun w hw => hknot (List.mem_map_of_mem (f := Prod.fst) hw)
        rw [hnone]
        simp [hlt]
      · rw [if_neg hkk]
        have hne : j ≠ j' := by
          rintro rfl
          rw [hj] at hj'
          exact hkk (Option.some.inj hj')
        cases lookup k' es with
        | some w => rfl
        | none => simp [hne]

/-- The cells of a row are the values of the columns. -/
theorem fillCells_eq {cols : List Str} (hn : cols.Nodup) {es es' : List (Str × Str)} (hm : IsMap es) (hp : es'.Perm es)
    (hk : ∀ e ∈ es, e.1 ∈ cols) :
    fillCells cols.zipIdx es' (List.replicate cols.zipIdx.length none) = some (cols.map fun c => lookup c es) := by
  have hm' : IsMap es' := (hp.map Prod.fst).nodup_iff.mpr hm
  obtain ⟨out, h1, h2, h3⟩ := fillCells_some hn (es := es') (cells := List.replicate cols.zipIdx.length none) hm'
    (fun e he => hk e (hp.mem_iff.mp he)) (by simp)
  rw [h1]
  congr 1
  apply List.ext_getElem?
  intro j
  by_cases hj : j < cols.length
  · obtain ⟨k, hk⟩ : ∃ k, cols[j]? = some k := ⟨cols[j], by simp [hj]⟩
    rw [h3 j k hk, lookup_perm hm' hp k]
    simp only [List.getElem?_map, hk, Option.map_some]
    cases lookup k es with
    | some v => rfl
    | none => simp [hj]
  · rw [List.getElem?_eq_none (by omega), List.getElem?_eq_none (by simp; omega)]

/-- What `serverPrint` reads from an object. -/
def Printed (o : Obj) (idx : List (Str × Str)) : Prop :=
  ∃ m t, o.om = some m ∧ lookup indexAnno m.annos = some t ∧ t ≠ [] ∧ decodeStrMap t = idx

theorem tabLoop_rows {tord : Nat → List (Str × Str) → List (Str × Str)} (htord : ∀ i m, (tord i m).Perm m) {cols : List Str}
    (hn : cols.Nodup) : ∀ (es : List (Obj × List (Str × Str))) (i : Nat) (t : Tab), i ≠ 0 → t.im = cols.zipIdx →
    (∀ e ∈ es, Printed e.1 e.2 ∧ IsMap e.2 ∧ ∀ x ∈ e.2, x.1 ∈ cols) →
    tabLoop tord i t (es.map Prod.fst) = some { t with rows := t.rows ++ es.map fun e => cols.map fun c => lookup c e.2 }
  | [], i, t, _, _, _ => by simp [tabLoop]
  | e :: es, i, t, hi, ht, he => by
    obtain ⟨⟨m, x, hm, hx, hxne, hdec⟩, hmap, hcols⟩ := he e (by simp)
    rw [List.map_cons, tabLoop]
    have hstep : tabStep (tord i) t i e.1 = some { t with rows := t.rows ++ [cols.map fun c => lookup c e.2] } := by
      unfold tabStep
      simp only [hm, hx, Option.getD_some, if_neg hxne, if_neg hi, hdec, ht]
      rw [fillCells_eq hn hmap (htord i _) hcols]
      rfl
    rw [hstep, Option.bind_some, tabLoop_rows htord hn es (i + 1)
      { t with rows := t.rows ++ [cols.map fun c => lookup c e.2] } (by omega) ht (fun e' h' => he e' (by simp [h']))]
    simp

/-- The table of objects with the same index names. -/
theorem serverPrint_eq {tord : Nat → List (Str × Str) → List (Str × Str)} (htord : ∀ i m, (tord i m).Perm m)
    (e : Obj × List (Str × Str)) (es : List (Obj × List (Str × Str)))
    (he : ∀ x ∈ e :: es, Printed x.1 x.2 ∧ IsMap x.2 ∧ ∀ k, k ∈ x.2.map Prod.fst → k ∈ e.2.map Prod.fst) :
    serverPrint tord ((e :: es).map Prod.fst) = .table ((tableCols e.2).map fun c => ⟨c, colPriority c⟩)
      ((e :: es).map fun x => (tableCols e.2).map fun c => lookup c x.2) := by
  obtain ⟨⟨m, x, hm, hx, hxne, hdec⟩, hmap, _⟩ := he e (by simp)
  have hn := tableCols_nodup hmap
  have hcols : ∀ y ∈ e :: es, ∀ z ∈ y.2, z.1 ∈ tableCols e.2 := by
    intro y hy z hz
    rw [tableCols_mem]
    exact Or.inr (Or.inr ((he y hy).2.2 z.1 (List.mem_map_of_mem hz)))
  unfold serverPrint
  rw [List.map_cons, tabLoop]
  have hstep : tabStep (tord 0) {} 0 e.1 = some { columns := (tableCols e.2).map fun c => ⟨c, colPriority c⟩, im := (tableCols e.2).zipIdx, rows := [(tableCols e.2).map fun c => lookup c e.2] } := by
    unfold tabStep
    simp only [hm, hx, Option.getD_some, if_neg hxne, hdec, if_pos, colIndex_eq hn]
    rw [fillCells_eq hn hmap (htord 0 _) (hcols e (by simp))]
    rfl
  rw [hstep, Option.bind_some, tabLoop_rows htord hn es 1 _ (by omega) rfl
    (fun y hy => ⟨(he y (by simp [hy])).1, (he y (by simp [hy])).2.1, hcols y (by simp [hy])⟩)]
  simp

end Ckube
