import Verif.Model.Url
import Verif.Lemmas.Sort

/-! # Query strings are read back -/

namespace Ckube

theorem escByte_clean (c : UInt8) : ∀ b ∈ escByte c, b ≠ 38 ∧ b ≠ 59 ∧ b ≠ 61 :=
  (forall_byte (P := fun c => ∀ b ∈ escByte c, b ≠ 38 ∧ b ≠ 59 ∧ b ≠ 61) (by decide +kernel)) c

theorem queryEscape_clean (s : Str) : ∀ b ∈ queryEscape s, b ≠ 38 ∧ b ≠ 59 ∧ b ≠ 61 := by
  intro b hb
  obtain ⟨c, _, hc⟩ := List.mem_flatMap.mp hb
  exact escByte_clean c b hc

theorem escByte_cases (c : UInt8) : (escByte c = [c] ∧ c ≠ 37 ∧ c ≠ 43) ∨ (escByte c = [43] ∧ c = 32)
    ∨ ∃ a b, escByte c = [37, a, b] ∧ ∃ x y, hexVal a = some x ∧ hexVal b = some y ∧ (x * 16 + y).toUInt8 = c := by
  by_cases h1 : unreserved c = true
  · have := (forall_byte (P := fun c => unreserved c = true → c ≠ 37 ∧ c ≠ 43) (by decide +kernel)) c h1
    exact Or.inl ⟨by simp [escByte, h1], this⟩
  · by_cases h2 : c = 32
    · exact Or.inr (Or.inl ⟨by simp [escByte, h2]; decide, h2⟩)
    · refine Or.inr (Or.inr ⟨_, _, by rw [escByte, if_neg h1, if_neg h2], ?_⟩)
      have key := (forall_byte (P := fun c => hexVal (upperHex (c.toNat / 16)) = some (c.toNat / 16)
        ∧ hexVal (upperHex (c.toNat % 16)) = some (c.toNat % 16)) (by decide +kernel)) c
      refine ⟨_, _, key.1, key.2, ?_⟩
      have : c.toNat / 16 * 16 + c.toNat % 16 = c.toNat := by omega
      rw [this]
      simp

theorem queryUnescape_escape (s : Str) : queryUnescape (queryEscape s) = some s := by
  induction s with
  | nil => rfl
  | cons c s ih =>
    rw [queryEscape, List.flatMap_cons, ← queryEscape]
    rcases escByte_cases c with ⟨h, h1, h2⟩ | ⟨h, rfl⟩ | ⟨a, b, h, x, y, hx, hy, he⟩
    · rw [h, List.cons_append, List.nil_append, queryUnescape.eq_def]
      simp [h1, h2, ih]
    · rw [h, List.cons_append, List.nil_append, queryUnescape.eq_def]
      simp [ih]
    · rw [h]
      simp only [List.cons_append, List.nil_append]
      rw [queryUnescape.eq_def]
      simp [hx, hy, ih, he]

theorem indexByte_skip {c : UInt8} : ∀ {p s : Str}, c ∉ p → indexByte c (p ++ c :: s) = some p.length
  | [], s, _ => by simp [indexByte]
  | a :: p, s, h => by
    simp only [List.mem_cons, not_or] at h
    have := indexByte_skip (s := s) h.2
    simp [indexByte, Ne.symm h.1, this]

theorem addPiece_enc (m : Values) (k v : Str) :
    addPiece m (queryEscape k ++ [61] ++ queryEscape v) = addValue k v m := by
  have hk := queryEscape_clean k
  have hv := queryEscape_clean v
  have h59 : (59 : UInt8) ∉ queryEscape k ++ [61] ++ queryEscape v := by
    simp only [List.mem_append, List.mem_singleton, not_or]
    exact ⟨⟨fun h => (hk _ h).2.1 rfl, by decide⟩, fun h => (hv _ h).2.1 rfl⟩
  have hc : cutEq (queryEscape k ++ [61] ++ queryEscape v) = (queryEscape k, queryEscape v) := by
    have : (61 : UInt8) ∉ queryEscape k := fun h => (hk _ h).2.2 rfl
    rw [cutEq, List.append_assoc, List.singleton_append, indexByte_skip this]
    simp
  rw [addPiece, if_neg h59, if_neg (by simp), hc]
  simp only [queryUnescape_escape]

theorem foldl_pieces (m : Values) : ∀ (l : Values), (l.flatMap encPieces).foldl addPiece m
    = l.foldl (fun m e => e.2.foldl (fun m v => addValue e.1 v m) m) m
  | [] => rfl
  | e :: l => by
    rw [List.flatMap_cons, List.foldl_append, List.foldl_cons, encPieces, List.foldl_map]
    rw [← foldl_pieces _ l]
    congr 1
    refine List.foldl_ext _ _ _ ?_
    intro m v _
    exact addPiece_enc m e.1 v

theorem insertKV_new {κ ν : Type} [DecidableEq κ] {k : κ} {v : ν} : ∀ {m : List (κ × ν)}, k ∉ m.map Prod.fst →
    insertKV k v m = m ++ [(k, v)]
  | [], _ => rfl
  | (k', v') :: m, h => by
    simp only [List.map_cons, List.mem_cons, not_or] at h
    rw [insertKV, if_neg (Ne.symm h.1), insertKV_new h.2]; rfl

theorem insertKV_last {κ ν : Type} [DecidableEq κ] {k : κ} {v w : ν} : ∀ {m : List (κ × ν)}, k ∉ m.map Prod.fst →
    insertKV k v (m ++ [(k, w)]) = m ++ [(k, v)]
  | [], _ => by simp [insertKV]
  | (k', v') :: m, h => by
    simp only [List.map_cons, List.mem_cons, not_or] at h
    rw [List.cons_append, insertKV, if_neg (Ne.symm h.1), insertKV_last h.2]; rfl

theorem lookup_last {κ ν : Type} [DecidableEq κ] {k : κ} {w : ν} : ∀ {m : List (κ × ν)}, k ∉ m.map Prod.fst →
    lookup k (m ++ [(k, w)]) = some w
  | [], _ => by simp [lookup]
  | (k', v') :: m, h => by
    simp only [List.map_cons, List.mem_cons, not_or] at h
    rw [List.cons_append, lookup, if_neg (Ne.symm h.1), lookup_last h.2]

theorem lookup_fst_none {κ ν : Type} [DecidableEq κ] {k : κ} {m : List (κ × ν)} (h : k ∉ m.map Prod.fst) :
    lookup k m = none := by
  rw [lookup_eq_none]
  intro v hv
  exact h (List.mem_map.mpr ⟨_, hv, rfl⟩)

theorem addValues_more {k : Str} {m : Values} (h : k ∉ m.map Prod.fst) : ∀ (vs acc : List Str),
    vs.foldl (fun m v => addValue k v m) (m ++ [(k, acc)]) = m ++ [(k, acc ++ vs)]
  | [], acc => by simp
  | v :: vs, acc => by
    rw [List.foldl_cons, addValue, lookup_last h, insertKV_last h, Option.getD_some,
      addValues_more h vs (acc ++ [v])]
    simp

theorem addValues_new {k : Str} {m : Values} (h : k ∉ m.map Prod.fst) {vs : List Str} (hv : vs ≠ []) :
    vs.foldl (fun m v => addValue k v m) m = m ++ [(k, vs)] := by
  cases vs with
  | nil => exact absurd rfl hv
  | cons v vs =>
    rw [List.foldl_cons, addValue, lookup_fst_none h, insertKV_new h, addValues_more h]
    simp

theorem addAll (m : Values) : ∀ (l : Values), IsMap (m ++ l) → (∀ e ∈ l, e.2 ≠ []) →
    l.foldl (fun m e => e.2.foldl (fun m v => addValue e.1 v m) m) m = m ++ l
  | [], _, _ => by simp
  | e :: l, hm, hl => by
    have hk : e.1 ∉ m.map Prod.fst := by
      unfold IsMap at hm
      rw [List.map_append, List.map_cons] at hm
      have := (List.nodup_append.mp hm).2.2
      exact fun hmem => this _ hmem _ (by simp) rfl
    rw [List.foldl_cons, addValues_new hk (hl e (by simp)), addAll (m ++ [(e.1, e.2)]) l (by simpa using hm)
      (fun x hx => hl x (by simp [hx]))]
    simp

/-- What `Query` reads of what `Encode` wrote. -/
theorem parseQuery_encode {q : Values} (hq : IsMap q) (hv : ∀ e ∈ q, e.2 ≠ []) :
    parseQuery (encodeQuery q) = sortBy (fun a b => strLe a.1 b.1) q := by
  have hp := sortBy_perm (fun (a b : Str × List Str) => strLe a.1 b.1) q
  unfold parseQuery encodeQuery
  generalize sortBy (fun (a b : Str × List Str) => strLe a.1 b.1) q = l at hp
  have hm : IsMap l := by unfold IsMap at *; exact (hp.map Prod.fst).nodup_iff.mpr hq
  have hl : ∀ e ∈ l, e.2 ≠ [] := fun e he => hv e (hp.mem_iff.mp he)
  have hfold : (l.flatMap encPieces).foldl addPiece [] = l := by
    rw [foldl_pieces]
    simpa using addAll [] l (by simpa using hm) hl
  by_cases hne : l.flatMap encPieces = []
  · rw [hne] at hfold ⊢
    rw [← hfold]; rfl
  · rw [splitByte_join 38 _ hne, hfold]
    intro p hp' hb
    obtain ⟨e, _, he⟩ := List.mem_flatMap.mp hp'
    obtain ⟨v, _, rfl⟩ := List.mem_map.mp he
    simp only [List.mem_append, List.mem_singleton] at hb
    rcases hb with (hb | hb) | hb
    · exact (queryEscape_clean _ _ hb).1 rfl
    · exact absurd hb (by decide)
    · exact (queryEscape_clean _ _ hb).1 rfl

/-- What `Query` returns is a map whose values are not empty. -/
theorem parseQuery_ok (raw : Str) : IsMap (parseQuery raw) ∧ ∀ e ∈ parseQuery raw, e.2 ≠ [] := by
  unfold parseQuery
  have step : ∀ (m : Values) (p : Str), (IsMap m ∧ ∀ e ∈ m, e.2 ≠ []) →
      IsMap (addPiece m p) ∧ ∀ e ∈ addPiece m p, e.2 ≠ [] := by
    intro m p hm
    unfold addPiece
    split
    · exact hm
    · split
      · exact hm
      · split
        · refine ⟨isMap_insertKV hm.1, ?_⟩
          intro e he
          rename_i k v _ _
          have h2 := lookup_eq_some_of_mem (isMap_insertKV hm.1) (show (e.1, e.2) ∈ _ from he)
          rw [lookup_insertKV] at h2
          split at h2
          · intro h; rw [h] at h2; simp at h2
          · exact hm.2 _ (mem_of_lookup h2)
        · exact hm
  generalize splitByte 38 raw = l
  have : ∀ (l : List Str) (m : Values), (IsMap m ∧ ∀ e ∈ m, e.2 ≠ []) →
      IsMap (l.foldl addPiece m) ∧ ∀ e ∈ l.foldl addPiece m, e.2 ≠ [] := by
    intro l
    induction l with
    | nil => intro m hm; exact hm
    | cons p l ih => intro m hm; exact ih _ (step m p hm)
  exact this l [] ⟨by simp [IsMap], by simp⟩

end Ckube
