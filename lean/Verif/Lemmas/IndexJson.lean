import Verif.Lemmas.PageJson
import Verif.Lemmas.Store

/-! # The index annotation is read back -/

namespace Ckube

/-- One written member of a `map[string]string`. -/
def encPair (kv : Str × Str) : Str := Json.encStr kv.1 ++ [58] ++ Json.encStr kv.2

theorem encStr_head (s : Str) : ∃ r, Json.encStr s = 34 :: r := ⟨_, rfl⟩

theorem pStr_encTail {s : Str} (h : validUtf8 s = true) (t : Str) :
    ∃ r, Json.encStr s ++ t = 34 :: r ∧ Json.pStr r = some (s, t) :=
  ⟨_, rfl, Json.pStr_encStr h t⟩

theorem pMembers_pairs : ∀ (l : List (Str × Str)), l ≠ [] →
    (∀ e ∈ l, validUtf8 e.1 = true ∧ validUtf8 e.2 = true) → ∀ f, l.length + 1 ≤ f → ∀ t : Str,
    Json.pMembers f (join [44] (l.map encPair) ++ [125] ++ t) = some (l.map (fun e => (e.1, JV.str e.2)), t)
  | [], h, _, _, _, _ => by simp at h
  | [e], _, he, f, hf, t => by
    obtain ⟨f, rfl⟩ : ∃ g, f = g + 2 := ⟨f - 2, by simp at hf; omega⟩
    obtain ⟨h1, h2⟩ := he e (by simp)
    simp only [List.map_cons, List.map_nil, join, encPair, List.append_assoc]
    obtain ⟨r, hr1, hr2⟩ := pStr_encTail h1 ([58] ++ (Json.encStr e.2 ++ ([125] ++ t)))
    rw [hr1, Json.pMembers, Json.skipWs_cons (by decide)]
    simp only [if_true]
    rw [hr2]
    simp only [List.cons_append, List.nil_append]
    rw [Json.skipWs_cons (by decide)]
    simp only [if_true]
    rw [Json.pVal_str f h2]
    simp only
    rw [Json.skipWs_cons (by decide)]
    simp
  | e :: e' :: l, _, he, f, hf, t => by
    obtain ⟨f, rfl⟩ : ∃ g, f = g + 2 := ⟨f - 2, by simp at hf; omega⟩
    obtain ⟨h1, h2⟩ := he e (by simp)
    have ih := pMembers_pairs (e' :: l) (by simp) (fun x hx => he x (by simp at hx ⊢; tauto))
      (f + 1) (by simp at hf ⊢; omega) t
    simp only [List.map_cons] at ih ⊢
    rw [join]
    generalize join [44] (encPair e' :: List.map encPair l) = rest at ih
    simp only [encPair, List.append_assoc] at ih ⊢
    obtain ⟨r, hr1, hr2⟩ := pStr_encTail h1 ([58] ++ (Json.encStr e.2 ++ ([44] ++ (rest ++ ([125] ++ t)))))
    rw [hr1, Json.pMembers, Json.skipWs_cons (by decide)]
    simp only [if_true]
    rw [hr2]
    simp only [List.cons_append, List.nil_append] at ih ⊢
    rw [Json.skipWs_cons (by decide)]
    simp only [if_true]
    rw [Json.pVal_str f h2]
    simp only
    rw [Json.skipWs_cons (by decide)]
    simp only [if_true, ih]

theorem encodeMap_eq (m : List (Str × Str)) : encodeMap m = [123] ++ join [44]
    ((sortBy (fun a b => strLe a.1 b.1) m).map encPair) ++ [125] := rfl

/-- A marshalled string map is parsed back, its members sorted by key. -/
theorem parse_encodeMap {m : List (Str × Str)} (h : ∀ e ∈ m, validUtf8 e.1 = true ∧ validUtf8 e.2 = true) :
    Json.parse (encodeMap m) = some (.obj ((sortBy (fun a b => strLe a.1 b.1) m).map fun e => (e.1, JV.str e.2))) := by
  rw [encodeMap_eq]
  have h' : ∀ e ∈ sortBy (fun a b => strLe a.1 b.1) m, validUtf8 e.1 = true ∧ validUtf8 e.2 = true :=
    fun e he => h e ((mem_sortBy _).mp he)
  generalize sortBy (fun a b : Str × Str => strLe a.1 b.1) m = l at h'
  by_cases hne : l = []
  · rw [hne]; rfl
  · have hlen := join_length (l.map encPair) (by
      intro s hs
      obtain ⟨e, _, rfl⟩ := List.mem_map.mp hs
      simp [encPair])
    have hpm := pMembers_pairs l hne h' ((join [44] (l.map encPair) ++ [125]).length + 1)
      (by simp at hlen ⊢; omega) []
    have hhead : ∃ r, join [44] (l.map encPair) = 34 :: r := by
      match l, hne with
      | [e], _ => exact ⟨_, rfl⟩
      | e :: b :: l, _ => exact ⟨_, rfl⟩
    obtain ⟨r, hr⟩ := hhead
    unfold Json.parse
    rw [List.append_assoc, List.singleton_append, List.length_cons]
    rw [Json.pVal, Json.skipWs_cons (by decide)]
    simp only [if_true]
    rw [hr] at hpm ⊢
    simp only [List.cons_append, List.append_nil] at hpm ⊢
    rw [Json.skipWs_cons (by decide)]
    simp only [show (34 : UInt8) ≠ 125 by decide, if_false]
    rw [hpm]
    rfl

theorem lookup_sortBy {ν : Type} {m : List (Str × ν)} (hm : IsMap m) (k : Str) :
    lookup k (sortBy (fun a b => strLe a.1 b.1) m) = lookup k m := by
  have hp := sortBy_perm (fun a b : Str × ν => strLe a.1 b.1) m
  have hs : IsMap (sortBy (fun a b : Str × ν => strLe a.1 b.1) m) := (hp.map Prod.fst).nodup_iff.mpr hm
  cases hl : lookup k m with
  | none =>
    rw [lookup_eq_none] at hl ⊢
    intro v hv
    exact hl v (hp.subset hv)
  | some v => exact lookup_eq_some_of_mem hs (hp.symm.subset (mem_of_lookup hl))

end Ckube
