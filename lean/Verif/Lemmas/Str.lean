import Verif.Model.Str
import Verif.Lemmas.Prelude

/-! # Facts about strings, sorting, association lists -/

namespace Ckube

/-- A statement about bytes is a statement about the numbers below 256. -/
theorem forall_byte {P : UInt8 → Prop} (h : ∀ n, n < 256 → P (UInt8.ofNat n)) (c : UInt8) : P c := by
  have := h c.toNat c.toNat_lt
  simpa using this

/-! ## String order -/

theorem strLe_refl : ∀ a : Str, strLe a a = true
  | [] => rfl
  | a :: s => by
    have : ¬ a < a := by simp
    simp [strLe, strLe_refl s]

theorem strLe_total : ∀ a b : Str, strLe a b = true ∨ strLe b a = true
  | [], _ => Or.inl (by simp [strLe])
  | _ :: _, [] => Or.inr (by simp [strLe])
  | a :: s, b :: t => by
    simp only [strLe]
    by_cases h1 : a < b
    · simp [h1]
    · by_cases h2 : b < a
      · simp [h2]
      · have : a = b := by
          rw [UInt8.lt_iff_toNat_lt] at h1 h2
          exact UInt8.toNat_inj.mp (by omega)
        subst this
        simpa using strLe_total s t

theorem strLe_antisymm : ∀ a b : Str, strLe a b = true → strLe b a = true → a = b
  | [], [], _, _ => rfl
  | [], _ :: _, _, h => by simp [strLe] at h
  | _ :: _, [], h, _ => by simp [strLe] at h
  | a :: s, b :: t, h1, h2 => by
    simp only [strLe] at h1 h2
    by_cases hab : a = b
    · subst hab
      simp at h1 h2
      rw [strLe_antisymm s t h1 h2]
    · simp only [hab, if_false, Ne.symm hab] at h1 h2
      have hA : a < b := by by_contra h; simp [h] at h1
      have hB : b < a := by by_contra h; simp [h] at h2
      rw [UInt8.lt_iff_toNat_lt] at hA hB
      omega

theorem strLe_trans : ∀ a b c : Str, strLe a b = true → strLe b c = true → strLe a c = true
  | [], _, _, _, _ => by simp [strLe]
  | _ :: _, [], _, h, _ => by simp [strLe] at h
  | _ :: _, _ :: _, [], _, h => by simp [strLe] at h
  | a :: s, b :: t, c :: u, h1, h2 => by
    simp only [strLe] at *
    have ih := strLe_trans s t u
    simp only [UInt8.lt_iff_toNat_lt, ← UInt8.toNat_inj] at *
    split at h1
    · split at h2
      · rw [if_pos (by omega)]
      · split at h2
        · rw [if_pos (by omega)]
        · simp at h2
    · split at h1
      · split at h2
        · rw [if_pos (by omega)]
        · split at h2
          · rw [if_neg (by omega), if_pos (by omega)]; exact ih h1 h2
          · simp at h2
      · simp at h1

theorem strLt_iff {a b : Str} : strLt a b = true ↔ strLe b a = false := by simp [strLt]

theorem strLe_of_strLt {a b : Str} (h : strLt a b = true) : strLe a b = true := by
  rcases strLe_total a b with h' | h'
  · exact h'
  · simp [strLt, h'] at h

theorem strLe_append_left (p a b : Str) : strLe (p ++ a) (p ++ b) = strLe a b := by
  induction p with
  | nil => rfl
  | cons c p ih => simp [strLe, ih]

/-! ## Sorting -/

section Sorting
variable {α : Type} (le : α → α → Bool)

theorem insertBy_perm (a : α) : ∀ l, (insertBy le a l).Perm (a :: l)
  | [] => List.Perm.refl _
  | b :: l => by
    simp only [insertBy]
    split
    · exact List.Perm.refl _
    · exact ((insertBy_perm a l).cons b).trans (List.Perm.swap a b l)

theorem sortBy_perm : ∀ l, (sortBy le l).Perm l
  | [] => List.Perm.refl _
  | a :: l => (insertBy_perm le a _).trans ((sortBy_perm l).cons a)

theorem sortBy_length (l : List α) : (sortBy le l).length = l.length := (sortBy_perm le l).length_eq

theorem mem_sortBy {a : α} {l : List α} : a ∈ sortBy le l ↔ a ∈ l := (sortBy_perm le l).mem_iff

variable {le}
variable (htot : ∀ a b, le a b = true ∨ le b a = true)
  (htr : ∀ a b c, le a b = true → le b c = true → le a c = true)

include htot htr in
theorem insertBy_sorted (a : α) : ∀ l, l.Pairwise (fun x y => le x y = true) →
    (insertBy le a l).Pairwise (fun x y => le x y = true)
  | [], _ => by simp [insertBy]
  | b :: l, h => by
    rw [List.pairwise_cons] at h
    simp only [insertBy]
    split
    · rename_i hab
      rw [List.pairwise_cons]
      refine ⟨?_, List.pairwise_cons.mpr h⟩
      intro x hx
      rcases List.mem_cons.mp hx with rfl | hx
      · exact hab
      · exact htr _ _ _ hab (h.1 x hx)
    · rename_i hab
      rw [List.pairwise_cons]
      refine ⟨?_, insertBy_sorted a l h.2⟩
      intro x hx
      rcases List.mem_cons.mp ((insertBy_perm le a l).mem_iff.mp hx) with rfl | hx
      · rcases htot x b with h' | h'
        · exact absurd h' hab
        · exact h'
      · exact h.1 x hx

include htot htr in
theorem sortBy_sorted : ∀ l, (sortBy le l).Pairwise (fun x y => le x y = true)
  | [] => by simp [sortBy]
  | a :: l => insertBy_sorted htot htr a _ (sortBy_sorted l)

/-- A list that is already sorted is unchanged. -/
theorem sortBy_of_sorted : ∀ l : List α, l.Pairwise (fun x y => le x y = true) → sortBy le l = l
  | [], _ => rfl
  | [a], _ => rfl
  | a :: b :: l, h => by
    rw [sortBy, sortBy_of_sorted (b :: l) (List.pairwise_cons.mp h).2]
    rw [List.pairwise_cons] at h
    simp [insertBy, h.1 b (by simp)]

include htot htr in
/-- Two permutations of each other sort to the same list when the order is antisymmetric on
their elements. -/
theorem sortBy_eq_of_perm {l₁ l₂ : List α} (hp : l₁.Perm l₂)
    (hanti : ∀ a ∈ l₁, ∀ b ∈ l₁, le a b = true → le b a = true → a = b) :
    sortBy le l₁ = sortBy le l₂ := by
  refine List.Perm.eq_of_pairwise (le := fun x y => le x y = true) ?_
    (sortBy_sorted htot htr l₁) (sortBy_sorted htot htr l₂)
    ((sortBy_perm le l₁).trans (hp.trans (sortBy_perm le l₂).symm))
  intro a b ha hb h1 h2
  exact hanti a ((mem_sortBy le).mp ha) b (hp.mem_iff.mpr ((mem_sortBy le).mp hb)) h1 h2

end Sorting

/-! ## dedup -/

section Dedup
variable {α : Type} [DecidableEq α]

theorem mem_dedup {a : α} : ∀ {l : List α}, a ∈ dedup l ↔ a ∈ l
  | [] => by simp [dedup]
  | b :: l => by
    have ih := mem_dedup (a := a) (l := l)
    simp only [dedup]
    split
    · rename_i h
      rw [ih, List.mem_cons]
      constructor
      · exact Or.inr
      · rintro (rfl | h')
        · exact mem_dedup.mp h
        · exact h'
    · simp [ih]

theorem dedup_nodup : ∀ l : List α, (dedup l).Nodup
  | [] => by simp [dedup]
  | b :: l => by
    simp only [dedup]
    split
    · exact dedup_nodup l
    · rename_i h
      exact List.nodup_cons.mpr ⟨h, dedup_nodup l⟩

theorem dedup_of_nodup : ∀ l : List α, l.Nodup → dedup l = l
  | [], _ => rfl
  | b :: l, h => by
    rw [List.nodup_cons] at h
    simp [dedup, dedup_of_nodup l h.2, h.1]

end Dedup

/-! ## Maps -/

section Maps
variable {κ ν : Type} [DecidableEq κ]

theorem lookup_eq_some_of_mem {k : κ} {v : ν} : ∀ {m : List (κ × ν)}, IsMap m → (k, v) ∈ m →
    lookup k m = some v
  | [], _, h => by simp at h
  | (k', v') :: m, hm, h => by
    unfold IsMap at hm
    simp only [List.map_cons, List.nodup_cons] at hm
    simp only [lookup]
    rcases List.mem_cons.mp h with h | h
    · cases h; simp
    · have : k' ≠ k := by
        rintro rfl
        exact hm.1 (List.mem_map.mpr ⟨_, h, rfl⟩)
      simp [this, lookup_eq_some_of_mem (m := m) hm.2 h]

theorem mem_of_lookup {k : κ} {v : ν} : ∀ {m : List (κ × ν)}, lookup k m = some v → (k, v) ∈ m
  | [], h => by simp [lookup] at h
  | (k', v') :: m, h => by
    simp only [lookup] at h
    split at h
    · rename_i he; subst he; simp at h; simp [h]
    · exact List.mem_cons_of_mem _ (mem_of_lookup h)

theorem lookup_iff {k : κ} {v : ν} {m : List (κ × ν)} (hm : IsMap m) :
    lookup k m = some v ↔ (k, v) ∈ m :=
  ⟨mem_of_lookup, lookup_eq_some_of_mem hm⟩

theorem lookup_eq_none {k : κ} : ∀ {m : List (κ × ν)}, lookup k m = none ↔ ∀ v, (k, v) ∉ m
  | [] => by simp [lookup]
  | (k', v') :: m => by
    simp only [lookup]
    split
    · rename_i h; subst h
      simp only [reduceCtorEq, false_iff, not_forall, not_not]
      exact ⟨v', by simp⟩
    · rename_i h
      rw [lookup_eq_none (m := m)]
      simp [Ne.symm h]

theorem lookup_insertKV {k k' : κ} {v : ν} : ∀ {m : List (κ × ν)},
    lookup k' (insertKV k v m) = if k = k' then some v else lookup k' m
  | [] => by simp [insertKV, lookup]
  | (a, b) :: m => by
    simp only [insertKV]
    split
    · rename_i h; subst h
      simp only [lookup]; split <;> rfl
    · rename_i h
      simp only [lookup, lookup_insertKV (m := m)]
      split
      · rename_i h'; subst h'; simp [Ne.symm h]
      · rfl

theorem lookup_eraseKV {k k' : κ} : ∀ {m : List (κ × ν)}, IsMap m →
    lookup k' (eraseKV k m) = if k = k' then none else lookup k' m
  | [], _ => by simp [eraseKV, lookup]
  | (a, b) :: m, hm => by
    unfold IsMap at hm
    simp only [List.map_cons, List.nodup_cons] at hm
    simp only [eraseKV]
    split
    · rename_i h; subst h
      by_cases h : a = k'
      · subst h
        simp only [if_true]
        rw [lookup_eq_none]
        intro v hv
        exact hm.1 (List.mem_map.mpr ⟨_, hv, rfl⟩)
      · simp [lookup, h]
    · rename_i h
      simp only [lookup, lookup_eraseKV (m := m) hm.2]
      split
      · rename_i h'; subst h'; simp [Ne.symm h]
      · rfl

theorem mem_map_fst_insertKV {k k' : κ} {v : ν} : ∀ {m : List (κ × ν)},
    k' ∈ (insertKV k v m).map Prod.fst ↔ k' = k ∨ k' ∈ m.map Prod.fst
  | [] => by simp [insertKV]
  | (a, b) :: m => by
    simp only [insertKV]
    split
    · rename_i h; subst h
      simp
    · simp only [List.map_cons, List.mem_cons, mem_map_fst_insertKV (m := m)]
      tauto

theorem isMap_insertKV {k : κ} {v : ν} : ∀ {m : List (κ × ν)}, IsMap m → IsMap (insertKV k v m)
  | [], _ => by simp [IsMap, insertKV]
  | (a, b) :: m, hm => by
    have hm' := hm
    unfold IsMap at hm
    simp only [List.map_cons, List.nodup_cons] at hm
    simp only [insertKV]
    split
    · rename_i h; subst h
      exact hm'
    · rename_i h
      unfold IsMap
      simp only [List.map_cons, List.nodup_cons, mem_map_fst_insertKV]
      refine ⟨?_, isMap_insertKV (m := m) hm.2⟩
      rintro (rfl | h')
      · exact h rfl
      · exact hm.1 h'

theorem mem_eraseKV_of {k : κ} {e : κ × ν} : ∀ {m : List (κ × ν)}, e ∈ eraseKV k m → e ∈ m
  | [], h => by simp [eraseKV] at h
  | (a, b) :: m, h => by
    simp only [eraseKV] at h
    split at h
    · exact List.mem_cons_of_mem _ h
    · rcases List.mem_cons.mp h with h | h
      · simp [h]
      · exact List.mem_cons_of_mem _ (mem_eraseKV_of h)

theorem isMap_eraseKV {k : κ} : ∀ {m : List (κ × ν)}, IsMap m → IsMap (eraseKV k m)
  | [], h => h
  | (a, b) :: m, hm => by
    unfold IsMap at hm
    simp only [List.map_cons, List.nodup_cons] at hm
    simp only [eraseKV]
    split
    · exact hm.2
    · unfold IsMap
      simp only [List.map_cons, List.nodup_cons]
      refine ⟨?_, isMap_eraseKV (m := m) hm.2⟩
      intro h
      obtain ⟨e, he, rfl⟩ := List.mem_map.mp h
      exact hm.1 (List.mem_map.mpr ⟨e, mem_eraseKV_of he, rfl⟩)

end Maps

/-! ## Splitting and joining -/

theorem splitByte_ne_nil (c : UInt8) : ∀ s, splitByte c s ≠ []
  | [] => by simp [splitByte]
  | d :: s => by
    simp only [splitByte]
    split
    · simp
    · split <;> simp

theorem splitByte_of_not_mem (c : UInt8) : ∀ s, c ∉ s → splitByte c s = [s]
  | [], _ => rfl
  | d :: s, h => by
    have h1 : d ≠ c := fun e => h (by simp [e])
    have h2 : c ∉ s := fun e => h (by simp [e])
    simp [splitByte, h1, splitByte_of_not_mem c s h2]

theorem splitByte_append (c : UInt8) : ∀ p s, c ∉ p → splitByte c (p ++ c :: s) = p :: splitByte c s
  | [], s, _ => by simp [splitByte]
  | d :: p, s, h => by
    have h1 : d ≠ c := fun e => h (by simp [e])
    have h2 : c ∉ p := fun e => h (by simp [e])
    simp [splitByte, h1, splitByte_append c p s h2]

end Ckube
