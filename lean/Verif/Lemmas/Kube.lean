import Verif.Model.Kube
import Verif.Lemmas.Num

/-! # Facts about splitting and merging the pagination payload -/

namespace Ckube

/-- One labelled chunk. -/
def chunkAt (i : Nat) (t : Str) : Str := pad4 i ++ [46] ++ t

theorem dot_not_mem_pad4 (i : Nat) : (46 : UInt8) ∉ pad4 i :=
  not_mem_of_all_digit (pad4_all i) (by decide)

theorem splitByte_chunkAt (i : Nat) {t : Str} (ht : (46 : UInt8) ∉ t) :
    splitByte 46 (pad4 i ++ [46] ++ t) = [pad4 i, t] := by
  rw [List.append_assoc, List.singleton_append, splitByte_append _ _ _ (dot_not_mem_pad4 i),
    splitByte_of_not_mem _ _ ht]

theorem mergeLoop_splitFrom : ∀ f i (rest : Str), (46 : UInt8) ∉ rest →
    mergeLoop (splitFrom f i rest) = some rest
  | 0, i, rest, h => by
    simp only [splitFrom, mergeLoop, splitByte_chunkAt i h]; simp
  | f + 1, i, rest, h => by
    simp only [splitFrom]
    split
    · simp only [mergeLoop, splitByte_chunkAt i h]; simp
    · have h1 : (46 : UInt8) ∉ rest.take eachPartLen := fun hm => h (List.mem_of_mem_take hm)
      have h2 : (46 : UInt8) ∉ rest.drop eachPartLen := fun hm => h (List.mem_of_mem_drop hm)
      simp only [mergeLoop, splitByte_chunkAt i h1, mergeLoop_splitFrom f _ _ h2]; simp

/-- Every chunk carries an offset of the loop and at most 56 bytes. -/
theorem mem_splitFrom : ∀ f i (rest : Str) c, rest.length ≤ f → c ∈ splitFrom f i rest →
    ∃ j t, c = chunkAt j t ∧ i ≤ j ∧ j % 56 = i % 56 ∧ j + t.length ≤ i + rest.length
      ∧ t.length ≤ eachPartLen ∧ (t = [] → rest = []) ∧ (∀ b ∈ t, b ∈ rest)
  | 0, i, rest, c, hf, hc => by
    have : rest = [] := List.length_eq_zero_iff.mp (by omega)
    subst this
    simp only [splitFrom, List.mem_singleton] at hc
    exact ⟨i, [], by simpa [chunkAt] using hc, by simp⟩
  | f + 1, i, rest, c, hf, hc => by
    simp only [splitFrom] at hc
    split at hc
    · simp only [List.mem_singleton] at hc
      exact ⟨i, rest, hc, Nat.le_refl _, rfl, Nat.le_refl _, by assumption, fun h => h, fun b hb => hb⟩
    · rename_i hlen
      have he : eachPartLen = 56 := rfl
      rcases List.mem_cons.mp hc with hc | hc
      · have hne : rest.take eachPartLen ≠ [] := by
          intro h
          have := congrArg List.length h
          simp [he] at this; subst this; simp at hlen
        refine ⟨i, rest.take eachPartLen, hc, Nat.le_refl _, rfl, by simp, by simp,
          fun h => absurd h hne, fun b hb => List.mem_of_mem_take hb⟩
      · obtain ⟨j, t, h1, h2, h2', h3, h4, h5, h6⟩ :=
          mem_splitFrom f _ _ c (by rw [List.length_drop, he]; omega) hc
        have hdrop : rest.drop eachPartLen ≠ [] := by
          intro h
          have := congrArg List.length h
          simp [he] at this; omega
        refine ⟨j, t, h1, by omega, by omega, ?_, h4, fun h => absurd (h5 h) hdrop,
          fun b hb => List.mem_of_mem_drop (h6 b hb)⟩
        rw [List.length_drop] at h3
        omega

/-- Chunks come in increasing order as long as offsets have four digits. -/
theorem splitFrom_sorted : ∀ f i (rest : Str), rest.length ≤ f → i + rest.length ≤ 10024 →
    i % 56 = 0 →
    (splitFrom f i rest).Pairwise (fun x y => strLe x y = true)
  | 0, i, rest, _, _, _ => by simp [splitFrom]
  | f + 1, i, rest, hf, hi, hm => by
    simp only [splitFrom]
    have he : eachPartLen = 56 := rfl
    split
    · simp
    · rw [List.pairwise_cons]
      refine ⟨?_, splitFrom_sorted f _ _ (by rw [List.length_drop, he]; omega)
        (by rw [List.length_drop, he]; omega) (by omega)⟩
      intro c hc
      obtain ⟨j, t, rfl, h2, h2', h3, h4, h5, h6⟩ :=
          mem_splitFrom f _ _ c (by rw [List.length_drop, he]; omega) hc
      have hj : j < 10000 := by
        have hdrop : rest.drop eachPartLen ≠ [] := by
          intro h
          have := congrArg List.length h
          simp [he] at this; omega
        have ht := List.length_pos_iff.mpr (fun h => hdrop (h5 h))
        rw [List.length_drop] at h3
        omega
      have := strLe_digits (pad4 i) (pad4 j) ([46] ++ rest.take eachPartLen) ([46] ++ t)
        (by rw [pad4_length (by omega), pad4_length hj]) (pad4_all _) (pad4_all _)
        (by rw [digitsVal_pad4, digitsVal_pad4]; omega)
      simpa [chunkAt] using this

theorem splitFrom_length : ∀ f i (rest : Str), 56 < rest.length → rest.length ≤ f →
    2 ≤ (splitFrom f i rest).length
  | 0, _, _, h, h' => by omega
  | f + 1, i, rest, h, h' => by
    simp only [splitFrom]
    rw [if_neg (by simp [eachPartLen]; omega)]
    have : splitFrom f (i + eachPartLen) (rest.drop eachPartLen) ≠ [] := by
      cases f with
      | zero => simp [splitFrom]
      | succ f => simp only [splitFrom]; split <;> simp
    have := List.length_pos_iff.mpr this
    simp only [List.length_cons]; omega

theorem mergeValues_of_length {vs : List Str} (h : 2 ≤ vs.length) :
    mergeValues vs = mergeLoop (sortBy strLe vs) := by
  match vs, h with
  | [], h => simp at h
  | [_], h => simp at h
  | _ :: _ :: _, _ => rfl

theorem sortBy_strLe_eq_of_perm {l₁ l₂ : List Str} (h : l₁.Perm l₂) :
    sortBy strLe l₁ = sortBy strLe l₂ :=
  sortBy_eq_of_perm strLe_total strLe_trans h (fun a _ b _ => strLe_antisymm a b)

theorem mergeValues_splittingValue {s : Str} (hdot : (46 : UInt8) ∉ s) (hlen : s.length ≤ 10024)
    {vs : List Str} (hp : vs.Perm (splittingValue s)) : mergeValues vs = some s := by
  unfold splittingValue at hp
  split at hp
  · rw [List.perm_singleton.mp hp]; rfl
  · rename_i h
    have h : 56 < s.length := by simpa [eachPartLen] using h
    have h2 := splitFrom_length s.length 0 s h (Nat.le_refl _)
    rw [mergeValues_of_length (by rw [hp.length_eq]; exact h2), sortBy_strLe_eq_of_perm hp,
      sortBy_of_sorted _ (splitFrom_sorted _ _ _ (Nat.le_refl _) (by omega) rfl),
      mergeLoop_splitFrom _ _ _ hdot]

/-- The chunk of an offset. -/
theorem chunk_mem_splitFrom : ∀ (k f i : Nat) (rest : Str), rest.length ≤ f → 56 * k < rest.length →
    chunkAt (i + 56 * k) ((rest.drop (56 * k)).take 56) ∈ splitFrom f i rest
  | _, 0, _, rest, hf, hk => by omega
  | 0, f + 1, i, rest, hf, hk => by
    have he : eachPartLen = 56 := rfl
    simp only [splitFrom, he]
    split
    · next h =>
      rw [Nat.mul_zero, List.drop_zero, List.take_of_length_le h]
      simp [chunkAt]
    · simp [chunkAt]
  | k + 1, f + 1, i, rest, hf, hk => by
    have he : eachPartLen = 56 := rfl
    simp only [splitFrom, he]
    rw [if_neg (by omega)]
    refine List.mem_cons_of_mem _ ?_
    have h := chunk_mem_splitFrom k f (i + 56) (rest.drop 56) (by rw [List.length_drop]; omega) (by rw [List.length_drop]; omega)
    rw [List.drop_drop] at h
    rw [show i + 56 * (k + 1) = i + 56 + 56 * k by omega, show 56 * (k + 1) = 56 + 56 * k by omega]
    exact h

theorem mergeLoop_append : ∀ {a b : List Str} {r : Str}, mergeLoop (a ++ b) = some r →
    ∃ x y, mergeLoop a = some x ∧ mergeLoop b = some y ∧ r = x ++ y
  | [], b, r, h => ⟨[], r, rfl, h, rfl⟩
  | v :: a, b, r, h => by
    simp only [List.cons_append, mergeLoop] at h ⊢
    split at h
    · next t hv =>
      cases hm : mergeLoop (a ++ b) with
      | none => simp [hm] at h
      | some r' =>
        obtain ⟨x, y, h1, h2, rfl⟩ := mergeLoop_append hm
        rw [hm, Option.map_some, Option.some.injEq] at h
        exact ⟨t ++ x, y, by rw [h1]; rfl, h2, by rw [← h, List.append_assoc]⟩
    · simp at h

/-- The content of a chunk stands in the merged text where the chunk stands. -/
theorem mergeLoop_chunk {i : Nat} {t : Str} (ht : (46 : UInt8) ∉ t) {b : List Str} {r : Str} (h : mergeLoop (chunkAt i t :: b) = some r) :
    ∃ y, mergeLoop b = some y ∧ r = t ++ y := by
  simp only [mergeLoop, chunkAt, splitByte_chunkAt i ht] at h
  cases hm : mergeLoop b with
  | none => simp [hm] at h
  | some y =>
    rw [hm, Option.map_some, Option.some.injEq] at h
    exact ⟨y, rfl, h.symm⟩

end Ckube
