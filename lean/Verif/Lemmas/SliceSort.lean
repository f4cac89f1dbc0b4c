import Verif.Lemmas.Str
import Verif.Model.Sort

/-! # An algorithm that meets the contract of `sort.Slice`

Insertion sort, as `sort.Slice` uses it for up to 12 elements (Go 1.19, sort/zsortfunc.go:
`insertionSort_func`). It shows that the contract `SliceSort` can be met and serves the examples. -/

namespace Ckube

/-- Move `x` down from the end of the sorted prefix, which is given reversed. -/
def sinkIn {α : Type} (less : α → α → Bool) (x : α) : List α → List α × List (α × α)
  | [] => ([x], [])
  | y :: r =>
    if less x y then (y :: (sinkIn less x r).1, (x, y) :: (sinkIn less x r).2)
    else (x :: y :: r, [(x, y)])

/-- The prefix (reversed) grows by one element at a time. -/
def insertion {α : Type} (less : α → α → Bool) : List α → List α → List α × List (α × α)
  | pre, [] => (pre, [])
  | pre, x :: l => ((insertion less (sinkIn less x pre).1 l).1,
      (sinkIn less x pre).2 ++ (insertion less (sinkIn less x pre).1 l).2)

variable {α : Type} {less : α → α → Bool}

theorem sinkIn_perm (x : α) : ∀ r, (sinkIn less x r).1.Perm (x :: r)
  | [] => List.Perm.refl _
  | y :: r => by
    simp only [sinkIn]
    split
    · exact ((sinkIn_perm x r).cons y).trans (List.Perm.swap x y r)
    · exact List.Perm.refl _

theorem sinkIn_mem (x : α) : ∀ r a b, (a, b) ∈ (sinkIn less x r).2 → a = x ∧ b ∈ r
  | [], a, b, h => by simp [sinkIn] at h
  | y :: r, a, b, h => by
    simp only [sinkIn] at h
    split at h
    · rcases List.mem_cons.mp h with h | h
      · cases h; simp
      · have := sinkIn_mem x r a b h
        simp [this]
    · simp only [List.mem_singleton] at h; cases h; simp

theorem insertion_perm : ∀ l pre, (insertion less pre l).1.Perm (pre ++ l)
  | [], pre => by simp [insertion]
  | x :: l, pre => by
    simp only [insertion]
    refine (insertion_perm l _).trans ?_
    refine ((sinkIn_perm x pre).append_right l).trans ?_
    simp only [List.cons_append]
    exact (List.perm_middle).symm

theorem insertion_mem : ∀ l pre a b, (a, b) ∈ (insertion less pre l).2 → a ∈ pre ++ l ∧ b ∈ pre ++ l
  | [], pre, a, b, h => by simp [insertion] at h
  | x :: l, pre, a, b, h => by
    simp only [insertion, List.mem_append] at h
    rcases h with h | h
    · obtain ⟨rfl, hb⟩ := sinkIn_mem x pre a b h
      simp [hb]
    · have := insertion_mem l _ a b h
      simp only [List.mem_append, (sinkIn_perm x pre).mem_iff, List.mem_cons] at this ⊢
      tauto

theorem sinkIn_touch (x y : α) (r : List α) : (x, y) ∈ (sinkIn less x (y :: r)).2 := by
  simp only [sinkIn]
  split <;> simp

theorem insertion_touched : ∀ l pre, (pre ≠ [] ∨ 2 ≤ l.length) →
    ∀ a, (a ∈ l ∨ (pre = [a] ∧ l ≠ [])) → ∃ b, (a, b) ∈ (insertion less pre l).2 ∨ (b, a) ∈ (insertion less pre l).2
  | [], pre, _, a, h => by simp at h
  | x :: l, pre, hn, a, h => by
    simp only [insertion, List.mem_append]
    have hs : (sinkIn less x pre).1 ≠ [] := by
      intro h0
      have := (sinkIn_perm (less := less) x pre).length_eq
      rw [h0] at this
      simp at this
    match pre, h, hn with
    | [], h, hn =>
      have hl : l ≠ [] := by rintro rfl; simp at hn
      have hs' : (sinkIn less x []).1 = [x] := rfl
      simp only [reduceCtorEq, false_and, or_false] at h
      rcases List.mem_cons.mp h with rfl | h
      · obtain ⟨b, hb⟩ := insertion_touched l (sinkIn less a []).1 (Or.inl hs) a (Or.inr ⟨hs', hl⟩)
        exact ⟨b, hb.elim (fun h => Or.inl (Or.inr h)) (fun h => Or.inr (Or.inr h))⟩
      · obtain ⟨b, hb⟩ := insertion_touched l (sinkIn less x []).1 (Or.inl hs) a (Or.inl h)
        exact ⟨b, hb.elim (fun h => Or.inl (Or.inr h)) (fun h => Or.inr (Or.inr h))⟩
    | y :: r, h, hn =>
      rcases h with h | ⟨h, _⟩
      · rcases List.mem_cons.mp h with rfl | h
        · exact ⟨y, Or.inl (Or.inl (sinkIn_touch a y r))⟩
        · obtain ⟨b, hb⟩ := insertion_touched l (sinkIn less x (y :: r)).1 (Or.inl hs) a (Or.inl h)
          exact ⟨b, hb.elim (fun h => Or.inl (Or.inr h)) (fun h => Or.inr (Or.inr h))⟩
      · simp only [List.cons.injEq] at h
        obtain ⟨rfl, rfl⟩ := h
        exact ⟨x, Or.inr (Or.inl (sinkIn_touch x y []))⟩

theorem sinkIn_sorted {le : α → α → Prop} (tr : ∀ a b c, le a b → le b c → le a c) (x : α) :
    ∀ r, r.Pairwise (fun a b => le b a) →
    (∀ a b, (a, b) ∈ (sinkIn less x r).2 → (less a b = true → le a b) ∧ (less a b = false → le b a)) →
    (sinkIn less x r).1.Pairwise (fun a b => le b a)
  | [], _, _ => by simp [sinkIn]
  | y :: r, hp, h => by
    simp only [sinkIn] at h ⊢
    split
    · rename_i hl
      rw [if_pos hl] at h
      have hxy : le x y := (h x y (by simp)).1 hl
      rw [List.pairwise_cons] at hp ⊢
      refine ⟨?_, sinkIn_sorted tr x r hp.2 (fun a b hab => h a b (by simp [hab]))⟩
      intro z hz
      rcases List.mem_cons.mp ((sinkIn_perm x r).subset hz) with rfl | hz
      · exact hxy
      · exact hp.1 z hz
    · rename_i hl
      rw [if_neg hl] at h
      have hyx : le y x := (h x y (by simp)).2 (by simpa using hl)
      rw [List.pairwise_cons]
      refine ⟨?_, hp⟩
      intro z hz
      rcases List.mem_cons.mp hz with rfl | hz
      · exact hyx
      · exact tr _ _ _ ((List.pairwise_cons.mp hp).1 z hz) hyx

theorem insertion_sorted {le : α → α → Prop} (tr : ∀ a b c, le a b → le b c → le a c) :
    ∀ l pre, pre.Pairwise (fun a b => le b a) →
    (∀ a b, (a, b) ∈ (insertion less pre l).2 → (less a b = true → le a b) ∧ (less a b = false → le b a)) →
    (insertion less pre l).1.Pairwise (fun a b => le b a)
  | [], _, hp, _ => hp
  | x :: l, pre, hp, h => by
    simp only [insertion] at h ⊢
    exact insertion_sorted tr l _ (sinkIn_sorted tr x pre hp (fun a b hab => h a b (by simp [hab])))
      (fun a b hab => h a b (by simp [hab]))

/-- Insertion sort meets the contract. -/
def insertionSort : SliceSort where
  run less l := ⟨(insertion less [] l).1.reverse, (insertion less [] l).2⟩
  perm less l := (List.reverse_perm _).trans (insertion_perm l [])
  mem less l a b h := insertion_mem l [] a b h
  touched less l hl a ha := insertion_touched l [] (Or.inr hl) a (Or.inl ha)
  sorted less l le _ tr h := by
    have := insertion_sorted tr l [] List.Pairwise.nil h
    exact List.pairwise_reverse.mpr this

end Ckube
