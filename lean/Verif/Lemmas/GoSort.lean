import Verif.Model.GoSort
import Mathlib.Data.List.Perm.Basic
import Mathlib.Data.List.Nodup
import Mathlib.Logic.Equiv.Basic
import Mathlib.Tactic.Common

/-! # Lemmas on `sort.Slice` of Go 1.19 -/

namespace Ckube.GoSort

variable {α β γ : Type}

@[simp] theorem pure_eq (b : β) : (pure b : Prog β) = .ret b := rfl

theorem bind_eq (p : Prog β) (f : β → Prog γ) : (p >>= f) = p.bind f := rfl

/-! ## Which indices are used -/

/-- Every index compared or swapped lies in `[lo, hi)`, whatever the answers; `Q` holds of the outcome. -/
def In (lo hi : Nat) : Prog β → (β → Prop) → Prop
  | .ret b, Q => Q b
  | .less i j k, Q => (lo ≤ i ∧ i < hi) ∧ (lo ≤ j ∧ j < hi) ∧ ∀ c, In lo hi (k c) Q
  | .swap i j k, Q => (lo ≤ i ∧ i < hi) ∧ (lo ≤ j ∧ j < hi) ∧ In lo hi k Q

theorem in_bind {lo hi : Nat} {Q : γ → Prop} (p : Prog β) (f : β → Prog γ) :
    In lo hi (p >>= f) Q ↔ In lo hi p (fun b => In lo hi (f b) Q) := by
  rw [bind_eq]
  induction p with
  | ret b => rfl
  | less i j k ih => simp only [Prog.bind, In, ih]
  | swap i j k ih => simp only [Prog.bind, In, ih]

theorem in_mono {lo hi lo' hi' : Nat} {Q Q' : β → Prop} (h1 : lo' ≤ lo) (h2 : hi ≤ hi') (p : Prog β)
    (hq : ∀ b, Q b → Q' b) (h : In lo hi p Q) : In lo' hi' p Q' := by
  induction p with
  | ret b => exact hq b h
  | less i j k ih =>
    obtain ⟨a1, a2, a3⟩ := h
    exact ⟨by omega, by omega, fun c => ih c (a3 c)⟩
  | swap i j k ih =>
    obtain ⟨a1, a2, a3⟩ := h
    exact ⟨by omega, by omega, ih a3⟩

theorem in_ret {lo hi : Nat} {Q : β → Prop} {b : β} : In lo hi (.ret b) Q ↔ Q b := Iff.rfl

theorem in_less {lo hi i j : Nat} {Q : Bool → Prop} :
    In lo hi (lessAt i j) Q ↔ (lo ≤ i ∧ i < hi) ∧ (lo ≤ j ∧ j < hi) ∧ ∀ c, Q c := Iff.rfl

theorem in_swap {lo hi i j : Nat} {Q : Unit → Prop} :
    In lo hi (swapAt i j) Q ↔ (lo ≤ i ∧ i < hi) ∧ (lo ≤ j ∧ j < hi) ∧ Q () := Iff.rfl

theorem in_ite {lo hi : Nat} {Q : β → Prop} {c : Prop} [Decidable c] {p q : Prog β} (h1 : c → In lo hi p Q) (h2 : ¬c → In lo hi q Q) :
    In lo hi (if c then p else q) Q := by
  by_cases h : c
  · rw [if_pos h]; exact h1 h
  · rw [if_neg h]; exact h2 h

theorem in_sink (a : Nat) : ∀ j b, j < b → In a b (sink a j) (fun _ => True)
  | 0, _, _ => trivial
  | j + 1, b, h => by
    rw [sink]
    refine in_ite (fun hj => ?_) (fun _ => trivial)
    rw [in_bind, in_less]
    refine ⟨by omega, by omega, fun c => in_ite (fun _ => ?_) (fun _ => trivial)⟩
    rw [in_bind, in_swap]
    exact ⟨by omega, by omega, in_sink a j b (by omega)⟩

theorem in_insertionFrom (a b : Nat) : ∀ k i, i + k ≤ b → In a b (insertionFrom a i k) (fun _ => True)
  | 0, _, _ => trivial
  | k + 1, i, h => by
    rw [insertionFrom, in_bind]
    exact in_mono (Nat.le_refl _) (Nat.le_refl _) _ (fun _ _ => in_insertionFrom a b k (i + 1) (by omega)) (in_sink a i b (by omega))

theorem in_insertion (a b : Nat) : In a b (insertion a b) (fun _ => True) := by
  rw [insertion]
  by_cases h : a + 1 ≤ b
  · exact in_insertionFrom a b _ _ (by omega)
  · rw [show b - (a + 1) = 0 by omega]; trivial

theorem in_siftDown (first hi : Nat) : ∀ fuel root, root < hi ∨ hi ≤ 2 * root + 1 → In first (first + hi) (siftDown first hi fuel root) (fun _ => True)
  | 0, _, _ => trivial
  | fuel + 1, root, h => by
    rw [siftDown]
    refine in_ite (fun _ => trivial) (fun hc => ?_)
    rw [in_bind]
    refine in_mono (Nat.le_refl _) (Nat.le_refl _) (Q := fun c => 2 * root + 1 ≤ c ∧ c < hi) _ (fun c hc' => ?_) ?_
    · rw [in_bind, in_less]
      refine ⟨by omega, by omega, fun ans => in_ite (fun _ => trivial) (fun _ => ?_)⟩
      rw [in_bind, in_swap]
      exact ⟨by omega, by omega, in_siftDown first hi fuel c (by omega)⟩
    · refine in_ite (fun hs => ?_) (fun _ => ?_)
      · rw [in_bind, in_less]
        refine ⟨by omega, by omega, fun ans => in_ite (fun _ => ?_) (fun _ => ?_)⟩
        · show _ ∧ _; omega
        · show _ ∧ _; omega
      · show _ ∧ _; omega

theorem in_heapify (first hi : Nat) : ∀ k, k ≤ hi ∨ hi ≤ 2 * (k - 1) + 1 → In first (first + hi) (heapify first hi k) (fun _ => True)
  | 0, _ => trivial
  | k + 1, h => by
    rw [heapify, in_bind]
    exact in_mono (Nat.le_refl _) (Nat.le_refl _) _ (fun _ _ => in_heapify first hi k (by omega)) (in_siftDown first hi _ k (by omega))

theorem in_heapPop (first b : Nat) : ∀ k, first + k ≤ b → In first b (heapPop first k) (fun _ => True)
  | 0, _ => trivial
  | k + 1, h => by
    rw [heapPop, in_bind, in_swap]
    refine ⟨by omega, by omega, ?_⟩
    rw [in_bind]
    exact in_mono (Nat.le_refl _) (by omega) _ (fun _ _ => in_heapPop first b k (by omega)) (in_siftDown first k _ 0 (by omega))

theorem in_heapSort {a b : Nat} (h : a ≤ b) : In a b (heapSort a b) (fun _ => True) := by
  rw [heapSort, in_bind]
  exact in_mono (Nat.le_refl _) (by omega) _ (fun _ _ => in_heapPop a b _ (by omega)) (in_heapify a (b - a) _ (by omega))

theorem nextPow2_le (n : Nat) (h : n ≠ 0) : nextPow2 n ≤ 2 * n := by
  rw [nextPow2, Nat.pow_succ]
  have := Nat.log2_self_le h
  omega

theorem in_breakPatterns (rnd : Nat → Nat → Nat) (a b : Nat) : In a b (breakPatterns rnd a b) (fun _ => True) := by
  rw [breakPatterns]
  refine in_ite (fun h => ?_) (fun _ => trivial)
  have ho : ∀ i, (if rnd (b - a) i % nextPow2 (b - a) ≥ b - a then rnd (b - a) i % nextPow2 (b - a) - (b - a)
      else rnd (b - a) i % nextPow2 (b - a)) < b - a := by
    intro i
    have h1 := nextPow2_le (b - a) (by omega)
    have h2 : rnd (b - a) i % nextPow2 (b - a) < nextPow2 (b - a) := Nat.mod_lt _ (Nat.two_pow_pos _)
    split <;> omega
  rw [in_bind, in_swap]
  refine ⟨by omega, ⟨by omega, ?_⟩, ?_⟩
  · have := ho 0
    simp only
    omega
  rw [in_bind, in_swap]
  refine ⟨by omega, ⟨by omega, ?_⟩, ?_⟩
  · have := ho 1
    simp only
    omega
  rw [in_swap]
  refine ⟨by omega, ⟨by omega, ?_⟩, trivial⟩
  have := ho 2
  simp only
  omega

theorem in_order2 {lo hi a b n : Nat} (ha : lo ≤ a ∧ a < hi) (hb : lo ≤ b ∧ b < hi) :
    In lo hi (order2 a b n) (fun r => (lo ≤ r.1 ∧ r.1 < hi) ∧ (lo ≤ r.2.1 ∧ r.2.1 < hi)) := by
  rw [order2, in_bind, in_less]
  exact ⟨hb, ha, fun c => in_ite (fun _ => ⟨hb, ha⟩) (fun _ => ⟨ha, hb⟩)⟩

theorem in_median {lo hi a b c n : Nat} (ha : lo ≤ a ∧ a < hi) (hb : lo ≤ b ∧ b < hi) (hc : lo ≤ c ∧ c < hi) :
    In lo hi (median a b c n) (fun r => lo ≤ r.1 ∧ r.1 < hi) := by
  rw [median, in_bind]
  refine in_mono (Nat.le_refl _) (Nat.le_refl _) _ ?_ (in_order2 ha hb)
  rintro ⟨a', b', n'⟩ ⟨h1, h2⟩
  dsimp only at h1 h2 ⊢
  rw [in_bind]
  refine in_mono (Nat.le_refl _) (Nat.le_refl _) _ ?_ (in_order2 h2 hc)
  rintro ⟨b'', c', n''⟩ ⟨h3, _⟩
  dsimp only at h3 ⊢
  rw [in_bind]
  refine in_mono (Nat.le_refl _) (Nat.le_refl _) _ ?_ (in_order2 h1 h3)
  rintro ⟨_, b3, n3⟩ ⟨_, h4⟩
  exact h4

theorem in_choosePivot {a b : Nat} (h : a < b) : In a b (choosePivot a b) (fun r => a ≤ r.1 ∧ r.1 < b) := by
  rw [choosePivot, in_bind]
  refine in_mono (Nat.le_refl _) (Nat.le_refl _) (Q := fun r => a ≤ r.1 ∧ r.1 < b) _ ?_ ?_
  · rintro ⟨j, n⟩ hj
    exact hj
  · refine in_ite (fun hl => ?_) (fun _ => ?_)
    · rw [in_bind]
      refine in_mono (Nat.le_refl _) (Nat.le_refl _) (Q := fun r => (a ≤ r.1 ∧ r.1 < b) ∧ (a ≤ r.2.1 ∧ r.2.1 < b) ∧ (a ≤ r.2.2.1 ∧ r.2.2.1 < b)) _ ?_ ?_
      · rintro ⟨i, j, k, n⟩ ⟨h1, h2, h3⟩
        exact in_median h1 h2 h3
      · refine in_ite (fun hn => ?_) (fun _ => ?_)
        · rw [in_bind]
          refine in_mono (Nat.le_refl _) (Nat.le_refl _) _ ?_ (in_median (by omega) (by omega) (by omega))
          rintro ⟨i, n⟩ h1
          dsimp only at h1 ⊢
          rw [in_bind]
          refine in_mono (Nat.le_refl _) (Nat.le_refl _) _ ?_ (in_median (by omega) (by omega) (by omega))
          rintro ⟨j, n⟩ h2
          dsimp only at h2 ⊢
          rw [in_bind]
          refine in_mono (Nat.le_refl _) (Nat.le_refl _) _ ?_ (in_median (by omega) (by omega) (by omega))
          rintro ⟨k, n⟩ h3
          exact ⟨h1, h2, h3⟩
        · refine ⟨?_, ?_, ?_⟩ <;> dsimp only <;> omega
    · show a ≤ _ ∧ _ < b
      dsimp only; omega

theorem in_reverseLoop {a b : Nat} : ∀ fuel i j, a ≤ i → j < b → In a b (reverseLoop fuel i j) (fun _ => True)
  | 0, _, _, _, _ => trivial
  | fuel + 1, i, j, hi, hj => by
    rw [reverseLoop]
    refine in_ite (fun h => ?_) (fun _ => trivial)
    rw [in_bind, in_swap]
    exact ⟨by omega, by omega, in_reverseLoop fuel (i + 1) (j - 1) (by omega) (by omega)⟩

theorem in_reverseRange {a b : Nat} (h : a < b) : In a b (reverseRange a b) (fun _ => True) :=
  in_reverseLoop _ _ _ (by omega) (by omega)

theorem in_goUp {a b : Nat} (eq : Bool) {j : Nat} (hj : j < b) (ha : a < b) : ∀ fuel i, a ≤ i →
    In a b (goUp eq a j fuel i) (fun r => i ≤ r ∧ (r = i ∨ r ≤ j + 1))
  | 0, i, _ => ⟨(Nat.le_refl _), Or.inl rfl⟩
  | fuel + 1, i, h1 => by
    rw [goUp]
    refine in_ite (fun h => ?_) (fun _ => ⟨(Nat.le_refl _), Or.inl rfl⟩)
    have next : ∀ c : Bool, In a b (if c = true then goUp eq a j fuel (i + 1) else pure i) (fun r => i ≤ r ∧ (r = i ∨ r ≤ j + 1)) := by
      intro c
      refine in_ite (fun _ => ?_) (fun _ => ⟨(Nat.le_refl _), Or.inl rfl⟩)
      exact in_mono (Nat.le_refl _) (Nat.le_refl _) _ (fun r hr => by omega) (in_goUp eq hj ha fuel (i + 1) (by omega))
    rw [in_bind]
    refine in_ite (fun _ => ?_) (fun _ => ?_)
    · rw [in_bind, in_less]
      exact ⟨by omega, by omega, fun c => next _⟩
    · exact ⟨by omega, by omega, fun c => next _⟩

theorem in_goDown {a b : Nat} (eq : Bool) {i : Nat} (hi : a < i) : ∀ fuel j, j < b →
    In a b (goDown eq a i fuel j) (fun r => r ≤ j ∧ (r = j ∨ i ≤ r + 1))
  | 0, j, _ => ⟨(Nat.le_refl _), Or.inl rfl⟩
  | fuel + 1, j, h1 => by
    rw [goDown]
    refine in_ite (fun h => ?_) (fun _ => ⟨(Nat.le_refl _), Or.inl rfl⟩)
    have next : ∀ c : Bool, In a b (if c = true then goDown eq a i fuel (j - 1) else pure j) (fun r => r ≤ j ∧ (r = j ∨ i ≤ r + 1)) := by
      intro c
      refine in_ite (fun _ => ?_) (fun _ => ⟨(Nat.le_refl _), Or.inl rfl⟩)
      exact in_mono (Nat.le_refl _) (Nat.le_refl _) _ (fun r hr => by omega) (in_goDown eq hi fuel (j - 1) (by omega))
    rw [in_bind]
    refine in_ite (fun _ => ?_) (fun _ => ?_)
    · exact ⟨by omega, by omega, fun c => next _⟩
    · rw [in_bind, in_less]
      exact ⟨by omega, by omega, fun c => next _⟩

theorem in_partLoop {a b : Nat} (eq : Bool) : ∀ fuel i j, a < i → i ≤ b → a ≤ j → j < b →
    In a b (partLoop eq a fuel i j) (fun r => (a < r.1 ∧ r.1 ≤ b) ∧ a ≤ r.2 ∧ r.2 < b)
  | 0, _, _, h1, h2, h3, h4 => ⟨⟨h1, h2⟩, h3, h4⟩
  | fuel + 1, i, j, h1, h2, h3, h4 => by
    rw [partLoop, in_bind]
    refine in_mono (Nat.le_refl _) (Nat.le_refl _) _ (fun i' hi' => ?_) (in_goUp eq h4 (by omega) _ i (by omega))
    rw [in_bind]
    refine in_mono (Nat.le_refl _) (Nat.le_refl _) _ (fun j' hj' => ?_) (in_goDown eq (i := i') (by omega) _ j h4)
    refine in_ite (fun _ => ?_) (fun _ => ?_)
    · show _ ∧ _ ∧ _; dsimp only; omega
    · rw [in_bind, in_swap]
      exact ⟨by omega, by omega, in_partLoop eq fuel (i' + 1) (j' - 1) (by omega) (by omega) (by omega) (by omega)⟩

theorem in_partition {a b pivot : Nat} (h : a < b) (h1 : a ≤ pivot) (h2 : pivot < b) :
    In a b (partition a b pivot) (fun r => a ≤ r.1 ∧ r.1 < b) := by
  rw [partition, in_bind, in_swap]
  refine ⟨by omega, by omega, ?_⟩
  rw [in_bind]
  refine in_mono (Nat.le_refl _) (Nat.le_refl _) _ (fun i hi => ?_) (in_goUp false (j := b - 1) (by omega) h _ (a + 1) (by omega))
  rw [in_bind]
  refine in_mono (Nat.le_refl _) (Nat.le_refl _) _ (fun j hj => ?_) (in_goDown false (i := i) (by omega) _ (b - 1) (by omega))
  refine in_ite (fun _ => ?_) (fun _ => ?_)
  · rw [in_bind, in_swap]
    refine ⟨by omega, by omega, ?_⟩
    show _ ∧ _; dsimp only; omega
  · rw [in_bind, in_swap]
    refine ⟨by omega, by omega, ?_⟩
    rw [in_bind]
    refine in_mono (Nat.le_refl _) (Nat.le_refl _) _ ?_ (in_partLoop false _ (i + 1) (j - 1) (by omega) (by omega) (by omega) (by omega))
    rintro ⟨i', j'⟩ hr
    dsimp only at hr ⊢
    rw [in_bind, in_swap]
    refine ⟨by omega, by omega, ?_⟩
    show _ ∧ _; dsimp only; omega

theorem in_partitionEqual {a b pivot : Nat} (h : a < b) (h1 : a ≤ pivot) (h2 : pivot < b) :
    In a b (partitionEqual a b pivot) (fun r => a < r ∧ r ≤ b) := by
  rw [partitionEqual, in_bind, in_swap]
  refine ⟨by omega, by omega, ?_⟩
  rw [in_bind]
  refine in_mono (Nat.le_refl _) (Nat.le_refl _) _ ?_ (in_partLoop true _ (a + 1) (b - 1) (by omega) (by omega) (by omega) (by omega))
  rintro ⟨i', j'⟩ hr
  dsimp only at hr ⊢
  show _ ∧ _; omega

theorem in_skipSorted {a b : Nat} : ∀ fuel i, a < i → i ≤ b → In a b (skipSorted b fuel i) (fun r => a < r ∧ r ≤ b)
  | 0, _, h1, h2 => ⟨h1, h2⟩
  | fuel + 1, i, h1, h2 => by
    rw [skipSorted]
    refine in_ite (fun h => ?_) (fun _ => ⟨h1, h2⟩)
    rw [in_bind, in_less]
    exact ⟨by omega, by omega, fun c => in_ite (fun _ => in_skipSorted fuel (i + 1) (by omega) (by omega)) (fun _ => ⟨h1, h2⟩)⟩

theorem in_shiftLeft {b : Nat} : ∀ j, j < b → In 0 b (shiftLeft j) (fun _ => True)
  | 0, _ => trivial
  | j + 1, h => by
    rw [shiftLeft, in_bind, in_less]
    refine ⟨by omega, by omega, fun c => in_ite (fun _ => trivial) (fun _ => ?_)⟩
    rw [in_bind, in_swap]
    exact ⟨by omega, by omega, in_shiftLeft j (by omega)⟩

theorem in_shiftRight {a b : Nat} : ∀ fuel j, a < j → In a b (shiftRight b fuel j) (fun _ => True)
  | 0, _, _ => trivial
  | fuel + 1, j, h => by
    rw [shiftRight]
    refine in_ite (fun hb => ?_) (fun _ => trivial)
    rw [in_bind, in_less]
    refine ⟨by omega, by omega, fun c => in_ite (fun _ => trivial) (fun _ => ?_)⟩
    rw [in_bind, in_swap]
    exact ⟨by omega, by omega, in_shiftRight fuel (j + 1) (by omega)⟩

theorem in_partialLoop {a b : Nat} : ∀ steps i, a < i → i ≤ b → In 0 b (partialLoop a b steps i) (fun _ => True)
  | 0, _, _, _ => trivial
  | steps + 1, i, h1, h2 => by
    rw [partialLoop, in_bind]
    refine in_mono (Nat.zero_le _) (Nat.le_refl _) _ (fun i hi => ?_) (in_skipSorted _ i h1 h2)
    refine in_ite (fun _ => trivial) (fun hb => in_ite (fun _ => trivial) (fun _ => ?_))
    rw [in_bind, in_swap]
    refine ⟨by omega, by omega, ?_⟩
    rw [in_bind]
    have rest : In 0 b (do
        (if b - i ≥ 2 then shiftRight b (b - (i + 1)) (i + 1) else pure ())
        partialLoop a b steps i) (fun _ => True) := by
      rw [in_bind]
      refine in_ite (fun _ => ?_) (fun _ => in_partialLoop steps i (by omega) (by omega))
      exact in_mono (Nat.le_refl _) (Nat.le_refl _) _ (fun _ _ => in_partialLoop steps i (by omega) (by omega)) (in_shiftRight _ _ (by omega))
    refine in_ite (fun _ => ?_) (fun _ => rest)
    exact in_mono (Nat.le_refl _) (Nat.le_refl _) _ (fun _ _ => rest) (in_shiftLeft _ (by omega))

theorem in_pdqsort (rnd : Nat → Nat → Nat) {n : Nat} : ∀ fuel a b limit bal part, a ≤ b → b ≤ n →
    In 0 n (pdqsort rnd fuel a b limit bal part) (fun _ => True)
  | 0, _, _, _, _, _, _, _ => trivial
  | fuel + 1, a, b, limit, bal, part, h1, h2 => by
    rw [pdqsort]
    refine in_ite (fun _ => in_mono (Nat.zero_le _) h2 _ (fun _ _ => trivial) (in_insertion a b)) (fun hl => ?_)
    refine in_ite (fun _ => in_mono (Nat.zero_le _) h2 _ (fun _ _ => trivial) (in_heapSort h1)) (fun _ => ?_)
    have up : ∀ {β : Type} {p : Prog β} {Q Q' : β → Prop}, In a b p Q → (∀ r, Q r → Q' r) → In 0 n p Q' :=
      fun h hq => in_mono (Nat.zero_le _) h2 _ hq h
    rw [in_bind]
    refine in_mono (Nat.le_refl _) (Nat.le_refl _) (Q := fun _ => True) _ (fun _ _ => ?_)
      (in_ite (fun _ => up (in_breakPatterns rnd a b) (fun _ _ => trivial)) (fun _ => trivial))
    rw [in_bind]
    refine up (in_choosePivot (by omega)) ?_
    rintro ⟨pivot, hint⟩ hp
    dsimp only at hp ⊢
    rw [in_bind]
    refine in_mono (Nat.le_refl _) (Nat.le_refl _) (Q := fun r => a ≤ r.1 ∧ r.1 < b) _ ?_
      (in_ite (fun _ => ?_) (fun _ => ?_))
    rotate_left
    · rw [in_bind]
      refine up (in_reverseRange (by omega)) (fun _ _ => ?_)
      show a ≤ _ ∧ _ < b; dsimp only; omega
    · exact hp
    rintro ⟨pivot, hint⟩ hp
    dsimp only at hp ⊢
    rw [in_bind]
    refine in_mono (Nat.le_refl _) (Nat.le_refl _) (Q := fun _ => True) _ (fun done _ => ?_)
      (in_ite (fun _ => in_mono (Nat.le_refl _) h2 _ (fun _ _ => trivial) (in_partialLoop _ _ (by omega) (by omega))) (fun _ => trivial))
    refine in_ite (fun _ => trivial) (fun _ => ?_)
    rw [in_bind]
    refine in_mono (Nat.le_refl _) (Nat.le_refl _) (Q := fun _ => True) _ (fun same _ => ?_) (in_ite (fun ha => ?_) (fun _ => trivial))
    rotate_left
    · rw [in_bind, in_less]
      exact ⟨by omega, by omega, fun _ => trivial⟩
    refine in_ite (fun _ => ?_) (fun _ => ?_)
    · rw [in_bind]
      exact up (in_partitionEqual (by omega) hp.1 hp.2) (fun mid hm => in_pdqsort rnd fuel mid b _ _ _ hm.2 h2)
    · rw [in_bind]
      refine up (in_partition (by omega) hp.1 hp.2) ?_
      rintro ⟨mid, already⟩ hm
      dsimp only at hm ⊢
      refine in_ite (fun _ => ?_) (fun _ => ?_)
      · rw [in_bind]
        exact in_mono (Nat.le_refl _) (Nat.le_refl _) _ (fun _ _ => in_pdqsort rnd fuel _ b _ _ _ (by omega) h2) (in_pdqsort rnd fuel a mid _ _ _ hm.1 (by omega))
      · rw [in_bind]
        exact in_mono (Nat.le_refl _) (Nat.le_refl _) _ (fun _ _ => in_pdqsort rnd fuel a mid _ _ _ hm.1 (by omega)) (in_pdqsort rnd fuel _ b _ _ _ (by omega) h2)

theorem in_sortSlice (rnd : Nat → Nat → Nat) (n : Nat) : In 0 n (sortSlice rnd n) (fun _ => True) :=
  in_pdqsort rnd _ _ _ _ _ _ (Nat.zero_le _) (Nat.le_refl _)

end Ckube.GoSort
