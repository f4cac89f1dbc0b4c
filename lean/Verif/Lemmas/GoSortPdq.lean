import Verif.Lemmas.GoSortSorted

/-! # Partition, partial insertion sort and `pdqsort_func` -/

namespace Ckube.GoSort

variable {α β γ : Type} {less : α → α → Bool} {le : α → α → Prop}

/-! ## Partition -/

/-- The test by which `partition_func` (`partitionEqual_func`) leaves an element on the left. -/
def test (less : α → α → Bool) (eq : Bool) (p v : α) : Bool := if eq then !less p v else less v p

/-- The pair compared by this test. -/
def pair (eq : Bool) (p v : α) : α × α := if eq then (p, v) else (v, p)

theorem wp_testUp {eq : Bool} {a i : Nat} {s : Mem α} {Q : Bool → Mem α → Prop} :
    wp less (if eq = true then (do return !(← lessAt a i)) else lessAt i a) s Q
      ↔ Q (test less eq (s.d a) (s.d i)) ⟨s.d, s.tr ++ [pair eq (s.d a) (s.d i)]⟩ := by
  cases eq <;> exact Iff.rfl

theorem wp_testDown {eq : Bool} {a j : Nat} {s : Mem α} {Q : Bool → Mem α → Prop} :
    wp less (if eq = true then lessAt a j else (do return !(← lessAt j a))) s Q
      ↔ Q (!test less eq (s.d a) (s.d j)) ⟨s.d, s.tr ++ [pair eq (s.d a) (s.d j)]⟩ := by
  cases eq
  · exact Iff.rfl
  · simp only [if_true, test, pair, Bool.not_not]
    exact Iff.rfl

/-- What is known of an element once it was compared with the pivot `p`: `U` if it stays on the left, `D` otherwise. -/
structure Part (less : α → α → Bool) (eq : Bool) (p : α) (U D : List (α × α) → α → Prop) : Prop where
  up : ∀ tr v, test less eq p v = true → U (tr ++ [pair eq p v]) v
  down : ∀ tr v, test less eq p v = false → D (tr ++ [pair eq p v]) v
  growU : ∀ tr tr' v, (∀ x, x ∈ tr → x ∈ tr') → U tr v → U tr' v
  growD : ∀ tr tr' v, (∀ x, x ∈ tr → x ∈ tr') → D tr v → D tr' v

/-- What was passed on the way up to `i` and down to `j`. -/
def Passed (a b : Nat) (U D : List (α × α) → α → Prop) (i j : Nat) (s : Mem α) : Prop :=
  (∀ k, a < k → k < i → U s.tr (s.d k)) ∧ ∀ k, j < k → k < b → D s.tr (s.d k)

theorem wp_grow (p : Prog β) (s : Mem α) : wp less p s (fun _ s' => ∀ x, x ∈ s.tr → x ∈ s'.tr) := run_grow p s

theorem goUp_spec {eq : Bool} {p : α} {U D : List (α × α) → α → Prop} (P : Part less eq p U D) {a b j : Nat} :
    ∀ fuel i (s : Mem α), s.d a = p → i ≤ j + 1 → j + 1 ≤ i + fuel → Passed a b U D i j s →
    wp less (goUp eq a j fuel i) s (fun r s' => s'.d = s.d ∧ i ≤ r ∧ r ≤ j + 1 ∧ Passed a b U D r j s'
      ∧ (r ≤ j → test less eq p (s.d r) = false ∧ D s'.tr (s.d r)))
  | 0, i, s, _, h1, h2, h => ⟨rfl, Nat.le_refl _, h1, h, fun hr => by
      have : (Prog.run less (goUp eq a j 0 i) s).1 = i := rfl
      omega⟩
  | fuel + 1, i, s, hp, h1, h2, h => by
    rw [goUp]
    refine wp_ite (fun c => ?_) (fun c => ?_)
    · rw [wp_bind, wp_testUp, hp]
      have grown : Passed a b U D i j ⟨s.d, s.tr ++ [pair eq p (s.d i)]⟩ :=
        ⟨fun k k1 k2 => P.growU _ _ _ (fun _ => List.mem_append_left _) (h.1 k k1 k2), fun k k1 k2 => P.growD _ _ _ (fun _ => List.mem_append_left _) (h.2 k k1 k2)⟩
      refine wp_ite (fun ans => ?_) (fun ans => ?_)
      · refine wp_mono (goUp_spec P fuel (i + 1) _ hp (by omega) (by omega) ⟨fun k k1 k2 => ?_, grown.2⟩) ?_
        · by_cases e : k = i
          · subst e; exact P.up _ _ ans
          · exact grown.1 k k1 (by omega)
        · rintro r s' ⟨g1, g2, g3, g4, g5⟩
          exact ⟨g1, by omega, g3, g4, g5⟩
      · have ans' : test less eq p (s.d i) = false := by simpa using ans
        exact wp_ret.mpr ⟨rfl, Nat.le_refl _, h1, grown, fun _ => ⟨ans', P.down _ _ ans'⟩⟩
    · exact wp_ret.mpr ⟨rfl, Nat.le_refl _, h1, h, fun hr => absurd hr c⟩

theorem goDown_spec {eq : Bool} {p : α} {U D : List (α × α) → α → Prop} (P : Part less eq p U D) {a b i : Nat} (ha : a < i) :
    ∀ fuel j (s : Mem α), s.d a = p → i ≤ j + 1 → j + 1 ≤ i + fuel → Passed a b U D i j s →
    wp less (goDown eq a i fuel j) s (fun r s' => s'.d = s.d ∧ r ≤ j ∧ i ≤ r + 1 ∧ Passed a b U D i r s'
      ∧ (i ≤ r → test less eq p (s.d r) = true ∧ U s'.tr (s.d r)))
  | 0, j, s, _, h1, h2, h => ⟨rfl, Nat.le_refl _, h1, h, fun hr => by
      have : (Prog.run less (goDown eq a i 0 j) s).1 = j := rfl
      omega⟩
  | fuel + 1, j, s, hp, h1, h2, h => by
    rw [goDown]
    refine wp_ite (fun c => ?_) (fun c => ?_)
    · rw [wp_bind, wp_testDown, hp]
      have grown : Passed a b U D i j ⟨s.d, s.tr ++ [pair eq p (s.d j)]⟩ :=
        ⟨fun k k1 k2 => P.growU _ _ _ (fun _ => List.mem_append_left _) (h.1 k k1 k2), fun k k1 k2 => P.growD _ _ _ (fun _ => List.mem_append_left _) (h.2 k k1 k2)⟩
      refine wp_ite (fun ans => ?_) (fun ans => ?_)
      · have ans' : test less eq p (s.d j) = false := by simpa using ans
        refine wp_mono (goDown_spec P (b := b) ha fuel (j - 1) _ hp (by omega) (by omega) ⟨grown.1, fun k k1 k2 => ?_⟩) ?_
        · by_cases e : k = j
          · subst e; exact P.down _ _ ans'
          · exact grown.2 k (by omega) k2
        · rintro r s' ⟨g1, g2, g3, g4, g5⟩
          exact ⟨g1, by omega, g3, g4, g5⟩
      · have ans' : test less eq p (s.d j) = true := by simpa using ans
        exact wp_ret.mpr ⟨rfl, Nat.le_refl _, h1, grown, fun _ => ⟨ans', P.up _ _ ans'⟩⟩
    · exact wp_ret.mpr ⟨rfl, Nat.le_refl _, h1, h, fun hr => absurd hr c⟩

theorem passed_swap {a b i j : Nat} {U D : List (α × α) → α → Prop} {s : Mem α} (h : Passed a b U D i j s) (hij : i < j)
    (hu : U s.tr (s.d j)) (hd : D s.tr (s.d i)) : Passed a b U D (i + 1) (j - 1) ⟨swapped i j s.d, s.tr⟩ := by
  refine ⟨fun k k1 k2 => ?_, fun k k1 k2 => ?_⟩
  · show U s.tr (swapped i j s.d k)
    rw [swapped]
    by_cases e : k = i
    · rw [if_pos e]; exact hu
    · rw [if_neg e, if_neg (by omega)]
      exact h.1 k k1 (by omega)
  · show D s.tr (swapped i j s.d k)
    rw [swapped, if_neg (by omega)]
    by_cases e : k = j
    · rw [if_pos e]; exact hd
    · rw [if_neg e]
      exact h.2 k (by omega) k2

theorem partLoop_spec {eq : Bool} {p : α} {U D : List (α × α) → α → Prop} (P : Part less eq p U D) {a b : Nat} :
    ∀ fuel i j (s : Mem α), s.d a = p → a < i → i ≤ j + 1 → j + 1 ≤ i + fuel → Passed a b U D i j s →
    wp less (partLoop eq a fuel i j) s (fun r s' => r.1 = r.2 + 1 ∧ i ≤ r.1 ∧ r.2 ≤ j ∧ s'.d a = p ∧ Passed a b U D r.1 r.2 s')
  | 0, i, j, s, hp, h0, h1, h2, h => by
    refine wp_ret.mpr ⟨?_, Nat.le_refl _, Nat.le_refl _, hp, h⟩
    dsimp only; omega
  | fuel + 1, i, j, s, hp, h0, h1, h2, h => by
    rw [partLoop, wp_bind]
    refine wp_mono (goUp_spec P _ i s hp h1 (by omega) h) ?_
    rintro i' s1 ⟨d1, a1, a2, a3, a4⟩
    rw [wp_bind]
    refine wp_mono (wp_and (goDown_spec P (by omega) _ j s1 (by rw [d1, hp]) a2 (by omega) a3) (wp_grow _ s1)) ?_
    rintro j' s2 ⟨⟨d2, b1, b2, b3, b4⟩, hgrow⟩
    refine wp_ite (fun c => ?_) (fun c => ?_)
    · refine wp_ret.mpr ⟨?_, ?_, ?_, by rw [d2, d1, hp], b3⟩ <;> dsimp only <;> omega
    · obtain ⟨t1, u1⟩ := b4 (by omega)
      obtain ⟨t2, u2⟩ := a4 (by omega)
      have hne : i' ≠ j' := by
        rintro rfl
        rw [d1, t2] at t1
        exact absurd t1 (by simp)
      rw [wp_bind, wp_swap]
      have hd : D s2.tr (s2.d i') := by
        rw [d2, d1]
        exact P.growD _ _ _ hgrow u2
      refine wp_mono (partLoop_spec P fuel (i' + 1) (j' - 1) _ ?_ (by omega) (by omega) (by omega)
        (passed_swap b3 (by omega) (by rw [d2]; exact u1) hd)) ?_
      · show swapped i' j' s2.d a = p
        rw [swapped, if_neg (by omega), if_neg (by omega), d2, d1, hp]
      · rintro ⟨r1, r2⟩ s' ⟨c1, c2, c3, c4, c5⟩
        dsimp only at *
        exact ⟨c1, by omega, by omega, c4, c5⟩

/-- After `partition_func`: the pivot is at the index returned, what stands before it stayed on the left, the rest did not. -/
theorem partition_spec {U D : List (α × α) → α → Prop} {a b pivot : Nat} {s : Mem α} (P : Part less false (s.d pivot) U D) (h : a < b)
    (h1 : a ≤ pivot) (h2 : pivot < b) :
    wp less (partition a b pivot) s (fun r s' => a ≤ r.1 ∧ r.1 < b ∧ s'.d r.1 = s.d pivot
      ∧ (∀ k, a ≤ k → k < r.1 → U s'.tr (s'.d k)) ∧ ∀ k, r.1 < k → k < b → D s'.tr (s'.d k)) := by
  have fin : ∀ {j : Nat} {s1 : Mem α}, a ≤ j → j < b → s1.d a = s.d pivot → Passed a b U D (j + 1) j s1 → ∀ {x : Bool},
      wp less (do swapAt j a; pure (j, x)) s1 (fun r s' => a ≤ r.1 ∧ r.1 < b ∧ s'.d r.1 = s.d pivot
      ∧ (∀ k, a ≤ k → k < r.1 → U s'.tr (s'.d k)) ∧ ∀ k, r.1 < k → k < b → D s'.tr (s'.d k)) := by
    intro j s1 g1 g2 g3 g4 x
    rw [wp_bind, wp_swap]
    refine wp_ret.mpr ⟨g1, g2, ?_, fun k k1 k2 => ?_, fun k k1 k2 => ?_⟩
    · show swapped j a s1.d j = _
      rw [swapped, if_pos rfl, g3]
    · show U s1.tr (swapped j a s1.d k)
      dsimp only at k2
      rw [swapped, if_neg (by omega)]
      by_cases e : k = a
      · rw [if_pos e]; exact g4.1 j (by omega) (by omega)
      · rw [if_neg e]; exact g4.1 k (by omega) (by omega)
    · show D s1.tr (swapped j a s1.d k)
      dsimp only at k1
      rw [swapped, if_neg (by omega), if_neg (by omega)]
      exact g4.2 k k1 k2
  rw [partition, wp_bind, wp_swap, wp_bind]
  have hp : swapped a pivot s.d a = s.d pivot := by rw [swapped, if_pos rfl]
  refine wp_mono (goUp_spec P (a := a) (b := b) (j := b - 1) _ (a + 1) ⟨swapped a pivot s.d, s.tr⟩ hp (by omega) (by omega)
    ⟨fun k k1 k2 => by omega, fun k k1 k2 => by omega⟩) ?_
  rintro i s1 ⟨d1, a1, a2, a3, a4⟩
  rw [wp_bind]
  refine wp_mono (wp_and (goDown_spec P (by omega) _ (b - 1) s1 (by rw [d1]; exact hp) a2 (by omega) a3) (wp_grow _ s1)) ?_
  rintro j s2 ⟨⟨d2, b1, b2, b3, b4⟩, hgrow⟩
  refine wp_ite (fun c => ?_) (fun c => ?_)
  · obtain rfl : i = j + 1 := by omega
    exact fin (by omega) (by omega) (by rw [d2, d1]; exact hp) b3
  · obtain ⟨t1, u1⟩ := b4 (by omega)
    obtain ⟨t2, u2⟩ := a4 (by omega)
    have hne : i ≠ j := by
      rintro rfl
      rw [d1, t2] at t1
      exact absurd t1 (by simp)
    rw [wp_bind, wp_swap, wp_bind]
    refine wp_mono (partLoop_spec P (a := a) (b := b) _ (i + 1) (j - 1) _ ?_ (by omega) (by omega) (by omega)
      (passed_swap b3 (by omega) (by rw [d2]; exact u1) (by rw [d2, d1]; exact P.growD _ _ _ hgrow u2))) ?_
    · show swapped i j s2.d a = _
      rw [swapped, if_neg (by omega), if_neg (by omega), d2, d1]; exact hp
    · rintro ⟨r1, r2⟩ s3 ⟨c1, c2, c3, c4, c5⟩
      dsimp only at c1 c2 c3 c4 c5 ⊢
      subst c1
      exact fin (by omega) (by omega) c4 c5

/-- After `partitionEqual_func`. -/
theorem partitionEqual_spec {U D : List (α × α) → α → Prop} {a b pivot : Nat} {s : Mem α} (P : Part less true (s.d pivot) U D) (h : a < b) :
    wp less (partitionEqual a b pivot) s (fun r s' => a < r ∧ r ≤ b ∧ s'.d a = s.d pivot
      ∧ (∀ k, a < k → k < r → U s'.tr (s'.d k)) ∧ ∀ k, r ≤ k → k < b → D s'.tr (s'.d k)) := by
  rw [partitionEqual, wp_bind, wp_swap, wp_bind]
  have hp : swapped a pivot s.d a = s.d pivot := by rw [swapped, if_pos rfl]
  refine wp_mono (partLoop_spec P (a := a) (b := b) _ (a + 1) (b - 1) ⟨swapped a pivot s.d, s.tr⟩ hp (by omega) (by omega) (by omega)
    ⟨fun k k1 k2 => by omega, fun k k1 k2 => by omega⟩) ?_
  rintro ⟨r1, r2⟩ s3 ⟨c1, c2, c3, c4, c5⟩
  dsimp only at c1 c2 c3 c4 c5 ⊢
  subst c1
  exact wp_ret.mpr ⟨by omega, by omega, c4, c5.1, fun k k1 k2 => c5.2 k (by omega) k2⟩

theorem part_le (H : Accord less le) (eq : Bool) (p : α) : Part less eq p (fun _ v => le v p) (fun _ v => le p v) := by
  refine ⟨fun tr v h => ?_, fun tr v h => ?_, fun _ _ _ _ h => h, fun _ _ _ _ h => h⟩
  · cases eq
    · exact H.yes h
    · exact H.no (by simpa [test] using h)
  · cases eq
    · exact H.no h
    · exact H.yes (by simpa [test] using h)

/-! ## Partial insertion sort -/

theorem sorted_snoc (H : Accord less le) {a i : Nat} {d : Nat → α} (h : Sorted le a i d) (hi : a < i) (hl : le (d (i - 1)) (d i)) :
    Sorted le a (i + 1) d := by
  intro x k h1 h2 h3
  by_cases c : k = i
  · subst c
    by_cases e : x = k - 1
    · subst e; exact hl
    · exact H.trans (h x (k - 1) h1 (by omega) (by omega)) hl
  · exact h x k h1 h2 (by omega)

theorem skipSorted_spec (H : Accord less le) {a b : Nat} : ∀ fuel i (s : Mem α), a < i → i ≤ b → Sorted le a i s.d → b ≤ i + fuel →
    wp less (skipSorted b fuel i) s (fun r s' => s'.d = s.d ∧ i ≤ r ∧ r ≤ b ∧ Sorted le a r s.d)
  | 0, i, s, _, h1, h2, _ => ⟨rfl, Nat.le_refl _, h1, h2⟩
  | fuel + 1, i, s, h0, h1, h2, h3 => by
    rw [skipSorted]
    refine wp_ite (fun c => ?_) (fun c => ?_)
    · rw [wp_bind, wp_less]
      refine wp_ite (fun ans => ?_) (fun ans => wp_ret.mpr ⟨rfl, Nat.le_refl _, h1, h2⟩)
      have hl : le (s.d (i - 1)) (s.d i) := H.no (by simpa using ans)
      refine wp_mono (skipSorted_spec H (a := a) fuel (i + 1) _ (by omega) (by omega) (sorted_snoc H h2 h0 hl) (by omega)) ?_
      rintro r s' ⟨g1, g2, g3, g4⟩
      exact ⟨g1, by omega, g3, g4⟩
    · exact wp_ret.mpr ⟨rfl, Nat.le_refl _, h1, h2⟩

/-- `shiftLeft` beyond the left end of the range: only ties change places. -/
theorem shiftLeft_cross (H : Accord less le) : ∀ j (s : Mem α), (∀ k, k < j → le (s.d k) (s.d j)) →
    wp less (shiftLeft j) s (fun _ s' => ∀ k, le (s.d k) (s'.d k) ∧ le (s'.d k) (s.d k))
  | 0, s, _ => fun k => ⟨H.refl _, H.refl _⟩
  | j + 1, s, h => by
    rw [shiftLeft, wp_bind, wp_less]
    refine wp_ite (fun ans => wp_ret.mpr fun k => ⟨H.refl _, H.refl _⟩) (fun ans => ?_)
    have hl : le (s.d (j + 1)) (s.d j) := H.yes (by simpa using ans)
    have hr : le (s.d j) (s.d (j + 1)) := h j (by omega)
    rw [wp_bind, wp_swap]
    have e1 : swapped (j + 1) j s.d (j + 1) = s.d j := by rw [swapped, if_pos rfl]
    have e2 : swapped (j + 1) j s.d j = s.d (j + 1) := by rw [swapped, if_neg (by omega), if_pos rfl]
    have e3 : ∀ k, k ≠ j → k ≠ j + 1 → swapped (j + 1) j s.d k = s.d k := fun k k1 k2 => by rw [swapped, if_neg k2, if_neg k1]
    refine wp_mono (shiftLeft_cross H j _ (fun k hk => ?_)) (fun _ s' g k => ?_)
    · show le (swapped (j + 1) j s.d k) (swapped (j + 1) j s.d j)
      rw [e2, e3 k (by omega) (by omega)]
      exact h k (by omega)
    · have g' : le (swapped (j + 1) j s.d k) (s'.d k) ∧ le (s'.d k) (swapped (j + 1) j s.d k) := g k
      by_cases c : k = j
      · subst c
        rw [e2] at g'
        exact ⟨H.trans hr g'.1, H.trans g'.2 hl⟩
      · by_cases c2 : k = j + 1
        · subst c2
          rw [e1] at g'
          exact ⟨H.trans hl g'.1, H.trans g'.2 hr⟩
        · rwa [e3 k c c2] at g'

theorem shiftLeft_spec (H : Accord less le) {a b i : Nat} (hib : i ≤ b) : ∀ j (s : Mem α), a ≤ j → j < i → Ex le a i j s.d → Below le a b s.d →
    wp less (shiftLeft j) s (fun _ s' => Sorted le a i s'.d ∧ Keeps le a b s.d s'.d)
  | 0, s, h1, _, h, _ => by
    obtain rfl : a = 0 := by omega
    exact ⟨sorted_of_ex_first h, Keeps.refl H _ _ _⟩
  | j + 1, s, h1, h2, h, hb => by
    by_cases c : a = j + 1
    · rw [← c] at h h2 ⊢
      refine wp_mono (wp_and (shiftLeft_cross H a s (fun k hk => hb k hk a (Nat.le_refl _) (by omega)))
        (frame_of_in _ (in_shiftLeft (b := a + 1) a (by omega)) s)) ?_
      rintro _ s' ⟨g1, _, g2⟩
      have hs := sorted_of_ex_first h
      exact ⟨fun x k x1 x2 x3 => H.trans (g1 x).2 (H.trans (hs x k x1 x2 x3) (g1 k).1), fun k _ => g1 k, fun k hk => g2.out k (by omega),
        fun y hy k k1 k2 => H.trans (hy k k1 k2) (g1 k).1, fun y hy k k1 k2 => H.trans (g1 k).2 (hy k k1 k2)⟩
    · rw [shiftLeft, wp_bind, wp_less]
      refine wp_ite (fun ans => ?_) (fun ans => ?_)
      · have hl : le (s.d j) (s.d (j + 1)) := H.no (by simpa using ans)
        exact wp_ret.mpr ⟨ex_stop H h (by omega) hl, Keeps.refl H _ _ _⟩
      · have hl : le (s.d (j + 1)) (s.d j) := H.yes (by simpa using ans)
        rw [wp_bind, wp_swap]
        have hk : Keeps le a b s.d (swapped (j + 1) j s.d) :=
          keeps_of_frame (s := s) (s' := ⟨swapped (j + 1) j s.d, s.tr⟩) H (frame_swap (by omega) (by omega) s)
        refine wp_mono (shiftLeft_spec H hib j _ (by omega) (by omega) (ex_swap h (by omega) h2 hl) (hk.below H hb)) ?_
        rintro _ s' ⟨g1, g2⟩
        exact ⟨g1, hk.trans H g2⟩

theorem partialLoop_spec (H : Accord less le) {a b : Nat} : ∀ steps i (s : Mem α), a < i → i ≤ b → Sorted le a i s.d → Below le a b s.d →
    wp less (partialLoop a b steps i) s (fun r s' => Keeps le a b s.d s'.d ∧ (r = true → Sorted le a b s'.d))
  | 0, i, s, _, _, _, _ => by
    refine wp_ret.mpr ⟨Keeps.refl H _ _ _, fun h => ?_⟩
    exact absurd h (by simp)
  | steps + 1, i, s, h1, h2, h3, h4 => by
    rw [partialLoop, wp_bind]
    refine wp_mono (skipSorted_spec H (a := a) _ i s h1 h2 h3 (by omega)) ?_
    rintro i' s1 ⟨d1, a1, a2, a3⟩
    refine wp_ite (fun c => ?_) (fun c => wp_ite (fun _ => ?_) (fun c2 => ?_))
    · subst c
      exact wp_ret.mpr ⟨by rw [d1]; exact Keeps.refl H _ _ _, fun _ => by rw [d1]; exact a3⟩
    · exact wp_ret.mpr ⟨by rw [d1]; exact Keeps.refl H _ _ _, fun h => absurd h (by simp)⟩
    · rw [wp_bind, wp_swap]
      have hk : Keeps le a b s.d (swapped i' (i' - 1) s1.d) := by
        have := keeps_of_frame (s := s1) (s' := ⟨swapped i' (i' - 1) s1.d, s1.tr⟩) H (frame_swap (lo := a) (hi := b) (by omega) (by omega) s1)
        rwa [d1] at this ⊢
      have hu : ∀ k, k ≠ i' → k ≠ i' - 1 → swapped i' (i' - 1) s1.d k = s.d k := fun k k1 k2 => by rw [swapped, if_neg k1, if_neg k2, d1]
      have hex : Ex le a i' (i' - 1) (swapped i' (i' - 1) s1.d) := by
        refine ⟨fun x k x1 x2 x3 x4 x5 => ?_, fun k k1 k2 => by omega⟩
        rw [hu x (by omega) x4, hu k (by omega) x5]
        exact a3 x k x1 x2 x3
      rw [wp_bind]
      have left : wp less (if i' - a ≥ 2 then shiftLeft (i' - 1) else pure ()) ⟨swapped i' (i' - 1) s1.d, s1.tr⟩
          (fun _ s' => Sorted le a i' s'.d ∧ Keeps le a b s.d s'.d) := by
        refine wp_ite (fun c3 => ?_) (fun c3 => wp_ret.mpr ⟨fun x k x1 x2 x3 => by omega, hk⟩)
        refine wp_mono (shiftLeft_spec H (b := b) (by omega) (i' - 1) _ (by omega) (by omega) hex (hk.below H h4)) ?_
        rintro _ s' ⟨g1, g2⟩
        exact ⟨g1, hk.trans H g2⟩
      refine wp_mono left ?_
      rintro _ s2 ⟨b1, b2⟩
      rw [wp_bind]
      have right : wp less (if b - i' ≥ 2 then shiftRight b (b - (i' + 1)) (i' + 1) else pure ()) s2
          (fun _ s' => Sorted le a i' s'.d ∧ Keeps le a b s.d s'.d) := by
        refine wp_ite (fun c3 => ?_) (fun c3 => wp_ret.mpr ⟨b1, b2⟩)
        refine wp_mono (frame_of_in _ (in_shiftRight (a := i') (b := b) _ _ (by omega)) s2) ?_
        rintro _ s' ⟨_, g⟩
        refine ⟨fun x k x1 x2 x3 => ?_, b2.trans H ((keeps_of_frame H g).widen H (by omega) (Nat.le_refl _))⟩
        rw [g.out x (by omega), g.out k (by omega)]
        exact b1 x k x1 x2 x3
      refine wp_mono right ?_
      rintro _ s3 ⟨e1, e2⟩
      refine wp_mono (partialLoop_spec H steps i' s3 (by omega) a2 e1 (e2.below H h4)) ?_
      rintro r s' ⟨g1, g2⟩
      exact ⟨e2.trans H g1, g2⟩

/-! ## `pdqsort_func` -/

/-- What stands in `[a, mid)` is not greater than what stands at `mid`, and that is not greater than the rest of `[a, b)`. -/
def Split (le : α → α → Prop) (a mid b : Nat) (d : Nat → α) : Prop :=
  (∀ k, a ≤ k → k < mid → le (d k) (d mid)) ∧ ∀ k, mid < k → k < b → le (d mid) (d k)

theorem Split.keepsLeft {a mid b : Nat} {d d' : Nat → α} (h : Split le a mid b d) (hk : Keeps le a mid d d') : Split le a mid b d' := by
  refine ⟨fun k k1 k2 => ?_, fun k k1 k2 => ?_⟩
  · rw [hk.right mid (Nat.le_refl _)]
    exact hk.upper _ h.1 k k1 k2
  · rw [hk.right mid (Nat.le_refl _), hk.right k (by omega)]
    exact h.2 k k1 k2

theorem Split.keepsRight (H : Accord less le) {a mid b : Nat} {d d' : Nat → α} (h : Split le a mid b d) (hk : Keeps le (mid + 1) b d d') :
    Split le a mid b d' := by
  refine ⟨fun k k1 k2 => ?_, fun k k1 k2 => ?_⟩
  · exact H.trans (hk.left k (by omega)).2 (H.trans (h.1 k k1 k2) (hk.left mid (by omega)).1)
  · exact H.trans (hk.left mid (by omega)).2 (hk.lower _ (fun m m1 m2 => h.2 m (by omega) m2) k (by omega) k2)

theorem Split.sorted (H : Accord less le) {a mid b : Nat} {d : Nat → α} (h : Split le a mid b d) (h1 : Sorted le a mid d)
    (h2 : Sorted le (mid + 1) b d) : Sorted le a b d := by
  intro i k i1 i2 i3
  rcases Nat.lt_trichotomy i mid with c | c | c
  · rcases Nat.lt_trichotomy k mid with e | e | e
    · exact h1 i k i1 i2 e
    · subst e; exact h.1 i i1 c
    · exact H.trans (h.1 i i1 c) (h.2 k e i3)
  · subst c; exact h.2 k i2 i3
  · exact h2 i k c i2 i3

theorem pdqsort_spec (H : Accord less le) (rnd : Nat → Nat → Nat) : ∀ fuel a b limit bal part (s : Mem α), a ≤ b → b < a + fuel → Below le a b s.d →
    wp less (pdqsort rnd fuel a b limit bal part) s (fun _ s' => Sorted le a b s'.d ∧ Keeps le a b s.d s'.d)
  | 0, _, _, _, _, _, _, h1, h2, _ => by omega
  | fuel + 1, a, b, limit, bal, part, s, h1, h2, hb => by
    rw [pdqsort]
    refine wp_ite (fun _ => ?_) (fun hl => wp_ite (fun _ => ?_) (fun _ => ?_))
    · exact wp_mono (wp_and (insertion_sorts H a b s) (keeps_of_in H (in_insertion a b) s)) (fun _ _ g => ⟨g.1, g.2.2⟩)
    · exact wp_mono (wp_and (heapSort_sorts H h1 s) (keeps_of_in H (in_heapSort h1) s)) (fun _ _ g => ⟨g.1, g.2.2⟩)
    rw [wp_bind]
    have hbreak : wp less (if (!bal) = true then breakPatterns rnd a b else pure ()) s (fun _ s' => Keeps le a b s.d s'.d) :=
      wp_ite (fun _ => wp_mono (keeps_of_in H (in_breakPatterns rnd a b) s) (fun _ _ g => g.2)) (fun _ => wp_ret.mpr (Keeps.refl H _ _ _))
    refine wp_mono hbreak (fun _ s1 k1 => ?_)
    rw [wp_bind]
    refine wp_mono (keeps_of_in H (in_choosePivot (a := a) (b := b) (by omega)) s1) ?_
    rintro ⟨pivot, hint⟩ s2 ⟨hp, k2⟩
    dsimp only at hp ⊢
    rw [wp_bind]
    have hrev : wp less (if hint = Hint.decreasing then do
        reverseRange a b
        pure ((b - 1) - (pivot - a), Hint.increasing)
        else pure (pivot, hint)) s2 (fun r s' => (a ≤ r.1 ∧ r.1 < b) ∧ Keeps le a b s2.d s'.d) := by
      refine wp_ite (fun _ => ?_) (fun _ => wp_ret.mpr ⟨hp, Keeps.refl H _ _ _⟩)
      rw [wp_bind]
      refine wp_mono (keeps_of_in H (in_reverseRange (a := a) (b := b) (by omega)) s2) ?_
      rintro _ s' ⟨_, g⟩
      refine wp_ret.mpr ⟨?_, g⟩
      dsimp only; omega
    refine wp_mono hrev ?_
    rintro ⟨pivot, hint⟩ s3 ⟨hp, k3⟩
    dsimp only at hp ⊢
    have kk3 : Keeps le a b s.d s3.d := (k1.trans H k2).trans H k3
    rw [wp_bind]
    have hpart : wp less (if (bal && part && decide (hint = Hint.increasing)) = true then partialInsertion a b else pure false) s3
        (fun r s' => Keeps le a b s3.d s'.d ∧ (r = true → Sorted le a b s'.d)) := by
      refine wp_ite (fun _ => ?_) (fun _ => wp_ret.mpr ⟨Keeps.refl H _ _ _, fun h => absurd h (by simp)⟩)
      exact partialLoop_spec H 5 (a + 1) s3 (by omega) (by omega) (fun i k i1 i2 i3 => by omega) (kk3.below H hb)
    refine wp_mono hpart ?_
    rintro done s4 ⟨k4, hdone⟩
    have kk4 : Keeps le a b s.d s4.d := kk3.trans H k4
    refine wp_ite (fun c => wp_ret.mpr ⟨hdone c, kk4⟩) (fun _ => ?_)
    rw [wp_bind]
    have hsame : wp less (if a > 0 then (do return !(← lessAt (a - 1) pivot)) else pure false) s4
        (fun r s' => s'.d = s4.d ∧ (r = true → a > 0 ∧ le (s4.d pivot) (s4.d (a - 1)))) := by
      refine wp_ite (fun ha => ?_) (fun _ => wp_ret.mpr ⟨rfl, fun h => absurd h (by simp)⟩)
      rw [wp_bind, wp_less]
      exact wp_ret.mpr ⟨rfl, fun h => ⟨ha, H.no (by simpa using h)⟩⟩
    refine wp_mono hsame ?_
    rintro same s5 ⟨d5, hs⟩
    have kk5 : Keeps le a b s.d s5.d := by rw [d5]; exact kk4
    have b5 := kk5.below H hb
    refine wp_ite (fun c => ?_) (fun _ => ?_)
    · obtain ⟨ha, hle⟩ := hs c
      rw [← d5] at hle
      rw [wp_bind]
      refine wp_mono (wp_and (partitionEqual_spec (part_le H true _) (by omega)) (keeps_of_in H (in_partitionEqual (by omega) hp.1 hp.2) s5)) ?_
      rintro mid s6 ⟨⟨m1, m2, m3, m4, m5⟩, _, k6⟩
      have b6 := k6.below H b5
      have small : ∀ k, a ≤ k → k < mid → le (s6.d k) (s5.d pivot) := by
        intro k x1 x2
        by_cases e : k = a
        · subst e; rw [m3]; exact H.refl _
        · exact m4 k (by omega) x2
      have big : ∀ k, a ≤ k → k < b → le (s5.d pivot) (s6.d k) :=
        fun k x1 x2 => H.trans hle (H.trans (k6.left (a - 1) (by omega)).1 (b6 (a - 1) (by omega) k x1 x2))
      have bm : Below le mid b s6.d := by
        intro k hk m x1 x2
        by_cases e : k < a
        · exact b6 k e m (by omega) x2
        · exact H.trans (small k (by omega) hk) (m5 m x1 x2)
      refine wp_mono (pdqsort_spec H rnd fuel mid b _ _ _ s6 m2 (by omega) bm) ?_
      rintro _ s7 ⟨g1, g2⟩
      refine ⟨fun i k i1 i2 i3 => ?_, kk5.trans H (k6.trans H (g2.widen H (by omega) (Nat.le_refl _)))⟩
      by_cases e : mid ≤ i
      · exact g1 i k e i2 i3
      · refine H.trans (g2.left i (by omega)).2 (H.trans (small i i1 (by omega)) ?_)
        exact (k6.trans H (g2.widen H (by omega) (Nat.le_refl _))).lower (s5.d pivot)
          (fun m x1 x2 => H.trans hle (b5 (a - 1) (by omega) m x1 x2)) k (by omega) i3
    · rw [wp_bind]
      refine wp_mono (wp_and (partition_spec (part_le H false _) (by omega) hp.1 hp.2) (keeps_of_in H (in_partition (by omega) hp.1 hp.2) s5)) ?_
      rintro ⟨mid, already⟩ s6 ⟨⟨m1, m2, m3, m4, m5⟩, _, k6⟩
      dsimp only at m1 m2 m3 m4 m5 ⊢
      have b6 := k6.below H b5
      have sp : Split le a mid b s6.d := ⟨fun k x1 x2 => by rw [m3]; exact m4 k x1 x2, fun k x1 x2 => by rw [m3]; exact m5 k x1 x2⟩
      have bright : ∀ {d : Nat → α}, Split le a mid b d → Below le a b d → Below le (mid + 1) b d := by
        intro d hsp hbe k hk m x1 x2
        by_cases e : k < a
        · exact hbe k e m (by omega) x2
        · by_cases e2 : k = mid
          · subst e2; exact hsp.2 m (by omega) x2
          · exact H.trans (hsp.1 k (by omega) (by omega)) (hsp.2 m (by omega) x2)
      have bleft : ∀ {d : Nat → α}, Below le a b d → Below le a mid d := fun hbe k hk m x1 x2 => hbe k hk m x1 (by omega)
      refine wp_ite (fun _ => ?_) (fun _ => ?_)
      · rw [wp_bind]
        refine wp_mono (pdqsort_spec H rnd fuel a mid _ _ _ s6 m1 (by omega) (bleft b6)) ?_
        rintro _ s7 ⟨g1, g2⟩
        have g2' := g2.widen H (Nat.le_refl a) (show mid ≤ b by omega)
        have sp7 := sp.keepsLeft g2
        refine wp_mono (pdqsort_spec H rnd fuel (mid + 1) b _ _ _ s7 (by omega) (by omega) (bright sp7 (g2'.below H b6))) ?_
        rintro _ s8 ⟨f1, f2⟩
        refine ⟨(sp7.keepsRight H f2).sorted H (fun i k i1 i2 i3 => ?_) f1,
          kk5.trans H (k6.trans H (g2'.trans H (f2.widen H (by omega) (Nat.le_refl _))))⟩
        exact H.trans (f2.left i (by omega)).2 (H.trans (g1 i k i1 i2 i3) (f2.left k (by omega)).1)
      · rw [wp_bind]
        refine wp_mono (pdqsort_spec H rnd fuel (mid + 1) b _ _ _ s6 (by omega) (by omega) (bright sp b6)) ?_
        rintro _ s7 ⟨g1, g2⟩
        have g2' := g2.widen H (show a ≤ mid + 1 by omega) (Nat.le_refl b)
        have sp7 := sp.keepsRight H g2
        refine wp_mono (pdqsort_spec H rnd fuel a mid _ _ _ s7 m1 (by omega) (bleft (g2'.below H b6))) ?_
        rintro _ s8 ⟨f1, f2⟩
        refine ⟨(sp7.keepsLeft f2).sorted H f1 (fun i k i1 i2 i3 => ?_),
          kk5.trans H (k6.trans H (g2'.trans H (f2.widen H (Nat.le_refl _) (by omega))))⟩
        rw [f2.right i (by omega), f2.right k (by omega)]
        exact g1 i k i1 i2 i3

theorem sortSlice_sorts (H : Accord less le) (rnd : Nat → Nat → Nat) (n : Nat) (s : Mem α) :
    Sorted le 0 n ((sortSlice rnd n).run less s).2.d :=
  (pdqsort_spec H rnd (n + 1) 0 n _ _ _ s (Nat.zero_le _) (by omega) (fun k hk => by omega)).1

end Ckube.GoSort
