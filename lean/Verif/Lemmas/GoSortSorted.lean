import Verif.Lemmas.GoSortRun

/-! # `sort.Slice` of Go 1.19 sorts, whatever is answered on ties -/

namespace Ckube.GoSort

variable {α β γ : Type} {less : α → α → Bool} {le : α → α → Prop}

/-- `less` answers in accordance with the total preorder `le`; on ties it may answer either way. -/
structure Accord (less : α → α → Bool) (le : α → α → Prop) : Prop where
  total : ∀ a b, le a b ∨ le b a
  trans : ∀ {a b c}, le a b → le b c → le a c
  yes : ∀ {a b}, less a b = true → le a b
  no : ∀ {a b}, less a b = false → le b a

theorem Accord.refl (H : Accord less le) (a : α) : le a a := (H.total a a).elim id id

/-- `[a, b)` is sorted. -/
def Sorted (le : α → α → Prop) (a b : Nat) (d : Nat → α) : Prop := ∀ i k, a ≤ i → i < k → k < b → le (d i) (d k)

/-- What stands before `a` is not greater than what stands in `[a, b)`. -/
def Below (le : α → α → Prop) (a b : Nat) (d : Nat → α) : Prop := ∀ k, k < a → ∀ m, a ≤ m → m < b → le (d k) (d m)

/-- Nothing changed from `b` on, ties at most changed places with ties before `a`, and bounds of `[a, b)` are still bounds. -/
structure Keeps (le : α → α → Prop) (a b : Nat) (d d' : Nat → α) : Prop where
  left : ∀ k, k < a → le (d k) (d' k) ∧ le (d' k) (d k)
  right : ∀ k, b ≤ k → d' k = d k
  lower : ∀ y, (∀ k, a ≤ k → k < b → le y (d k)) → ∀ k, a ≤ k → k < b → le y (d' k)
  upper : ∀ y, (∀ k, a ≤ k → k < b → le (d k) y) → ∀ k, a ≤ k → k < b → le (d' k) y

theorem Keeps.refl (H : Accord less le) (a b : Nat) (d : Nat → α) : Keeps le a b d d :=
  ⟨fun k _ => ⟨H.refl _, H.refl _⟩, fun _ _ => rfl, fun _ h => h, fun _ h => h⟩

theorem Keeps.trans (H : Accord less le) {a b : Nat} {d d' d'' : Nat → α} (h : Keeps le a b d d') (h' : Keeps le a b d' d'') :
    Keeps le a b d d'' :=
  ⟨fun k hk => ⟨H.trans (h.left k hk).1 (h'.left k hk).1, H.trans (h'.left k hk).2 (h.left k hk).2⟩,
    fun k hk => (h'.right k hk).trans (h.right k hk), fun y hy => h'.lower y (h.lower y hy), fun y hy => h'.upper y (h.upper y hy)⟩

theorem Keeps.widen (H : Accord less le) {a b a' b' : Nat} {d d' : Nat → α} (h : Keeps le a' b' d d') (ha : a ≤ a') (hb : b' ≤ b) :
    Keeps le a b d d' := by
  refine ⟨fun k hk => h.left k (by omega), fun k hk => h.right k (by omega), fun y hy k h1 h2 => ?_, fun y hy k h1 h2 => ?_⟩
  · by_cases c1 : k < a'
    · exact H.trans (hy k h1 h2) (h.left k c1).1
    · by_cases c2 : k < b'
      · exact h.lower y (fun m m1 m2 => hy m (by omega) (by omega)) k (by omega) c2
      · rw [h.right k (by omega)]
        exact hy k h1 h2
  · by_cases c1 : k < a'
    · exact H.trans (h.left k c1).2 (hy k h1 h2)
    · by_cases c2 : k < b'
      · exact h.upper y (fun m m1 m2 => hy m (by omega) (by omega)) k (by omega) c2
      · rw [h.right k (by omega)]
        exact hy k h1 h2

theorem Keeps.below (H : Accord less le) {a b : Nat} {d d' : Nat → α} (h : Keeps le a b d d') (hb : Below le a b d) : Below le a b d' := by
  intro k hk m h1 h2
  refine h.lower (d' k) (fun m m1 m2 => H.trans (h.left k hk).2 (hb k hk m m1 m2)) m h1 h2

theorem keeps_of_frame (H : Accord less le) {a b : Nat} {s s' : Mem α} (h : Frame a b s s') : Keeps le a b s.d s'.d := by
  refine ⟨fun k hk => ?_, fun k hk => h.out k (by omega), fun y => h.vals (fun v => le y v), fun y => h.vals (fun v => le v y)⟩
  rw [h.out k (by omega)]
  exact ⟨H.refl _, H.refl _⟩

theorem keeps_of_in (H : Accord less le) {a b : Nat} {Q : β → Prop} {p : Prog β} (h : In a b p Q) (s : Mem α) :
    wp less p s (fun r s' => Q r ∧ Keeps le a b s.d s'.d) :=
  wp_mono (frame_of_in p h s) (fun _ _ hr => ⟨hr.1, keeps_of_frame H hr.2⟩)

/-! ## Insertion -/

/-- `[a, b)` is sorted but for the element at `j`, which is not greater than what follows. -/
def Ex (le : α → α → Prop) (a b j : Nat) (d : Nat → α) : Prop :=
  (∀ i k, a ≤ i → i < k → k < b → i ≠ j → k ≠ j → le (d i) (d k)) ∧ ∀ k, j < k → k < b → le (d j) (d k)

theorem sorted_of_ex_first {a b : Nat} {d : Nat → α} (h : Ex le a b a d) : Sorted le a b d := by
  intro i k h1 h2 h3
  by_cases c : i = a
  · subst c; exact h.2 k h2 h3
  · exact h.1 i k h1 h2 h3 c (by omega)

theorem ex_of_sorted {a i : Nat} {d : Nat → α} (h : Sorted le a i d) : Ex le a (i + 1) i d :=
  ⟨fun x k h1 h2 h3 _ c => h x k h1 h2 (by omega), fun k h1 h2 => by omega⟩

theorem ex_stop (H : Accord less le) {a b j : Nat} {d : Nat → α} (h : Ex le a b (j + 1) d) (haj : a ≤ j) (hl : le (d j) (d (j + 1))) :
    Sorted le a b d := by
  intro i k h1 h2 h3
  by_cases c : i = j + 1
  · subst c; exact h.2 k h2 h3
  · by_cases c2 : k = j + 1
    · subst c2
      by_cases c3 : i = j
      · subst c3; exact hl
      · exact H.trans (h.1 i j h1 (by omega) (by omega) (by omega) (by omega)) hl
    · exact h.1 i k h1 h2 h3 c c2

theorem ex_swap {a b j : Nat} {d : Nat → α} (h : Ex le a b (j + 1) d) (haj : a ≤ j) (hj : j + 1 < b) (hl : le (d (j + 1)) (d j)) :
    Ex le a b j (swapped (j + 1) j d) := by
  have e1 : swapped (j + 1) j d (j + 1) = d j := by rw [swapped, if_pos rfl]
  have e2 : swapped (j + 1) j d j = d (j + 1) := by rw [swapped, if_neg (by omega), if_pos rfl]
  have e3 : ∀ k, k ≠ j → k ≠ j + 1 → swapped (j + 1) j d k = d k := fun k k1 k2 => by rw [swapped, if_neg k2, if_neg k1]
  refine ⟨fun i k h1 h2 h3 h4 h5 => ?_, fun k h1 h2 => ?_⟩
  · by_cases c : i = j + 1
    · subst c
      rw [e1, e3 k h5 (by omega)]
      exact h.1 j k haj (by omega) h3 (by omega) (by omega)
    · rw [e3 i h4 c]
      by_cases c2 : k = j + 1
      · subst c2
        rw [e1]
        exact h.1 i j h1 (by omega) (by omega) c (by omega)
      · rw [e3 k h5 c2]
        exact h.1 i k h1 h2 h3 c c2
  · rw [e2]
    by_cases c : k = j + 1
    · subst c; rw [e1]; exact hl
    · rw [e3 k (by omega) c]
      exact h.2 k (by omega) h2

theorem sink_sorts (H : Accord less le) {a b : Nat} : ∀ j (s : Mem α), a ≤ j → j < b → Ex le a b j s.d →
    wp less (sink a j) s (fun _ s' => Sorted le a b s'.d)
  | 0, s, h1, _, h => by
    obtain rfl : a = 0 := by omega
    exact sorted_of_ex_first h
  | j + 1, s, h1, h2, h => by
    rw [sink]
    refine wp_ite (fun c => ?_) (fun c => ?_)
    · rw [wp_bind, wp_less]
      refine wp_ite (fun ans => ?_) (fun ans => ?_)
      · rw [wp_bind, wp_swap]
        exact sink_sorts H j _ (by omega) (by omega) (ex_swap h (by omega) h2 (H.yes ans))
      · have hno : le (s.d j) (s.d (j + 1)) := H.no (by simpa using ans)
        exact wp_ret.mpr (ex_stop H h (by omega) hno)
    · obtain rfl : a = j + 1 := by omega
      exact sorted_of_ex_first h

theorem insertionFrom_sorts (H : Accord less le) {a : Nat} : ∀ k i (s : Mem α), a ≤ i → Sorted le a i s.d →
    wp less (insertionFrom a i k) s (fun _ s' => Sorted le a (i + k) s'.d)
  | 0, _, _, _, h => h
  | k + 1, i, s, h1, h => by
    rw [insertionFrom, wp_bind]
    refine wp_mono (sink_sorts H i s h1 (Nat.lt_succ_self i) (ex_of_sorted h)) (fun _ s' h' => ?_)
    have := insertionFrom_sorts H k (i + 1) s' (by omega) h'
    rwa [show i + 1 + k = i + (k + 1) by omega] at this

theorem insertion_sorts (H : Accord less le) (a b : Nat) (s : Mem α) : wp less (insertion a b) s (fun _ s' => Sorted le a b s'.d) := by
  rw [insertion]
  by_cases h : a + 1 ≤ b
  · have := insertionFrom_sorts H (a := a) (b - (a + 1)) (a + 1) s (by omega) (fun i k h1 h2 h3 => by omega)
    rwa [show a + 1 + (b - (a + 1)) = b by omega] at this
  · rw [show b - (a + 1) = 0 by omega]
    exact fun i k h1 h2 h3 => by omega

/-! ## Heap -/

/-- The children of `p` in the heap of size `hi` that starts at `f` are not greater than `p`. -/
def HeapAt (le : α → α → Prop) (f hi : Nat) (d : Nat → α) (p : Nat) : Prop :=
  ∀ c, c = 2 * p + 1 ∨ c = 2 * p + 2 → c < hi → le (d (f + c)) (d (f + p))

theorem siftDown_heap (H : Accord less le) {f hi lo : Nat} : ∀ fuel root (s : Mem α), lo ≤ root → hi + 1 ≤ root + fuel →
    (∀ p, lo ≤ p → p ≠ root → HeapAt le f hi s.d p) →
    (∀ q, lo ≤ q → (root = 2 * q + 1 ∨ root = 2 * q + 2) → ∀ c, c = 2 * root + 1 ∨ c = 2 * root + 2 → c < hi → le (s.d (f + c)) (s.d (f + q))) →
    wp less (siftDown f hi fuel root) s (fun _ s' => ∀ p, lo ≤ p → HeapAt le f hi s'.d p)
  | 0, root, s, h0, h1, h2, h3 => by
    intro p hp
    by_cases c : p = root
    · intro c' hc' hlt
      omega
    · exact h2 p hp c
  | fuel + 1, root, s, h0, h1, h2, h3 => by
    rw [siftDown]
    refine wp_ite (fun hc => ?_) (fun hc => ?_)
    · intro p hp
      by_cases c : p = root
      · intro c' hc' hlt
        omega
      · exact h2 p hp c
    · rw [wp_bind]
      have choose : wp less (if 2 * root + 1 + 1 < hi then do
          let l ← lessAt (f + (2 * root + 1)) (f + (2 * root + 1) + 1)
          if l then pure (2 * root + 1 + 1) else pure (2 * root + 1)
          else pure (2 * root + 1)) s (fun c s' => s'.d = s.d ∧ (c = 2 * root + 1 ∨ c = 2 * root + 2) ∧ c < hi
            ∧ ∀ c', c' = 2 * root + 1 ∨ c' = 2 * root + 2 → c' < hi → le (s.d (f + c')) (s.d (f + c))) := by
        refine wp_ite (fun hs => ?_) (fun hs => ?_)
        · rw [wp_bind, wp_less]
          refine wp_ite (fun ans => ?_) (fun ans => ?_)
          · refine ⟨rfl, Or.inr rfl, hs, ?_⟩
            rintro c' (rfl | rfl) _
            · exact H.yes ans
            · exact H.refl _
          · refine wp_ret.mpr ⟨rfl, Or.inl rfl, by omega, ?_⟩
            rintro c' (rfl | rfl) _
            · exact H.refl _
            · exact H.no (Bool.eq_false_iff.mpr ans)
        · refine wp_ret.mpr ⟨rfl, Or.inl rfl, by omega, ?_⟩
          rintro c' (rfl | rfl) h'
          · exact H.refl _
          · omega
      refine wp_mono choose ?_
      rintro c s1 ⟨hd, hc1, hc2, hmax⟩
      rw [wp_bind, wp_less, hd]
      refine wp_ite (fun ans => ?_) (fun ans => ?_)
      · have hl : le (s.d (f + c)) (s.d (f + root)) := H.no (by simpa using ans)
        intro p hp
        show HeapAt le f hi s.d p
        by_cases e : p = root
        · subst e
          intro c' hc' hlt
          exact H.trans (hmax c' hc' hlt) hl
        · exact h2 p hp e
      · have hl : le (s.d (f + root)) (s.d (f + c)) := H.yes (by simpa using ans)
        rw [wp_bind, wp_swap]
        have e1 : swapped (f + root) (f + c) s.d (f + root) = s.d (f + c) := by rw [swapped, if_pos rfl]
        have e2 : swapped (f + root) (f + c) s.d (f + c) = s.d (f + root) := by rw [swapped, if_neg (by omega), if_pos rfl]
        have e3 : ∀ k, k ≠ root → k ≠ c → swapped (f + root) (f + c) s.d (f + k) = s.d (f + k) :=
          fun k k1 k2 => by rw [swapped, if_neg (by omega), if_neg (by omega)]
        refine siftDown_heap H fuel c _ (by omega) (by omega) ?_ ?_
        · intro p hp hpc c' hc' hlt
          show le (swapped (f + root) (f + c) s.d (f + c')) (swapped (f + root) (f + c) s.d (f + p))
          by_cases e : p = root
          · subst e
            rw [e1]
            by_cases e' : c' = c
            · subst e'
              rw [e2]; exact hl
            · rw [e3 c' (by omega) e']
              exact hmax c' hc' hlt
          · rw [e3 p e hpc]
            by_cases e' : c' = root
            · subst e'
              rw [e1]
              exact h3 p hp hc' c hc1 hc2
            · rw [e3 c' e' (by omega)]
              exact h2 p hp e c' hc' hlt
        · intro q hq hqc c' hc' hlt
          obtain rfl : q = root := by omega
          show le (swapped (f + q) (f + c) s.d (f + c')) (swapped (f + q) (f + c) s.d (f + q))
          rw [e1, e3 c' (by omega) (by omega)]
          exact h2 c (by omega) (by omega) c' hc' hlt

theorem heapify_heap (H : Accord less le) {f hi : Nat} : ∀ k (s : Mem α), (∀ p, k ≤ p → HeapAt le f hi s.d p) →
    wp less (heapify f hi k) s (fun _ s' => ∀ p, HeapAt le f hi s'.d p)
  | 0, s, h => fun p => h p (Nat.zero_le _)
  | k + 1, s, h => by
    rw [heapify, wp_bind]
    refine wp_mono (siftDown_heap H (lo := k) _ k s (Nat.le_refl _) (by omega) (fun p hp hk => h p (by omega)) (fun q hq hqk => by omega)) ?_
    exact fun _ s' h' => heapify_heap H k s' h'

theorem heap_root (H : Accord less le) {f hi : Nat} {d : Nat → α} (h : ∀ p, HeapAt le f hi d p) :
    ∀ j, j < hi → le (d (f + j)) (d (f + 0)) := by
  intro j
  induction j using Nat.strongRecOn with
  | ind j ih =>
    intro hj
    by_cases c : j = 0
    · subst c; exact H.refl _
    · exact H.trans (h ((j - 1) / 2) j (by omega) hj) (ih ((j - 1) / 2) (by omega) (by omega))

theorem heapPop_sorts (H : Accord less le) {f n : Nat} : ∀ k (s : Mem α), k ≤ n → (∀ p, HeapAt le f k s.d p) →
    Sorted le (f + k) (f + n) s.d → (∀ i m, i < k → k ≤ m → m < n → le (s.d (f + i)) (s.d (f + m))) →
    wp less (heapPop f k) s (fun _ s' => Sorted le f (f + n) s'.d)
  | 0, s, _, _, h, _ => h
  | k + 1, s, hk, h1, h2, h3 => by
    rw [heapPop, wp_bind, wp_swap, wp_bind]
    have e1 : swapped f (f + k) s.d f = s.d (f + k) := by rw [swapped, if_pos rfl]
    have e2 : swapped f (f + k) s.d (f + k) = s.d f := by
      rw [swapped]
      split
      · rename_i c; rw [c]
      · rw [if_pos rfl]
    have e3 : ∀ m, m ≠ 0 → m ≠ k → swapped f (f + k) s.d (f + m) = s.d (f + m) :=
      fun m k1 k2 => by rw [swapped, if_neg (by omega), if_neg (by omega)]
    have hroot : ∀ j, j < k + 1 → le (s.d (f + j)) (s.d f) := fun j hj => heap_root H h1 j hj
    have hs := siftDown_heap (lo := 0) H (f := f) (hi := k) (k + 1) 0 ⟨swapped f (f + k) s.d, s.tr⟩ (Nat.le_refl _) (by omega)
      (fun p _ hp c hc hlt => by
        show le (swapped f (f + k) s.d (f + c)) (swapped f (f + k) s.d (f + p))
        rw [e3 c (by omega) (by omega), e3 p hp (by omega)]
        exact h1 p c hc (by omega))
      (fun q _ hq => by omega)
    have hf := frame_of_in (less := less) _ (in_siftDown f k (k + 1) 0 (by omega)) ⟨swapped f (f + k) s.d, s.tr⟩
    refine wp_mono (wp_and hs hf) ?_
    rintro _ s' ⟨g1, _, g2⟩
    have small : ∀ i, i < k → ∀ m, k ≤ m → m < n → le (s'.d (f + i)) (s'.d (f + m)) := by
      intro i hi m m1 m2
      rw [g2.out (f + m) (by omega)]
      refine g2.vals (fun v => le v (swapped f (f + k) s.d (f + m))) ?_ (f + i) (by omega) (by omega)
      intro x x1 x2
      obtain ⟨i, rfl⟩ : ∃ i, x = f + i := ⟨x - f, by omega⟩
      show le (swapped f (f + k) s.d (f + i)) _
      have old : ∀ j, j < k + 1 → le (s.d (f + j)) (swapped f (f + k) s.d (f + m)) := by
        intro j hj
        by_cases c : m = k
        · subst c
          rw [e2]
          exact hroot j hj
        · rw [e3 m (by omega) c]
          exact h3 j m hj (by omega) m2
      by_cases c : i = 0
      · subst c
        show le (swapped f (f + k) s.d f) _
        rw [e1]
        exact old k (by omega)
      · rw [e3 i c (by omega)]
        exact old i (by omega)
    refine heapPop_sorts H k s' (by omega) (fun p => g1 p (Nat.zero_le _)) ?_ (fun i m hi => small i hi m)
    intro i m h4 h5 h6
    rw [g2.out i (by omega), g2.out m (by omega)]
    obtain ⟨i, rfl⟩ : ∃ j, i = f + j := ⟨i - f, by omega⟩
    obtain ⟨m, rfl⟩ : ∃ j, m = f + j := ⟨m - f, by omega⟩
    show le (swapped f (f + k) s.d (f + i)) (swapped f (f + k) s.d (f + m))
    rw [e3 m (by omega) (by omega)]
    by_cases c : i = k
    · subst c
      rw [e2]
      exact h3 0 m (by omega) (by omega) (by omega)
    · rw [e3 i (by omega) c]
      exact h2 (f + i) (f + m) (by omega) h5 h6

theorem heapSort_sorts (H : Accord less le) {a b : Nat} (h : a ≤ b) (s : Mem α) :
    wp less (heapSort a b) s (fun _ s' => Sorted le a b s'.d) := by
  rw [heapSort, wp_bind]
  refine wp_mono (heapify_heap H _ s (fun p hp c hc hlt => by omega)) (fun _ s' h' => ?_)
  have := heapPop_sorts H (n := b - a) (b - a) s' (Nat.le_refl _) h' (fun i k h1 h2 h3 => by omega) (fun i m h1 h2 h3 => by omega)
  rwa [show a + (b - a) = b by omega] at this

end Ckube.GoSort
