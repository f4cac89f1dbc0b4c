import Verif.Lemmas.GoSortPdq

/-! # `sort.Slice` of Go 1.19 compares every element, and meets the contract `SliceSort` -/

namespace Ckube.GoSort

variable {α β γ : Type} {less : α → α → Bool} {le : α → α → Prop}

/-- `v` took part in a comparison. -/
def Touched (tr : List (α × α)) (v : α) : Prop := ∃ w, (v, w) ∈ tr ∨ (w, v) ∈ tr

/-- What stands before `m` took part in a comparison. -/
def AllT (m : Nat) (s : Mem α) : Prop := ∀ k, k < m → Touched s.tr (s.d k)

theorem Touched.grow {tr tr' : List (α × α)} {v : α} (h : Touched tr v) (hg : ∀ x, x ∈ tr → x ∈ tr') : Touched tr' v := by
  obtain ⟨w, h | h⟩ := h
  · exact ⟨w, Or.inl (hg _ h)⟩
  · exact ⟨w, Or.inr (hg _ h)⟩

theorem AllT.frame {m lo hi : Nat} {s s' : Mem α} (h : AllT m s) (hf : Frame lo hi s s') (hm : hi ≤ m ∨ m ≤ lo) : AllT m s' := by
  intro k hk
  by_cases c : lo ≤ k ∧ k < hi
  · exact hf.vals (Touched s'.tr) (fun x x1 x2 => (h x (by omega)).grow hf.grow) k c.1 c.2
  · rw [hf.out k c]
    exact (h k hk).grow hf.grow

theorem allT_less {i : Nat} {s : Mem α} (hi : 1 ≤ i) (h : i = 1 ∨ AllT i s) : AllT (i + 1) ⟨s.d, s.tr ++ [(s.d i, s.d (i - 1))]⟩ := by
  intro k hk
  by_cases c : k = i
  · subst c
    exact ⟨s.d (k - 1), Or.inl (by simp)⟩
  · by_cases c2 : k = i - 1
    · subst c2
      exact ⟨s.d i, Or.inr (by simp)⟩
    · exact (h.resolve_left (by omega) k (by omega)).grow (fun _ => List.mem_append_left _)

theorem insertionFrom_touches : ∀ k i (s : Mem α), 1 ≤ i → (i = 1 ∨ AllT i s) →
    wp less (insertionFrom 0 i k) s (fun _ s' => i + k = 1 ∨ AllT (i + k) s')
  | 0, _, _, _, h => h
  | k + 1, i, s, h1, h => by
    rw [insertionFrom, wp_bind]
    obtain ⟨j, rfl⟩ : ∃ j, i = j + 1 := ⟨i - 1, by omega⟩
    have one : wp less (sink 0 (j + 1)) s (fun _ s' => AllT (j + 2) s') := by
      rw [sink, if_pos (by omega), wp_bind, wp_less]
      have h0 := allT_less h1 h
      rw [show j + 1 - 1 = j by omega] at h0
      refine wp_mono (frame_of_in (lo := 0) (hi := j + 2) (Q := fun _ => True) _ ?_ _) (fun _ s' g => h0.frame g.2 (by omega))
      refine in_ite (fun _ => ?_) (fun _ => trivial)
      rw [in_bind, in_swap]
      exact ⟨by omega, by omega, in_sink 0 j _ (by omega)⟩
    refine wp_mono one (fun _ s' h' => ?_)
    have := insertionFrom_touches k (j + 2) s' (by omega) (Or.inr h')
    rwa [show j + 2 + k = j + 1 + (k + 1) by omega] at this

theorem insertion_touches {n : Nat} (hn : 2 ≤ n) (s : Mem α) : wp less (insertion 0 n) s (fun _ s' => AllT n s') := by
  rw [insertion]
  refine wp_mono (insertionFrom_touches (n - (0 + 1)) (0 + 1) s (by omega) (Or.inl rfl)) (fun _ s' h => ?_)
  rw [show 0 + 1 + (n - (0 + 1)) = n by omega] at h
  exact h.resolve_left (by omega)

theorem skipSorted_touches {b : Nat} (hb : 2 ≤ b) : ∀ fuel i (s : Mem α), 1 ≤ i → i ≤ b → (i = 1 ∨ AllT i s) → b ≤ i + fuel →
    wp less (skipSorted b fuel i) s (fun r s' => 1 ≤ r ∧ r ≤ b ∧ (r = b → AllT b s') ∧ (r < b → AllT (r + 1) s'))
  | 0, i, s, h1, h2, h3, h4 => by
    refine wp_ret.mpr ⟨h1, h2, fun e => ?_, fun e => by omega⟩
    subst e
    exact h3.resolve_left (by omega)
  | fuel + 1, i, s, h1, h2, h3, h4 => by
    rw [skipSorted]
    refine wp_ite (fun c => ?_) (fun c => ?_)
    · rw [wp_bind, wp_less]
      have h0 := allT_less h1 h3
      refine wp_ite (fun _ => ?_) (fun _ => wp_ret.mpr ⟨h1, h2, fun e => by omega, fun _ => h0⟩)
      exact skipSorted_touches hb fuel (i + 1) _ (by omega) (by omega) (Or.inr h0) (by omega)
    · refine wp_ret.mpr ⟨h1, h2, fun e => ?_, fun e => absurd e c⟩
      subst e
      exact h3.resolve_left (by omega)

theorem partialLoop_touches {b : Nat} (hb : 2 ≤ b) : ∀ steps i (s : Mem α), 1 ≤ i → i ≤ b → (i = 1 ∨ AllT i s) →
    wp less (partialLoop 0 b steps i) s (fun r s' => r = true → AllT b s')
  | 0, _, _, _, _, _ => wp_ret.mpr (fun h => absurd h (by simp))
  | steps + 1, i, s, h1, h2, h3 => by
    rw [partialLoop, wp_bind]
    refine wp_mono (skipSorted_touches hb _ i s h1 h2 h3 (by omega)) ?_
    rintro i' s1 ⟨a1, a2, a3, a4⟩
    refine wp_ite (fun c => wp_ret.mpr (fun _ => a3 c)) (fun c => wp_ite (fun _ => wp_ret.mpr (fun h => absurd h (by simp))) (fun c2 => ?_))
    have t1 := a4 (by omega)
    rw [wp_bind, wp_swap]
    have t2 := t1.frame (frame_swap (lo := 0) (hi := i' + 1) (i := i') (j := i' - 1) (by omega) (by omega) s1) (by omega)
    rw [wp_bind]
    have left : wp less (if i' - 0 ≥ 2 then shiftLeft (i' - 1) else pure ()) ⟨swapped i' (i' - 1) s1.d, s1.tr⟩
        (fun _ s' => AllT (i' + 1) s') := by
      refine wp_ite (fun _ => ?_) (fun _ => wp_ret.mpr t2)
      exact wp_mono (frame_of_in _ (in_shiftLeft (b := i' + 1) (i' - 1) (by omega)) _) (fun _ s' g => t2.frame g.2 (by omega))
    refine wp_mono left (fun _ s2 t3 => ?_)
    rw [wp_bind]
    have right : wp less (if b - i' ≥ 2 then shiftRight b (b - (i' + 1)) (i' + 1) else pure ()) s2 (fun _ s' => AllT i' s') := by
      have t4 : AllT i' s2 := fun k hk => t3 k (by omega)
      refine wp_ite (fun _ => ?_) (fun _ => wp_ret.mpr t4)
      exact wp_mono (frame_of_in _ (in_shiftRight (a := i') (b := b) _ _ (by omega)) s2) (fun _ s' g => t4.frame g.2 (by omega))
    exact wp_mono right (fun _ s3 t5 => partialLoop_touches hb steps i' s3 a1 a2 (Or.inr t5))

theorem part_touch (eq : Bool) (p : α) :
    Part less eq p (fun tr v => (v, p) ∈ tr ∨ (p, v) ∈ tr) (fun tr v => (v, p) ∈ tr ∨ (p, v) ∈ tr) := by
  have h : ∀ (tr : List (α × α)) v, (v, p) ∈ tr ++ [pair eq p v] ∨ (p, v) ∈ tr ++ [pair eq p v] := by
    intro tr v
    cases eq
    · exact Or.inl (by simp [pair])
    · exact Or.inr (by simp [pair])
  exact ⟨fun tr v _ => h tr v, fun tr v _ => h tr v, fun _ _ _ g h => h.imp (g _) (g _), fun _ _ _ g h => h.imp (g _) (g _)⟩

theorem partition_touches {n pivot : Nat} (hn : 2 ≤ n) (hp : pivot < n) (s : Mem α) :
    wp less (partition 0 n pivot) s (fun _ s' => AllT n s') := by
  refine wp_mono (partition_spec (part_touch false _) (by omega) (Nat.zero_le _) hp) ?_
  rintro ⟨mid, x⟩ s' ⟨h1, h2, h3, h4, h5⟩
  dsimp only at h1 h2 h3 h4 h5
  have other : ∀ k, k < n → k ≠ mid → (s'.d k, s.d pivot) ∈ s'.tr ∨ (s.d pivot, s'.d k) ∈ s'.tr := by
    intro k hk hne
    rcases Nat.lt_or_gt_of_ne hne with c | c
    · exact h4 k (Nat.zero_le _) c
    · exact h5 k c hk
  intro k hk
  by_cases c : k = mid
  · subst c
    rw [h3]
    by_cases e : k = 0
    · exact ⟨_, (other 1 (by omega) (by omega)).symm⟩
    · exact ⟨_, (other 0 (by omega) (by omega)).symm⟩
  · exact ⟨_, other k hk c⟩

theorem sortSlice_touches (rnd : Nat → Nat → Nat) {n : Nat} (hn : 2 ≤ n) (s : Mem α) :
    AllT n ((sortSlice rnd n).run less s).2 := by
  show wp less (sortSlice rnd n) s (fun _ s' => AllT n s')
  rw [sortSlice, if_neg (by omega), pdqsort]
  refine wp_ite (fun _ => insertion_touches hn s) (fun hl => wp_ite (fun c => by omega) (fun _ => ?_))
  rw [wp_bind]
  refine wp_mono (Q := fun _ _ => True) trivial (fun _ s1 _ => ?_)
  rw [wp_bind]
  refine wp_mono (frame_of_in _ (in_choosePivot (a := 0) (b := n) (by omega)) s1) ?_
  rintro ⟨pivot, hint⟩ s2 ⟨hp, _⟩
  dsimp only at hp ⊢
  rw [wp_bind]
  have hrev : wp less (if hint = Hint.decreasing then do
      reverseRange 0 n
      pure ((n - 1) - (pivot - 0), Hint.increasing)
      else pure (pivot, hint)) s2 (fun r s' => r.1 < n) := by
    refine wp_ite (fun _ => ?_) (fun _ => wp_ret.mpr hp.2)
    rw [wp_bind]
    refine wp_mono (Q := fun _ _ => True) trivial (fun _ s' _ => wp_ret.mpr ?_)
    dsimp only; omega
  refine wp_mono hrev ?_
  rintro ⟨pivot, hint⟩ s3 hp
  dsimp only at hp ⊢
  rw [wp_bind]
  have hpart : wp less (if (true && true && decide (hint = Hint.increasing)) = true then partialInsertion 0 n else pure false) s3
      (fun r s' => r = true → AllT n s') :=
    wp_ite (fun _ => partialLoop_touches hn 5 1 s3 (by omega) (by omega) (Or.inl rfl)) (fun _ => wp_ret.mpr (fun h => absurd h (by simp)))
  refine wp_mono hpart (fun done s4 hd => ?_)
  refine wp_ite (fun c => wp_ret.mpr (hd c)) (fun _ => ?_)
  rw [wp_bind, if_neg (by omega)]
  refine wp_ret.mpr (wp_ite (fun c => absurd c (by simp)) (fun _ => ?_))
  rw [wp_bind]
  refine wp_mono (wp_and (partition_touches hn hp s4) (frame_of_in _ (in_partition (by omega) (Nat.zero_le _) hp) s4)) ?_
  rintro ⟨mid, already⟩ s5 ⟨t5, hm, _⟩
  dsimp only at hm ⊢
  refine wp_ite (fun _ => ?_) (fun _ => ?_)
  · rw [wp_bind]
    refine wp_mono (frame_of_in _ (in_pdqsort rnd (n := n) n 0 mid _ _ _ (by omega) (by omega)) s5) (fun _ s6 g => ?_)
    exact wp_mono (frame_of_in _ (in_pdqsort rnd (n := n) n (mid + 1) n _ _ _ (by omega) (by omega)) s6)
      (fun _ s7 g' => (t5.frame g.2 (by omega)).frame g'.2 (by omega))
  · rw [wp_bind]
    refine wp_mono (frame_of_in _ (in_pdqsort rnd (n := n) n (mid + 1) n _ _ _ (by omega) (by omega)) s5) (fun _ s6 g => ?_)
    exact wp_mono (frame_of_in _ (in_pdqsort rnd (n := n) n 0 mid _ _ _ (by omega) (by omega)) s6)
      (fun _ s7 g' => (t5.frame g.2 (by omega)).frame g'.2 (by omega))

/-! ## The contract -/

theorem range_map_getD [Inhabited α] (l : List α) : (List.range l.length).map (fun i => l.getD i default) = l := by
  refine List.ext_getElem (by simp) (fun i h1 h2 => ?_)
  simp [h2]

theorem goSlice_perm [Inhabited α] (rnd : Nat → Nat → Nat) (less : α → α → Bool) (l : List α) : (goSlice rnd less l).result.Perm l := by
  have := perm_of_in (less := less) _ (in_sortSlice rnd l.length) { d := fun i => l.getD i default }
  rwa [range_map_getD] at this

theorem goSlice_mem [Inhabited α] (rnd : Nat → Nat → Nat) (less : α → α → Bool) (l : List α) (a b : α)
    (h : (a, b) ∈ (goSlice rnd less l).trace) : a ∈ l ∧ b ∈ l := by
  refine trace_of_in (less := less) (P := fun v => v ∈ l) _ (in_sortSlice rnd l.length) { d := fun i => l.getD i default } ?_ ?_ (a, b) h
  · intro k _ hk
    simp [hk]
  · intro x hx
    simp at hx

theorem goSlice_touched [Inhabited α] (rnd : Nat → Nat → Nat) (less : α → α → Bool) (l : List α) (hl : 2 ≤ l.length) (a : α) (ha : a ∈ l) :
    ∃ b, (a, b) ∈ (goSlice rnd less l).trace ∨ (b, a) ∈ (goSlice rnd less l).trace := by
  obtain ⟨k, hk, rfl⟩ := List.mem_map.mp ((goSlice_perm rnd less l).symm.subset ha)
  exact sortSlice_touches rnd hl _ k (List.mem_range.mp hk)

theorem goSlice_sorted [Inhabited α] (rnd : Nat → Nat → Nat) (less : α → α → Bool) (l : List α) (le : α → α → Prop)
    (total : ∀ a b, le a b ∨ le b a) (trans : ∀ a b c, le a b → le b c → le a c)
    (h : ∀ a b, (a, b) ∈ (goSlice rnd less l).trace → (less a b = true → le a b) ∧ (less a b = false → le b a)) :
    (goSlice rnd less l).result.Pairwise le := by
  classical
  let tr := (goSlice rnd less l).trace
  let less' : α → α → Bool := fun a b => if (a, b) ∈ tr then less a b else decide (le a b)
  have H : Accord less' le := by
    refine ⟨total, fun {a b c} => trans a b c, fun {a b} hab => ?_, fun {a b} hab => ?_⟩
    · by_cases c : (a, b) ∈ tr
      · simp only [less', if_pos c] at hab
        exact (h a b c).1 hab
      · simp only [less', if_neg c] at hab
        simpa using hab
    · by_cases c : (a, b) ∈ tr
      · simp only [less', if_pos c] at hab
        exact (h a b c).2 hab
      · simp only [less', if_neg c] at hab
        exact (total a b).resolve_left (by simpa using hab)
  have hrun : (sortSlice rnd l.length).run less' { d := fun i => l.getD i default } = (sortSlice rnd l.length).run less { d := fun i => l.getD i default } := by
    refine run_congr _ _ (fun x hx => ?_)
    have : (x.1, x.2) ∈ tr := hx
    simp only [less', if_pos this]
  have hs := sortSlice_sorts H rnd l.length { d := fun i => l.getD i default }
  rw [hrun] at hs
  show ((List.range l.length).map _).Pairwise le
  rw [List.pairwise_map]
  refine List.Pairwise.imp_of_mem ?_ List.pairwise_lt_range
  intro i k _ hk hik
  exact hs i k (Nat.zero_le _) hik (List.mem_range.mp hk)

end Ckube.GoSort
