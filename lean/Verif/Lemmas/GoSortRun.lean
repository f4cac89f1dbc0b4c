import Verif.Lemmas.GoSort

/-! # Running the programs of `Verif.Model.GoSort` -/

namespace Ckube.GoSort

variable {α β γ : Type} {less : α → α → Bool}

theorem run_bind (p : Prog β) (f : β → Prog γ) (s : Mem α) :
    (p >>= f).run less s = (f (p.run less s).1).run less (p.run less s).2 := by
  rw [bind_eq]
  induction p generalizing s with
  | ret b => rfl
  | less i j k ih => simp only [Prog.bind, Prog.run, ih]
  | swap i j k ih => simp only [Prog.bind, Prog.run, ih]

/-- `Q` holds of the outcome and of the memory after the run. -/
def wp (less : α → α → Bool) (p : Prog β) (s : Mem α) (Q : β → Mem α → Prop) : Prop := Q (p.run less s).1 (p.run less s).2

theorem wp_bind {p : Prog β} {f : β → Prog γ} {s : Mem α} {Q : γ → Mem α → Prop} :
    wp less (p >>= f) s Q ↔ wp less p s (fun b s' => wp less (f b) s' Q) := by
  simp only [wp, run_bind]

theorem wp_ret {b : β} {s : Mem α} {Q : β → Mem α → Prop} : wp less (.ret b) s Q ↔ Q b s := Iff.rfl

theorem wp_less {i j : Nat} {s : Mem α} {Q : Bool → Mem α → Prop} :
    wp less (lessAt i j) s Q ↔ Q (less (s.d i) (s.d j)) ⟨s.d, s.tr ++ [(s.d i, s.d j)]⟩ := Iff.rfl

theorem wp_swap {i j : Nat} {s : Mem α} {Q : Unit → Mem α → Prop} :
    wp less (swapAt i j) s Q ↔ Q () ⟨swapped i j s.d, s.tr⟩ := Iff.rfl

theorem wp_mono {p : Prog β} {s : Mem α} {Q Q' : β → Mem α → Prop} (h : wp less p s Q) (hq : ∀ b s', Q b s' → Q' b s') :
    wp less p s Q' := hq _ _ h

theorem wp_and {p : Prog β} {s : Mem α} {Q Q' : β → Mem α → Prop} (h : wp less p s Q) (h' : wp less p s Q') :
    wp less p s (fun b s' => Q b s' ∧ Q' b s') := ⟨h, h'⟩

theorem wp_ite {c : Prop} [Decidable c] {p q : Prog β} {s : Mem α} {Q : β → Mem α → Prop} (h1 : c → wp less p s Q)
    (h2 : ¬c → wp less q s Q) : wp less (if c then p else q) s Q := by
  by_cases h : c
  · rw [if_pos h]; exact h1 h
  · rw [if_neg h]; exact h2 h

/-! ## What every program does -/

/-- From `s` to `s'` only places in `[lo, hi)` were changed, by swaps among them, and the record of comparisons only grew. -/
structure Frame (lo hi : Nat) (s s' : Mem α) : Prop where
  out : ∀ k, ¬(lo ≤ k ∧ k < hi) → s'.d k = s.d k
  vals : ∀ P : α → Prop, (∀ k, lo ≤ k → k < hi → P (s.d k)) → ∀ k, lo ≤ k → k < hi → P (s'.d k)
  grow : ∀ x, x ∈ s.tr → x ∈ s'.tr

theorem Frame.refl (lo hi : Nat) (s : Mem α) : Frame lo hi s s := ⟨fun _ _ => rfl, fun _ h => h, fun _ h => h⟩

theorem Frame.trans {lo hi : Nat} {s s' s'' : Mem α} (h : Frame lo hi s s') (h' : Frame lo hi s' s'') : Frame lo hi s s'' :=
  ⟨fun k hk => (h'.out k hk).trans (h.out k hk), fun P hP => h'.vals P (h.vals P hP), fun x hx => h'.grow x (h.grow x hx)⟩

theorem swapped_vals {i j lo hi : Nat} (hi' : lo ≤ i ∧ i < hi) (hj : lo ≤ j ∧ j < hi) (d : Nat → α) (P : α → Prop)
    (h : ∀ k, lo ≤ k → k < hi → P (d k)) (k : Nat) (h1 : lo ≤ k) (h2 : k < hi) : P (swapped i j d k) := by
  rw [swapped]
  split
  · exact h j hj.1 hj.2
  · split
    · exact h i hi'.1 hi'.2
    · exact h k h1 h2

theorem frame_swap {i j lo hi : Nat} (hi' : lo ≤ i ∧ i < hi) (hj : lo ≤ j ∧ j < hi) (s : Mem α) :
    Frame lo hi s ⟨swapped i j s.d, s.tr⟩ := by
  refine ⟨fun k hk => ?_, fun P h k h1 h2 => swapped_vals hi' hj s.d P h k h1 h2, fun x hx => hx⟩
  show swapped i j s.d k = s.d k
  rw [swapped, if_neg (by omega), if_neg (by omega)]

theorem frame_less (lo hi : Nat) (s : Mem α) (x : α × α) : Frame lo hi s ⟨s.d, s.tr ++ [x]⟩ :=
  ⟨fun _ _ => rfl, fun _ h => h, fun y hy => List.mem_append_left _ hy⟩

theorem frame_of_in {lo hi : Nat} {Q : β → Prop} (p : Prog β) (h : In lo hi p Q) (s : Mem α) :
    wp less p s (fun b s' => Q b ∧ Frame lo hi s s') := by
  induction p generalizing s with
  | ret b => exact ⟨h, Frame.refl _ _ _⟩
  | less i j k ih =>
    obtain ⟨a1, a2, a3⟩ := h
    obtain ⟨b1, b2⟩ := ih _ (a3 (less (s.d i) (s.d j))) ⟨s.d, s.tr ++ [(s.d i, s.d j)]⟩
    exact ⟨b1, (frame_less _ _ _ _).trans b2⟩
  | swap i j k ih =>
    obtain ⟨a1, a2, a3⟩ := h
    obtain ⟨b1, b2⟩ := ih a3 ⟨swapped i j s.d, s.tr⟩
    exact ⟨b1, (frame_swap a1 a2 s).trans b2⟩

/-- Compared elements come from the slice. -/
theorem trace_of_in {lo hi : Nat} {Q : β → Prop} {P : α → Prop} (p : Prog β) (h : In lo hi p Q) (s : Mem α)
    (hd : ∀ k, lo ≤ k → k < hi → P (s.d k)) (ht : ∀ x ∈ s.tr, P x.1 ∧ P x.2) :
    ∀ x ∈ (p.run less s).2.tr, P x.1 ∧ P x.2 := by
  induction p generalizing s with
  | ret b => exact ht
  | less i j k ih =>
    obtain ⟨a1, a2, a3⟩ := h
    refine ih _ (a3 (less (s.d i) (s.d j))) ⟨s.d, s.tr ++ [(s.d i, s.d j)]⟩ hd ?_
    intro x hx
    rcases List.mem_append.mp hx with hx | hx
    · exact ht x hx
    · rw [List.mem_singleton] at hx
      subst hx
      exact ⟨hd i a1.1 a1.2, hd j a2.1 a2.2⟩
  | swap i j k ih =>
    obtain ⟨a1, a2, a3⟩ := h
    exact ih a3 ⟨swapped i j s.d, s.tr⟩ (swapped_vals a1 a2 s.d P hd) ht

theorem swapped_perm {i j n : Nat} (hi : i < n) (hj : j < n) (d : Nat → α) :
    ((List.range n).map (swapped i j d)).Perm ((List.range n).map d) := by
  have hs : swapped i j d = d ∘ swapped i j id := by
    funext k
    simp only [swapped, Function.comp_apply, id_eq]
    split
    · rfl
    · split <;> rfl
  rw [hs, ← List.map_map]
  refine List.Perm.map d ?_
  have inv : ∀ k, swapped i j id (swapped i j id k) = k := by
    intro k
    simp only [swapped, id_eq]
    split <;> split <;> (try split) <;> omega
  have inj : Function.Injective (swapped i j (id : Nat → Nat)) := fun x y h => by
    rw [← inv x, h, inv y]
  refine (List.perm_ext_iff_of_nodup (List.nodup_range.map inj) List.nodup_range).mpr (fun k => ?_)
  have lt : ∀ k, k < n → swapped i j id k < n := by
    intro k hk
    simp only [swapped, id_eq]
    split
    · exact hj
    · split <;> omega
  rw [List.mem_map, List.mem_range]
  refine ⟨?_, fun hk => ⟨swapped i j id k, List.mem_range.mpr (lt k hk), inv k⟩⟩
  rintro ⟨m, hm, rfl⟩
  exact lt m (List.mem_range.mp hm)

theorem perm_of_in {n : Nat} {Q : β → Prop} (p : Prog β) (h : In 0 n p Q) (s : Mem α) :
    ((List.range n).map (p.run less s).2.d).Perm ((List.range n).map s.d) := by
  induction p generalizing s with
  | ret b => exact List.Perm.refl _
  | less i j k ih =>
    obtain ⟨a1, a2, a3⟩ := h
    exact ih _ (a3 (less (s.d i) (s.d j))) ⟨s.d, s.tr ++ [(s.d i, s.d j)]⟩
  | swap i j k ih =>
    obtain ⟨a1, a2, a3⟩ := h
    exact (ih a3 ⟨swapped i j s.d, s.tr⟩).trans (swapped_perm a1.2 a2.2 s.d)

theorem run_grow (p : Prog β) (s : Mem α) : ∀ x ∈ s.tr, x ∈ (p.run less s).2.tr := by
  induction p generalizing s with
  | ret b => exact fun x hx => hx
  | less i j k ih => exact fun x hx => ih _ ⟨s.d, s.tr ++ [(s.d i, s.d j)]⟩ x (List.mem_append_left _ hx)
  | swap i j k ih => exact fun x hx => ih ⟨swapped i j s.d, s.tr⟩ x hx

/-- The run depends on the comparison function only through the answers to the comparisons made. -/
theorem run_congr {less' : α → α → Bool} (p : Prog β) (s : Mem α)
    (h : ∀ x ∈ (p.run less s).2.tr, less' x.1 x.2 = less x.1 x.2) : p.run less' s = p.run less s := by
  induction p generalizing s with
  | ret b => rfl
  | less i j k ih =>
    have h0 : less' (s.d i) (s.d j) = less (s.d i) (s.d j) :=
      h (s.d i, s.d j) (run_grow (k (less (s.d i) (s.d j))) ⟨s.d, s.tr ++ [(s.d i, s.d j)]⟩ _ (by simp))
    rw [Prog.run, Prog.run, h0]
    exact ih _ _ h
  | swap i j k ih =>
    rw [Prog.run, Prog.run]
    exact ih _ h

end Ckube.GoSort
