import Verif.Lemmas.GoSortTouch
import Verif.Lemmas.SliceSort

/-! # Up to 12 elements, `sort.Slice` of Go 1.19 is insertion sort -/

namespace Ckube.GoSort

variable {α : Type} {less : α → α → Bool}

/-- The slice begins with the elements of the list, in reverse. -/
def Rev (d : Nat → α) : List α → Prop
  | [] => True
  | y :: r => d r.length = y ∧ Rev d r

theorem Rev.congr {d d' : Nat → α} : ∀ {r : List α}, Rev d r → (∀ k, k < r.length → d' k = d k) → Rev d' r
  | [], _, _ => trivial
  | y :: r, h, hk => ⟨by rw [hk _ (by simp)]; exact h.1, Rev.congr h.2 (fun k hr => hk k (by simp; omega))⟩

theorem rev_map {d : Nat → α} : ∀ {r : List α}, Rev d r → (List.range r.length).map d = r.reverse
  | [], _ => rfl
  | y :: r, h => by
    rw [List.length_cons, List.range_succ, List.map_append, rev_map h.2, List.reverse_cons, List.map_singleton, h.1]

theorem sinkIn_length (x : α) (r : List α) : (sinkIn less x r).1.length = r.length + 1 := (sinkIn_perm x r).length_eq

theorem sink_sinkIn : ∀ (r : List α) (x : α) (s : Mem α), Rev s.d r → s.d r.length = x →
    wp less (sink 0 r.length) s (fun _ s' => Rev s'.d (sinkIn less x r).1 ∧ s'.tr = s.tr ++ (sinkIn less x r).2
      ∧ ∀ k, r.length < k → s'.d k = s.d k)
  | [], x, s, _, hx => wp_ret.mpr ⟨⟨hx, trivial⟩, by simp [sinkIn], fun _ _ => rfl⟩
  | y :: r, x, s, hr, hx => by
    rw [List.length_cons] at hx ⊢
    rw [sink, if_pos (by omega), wp_bind, wp_less, hx, hr.1]
    refine wp_ite (fun ans => ?_) (fun ans => ?_)
    · rw [wp_bind, wp_swap]
      have e1 : swapped (r.length + 1) r.length s.d r.length = x := by rw [swapped, if_neg (by omega), if_pos rfl, hx]
      have e2 : swapped (r.length + 1) r.length s.d (r.length + 1) = y := by rw [swapped, if_pos rfl, hr.1]
      have e3 : ∀ k, k ≠ r.length → k ≠ r.length + 1 → swapped (r.length + 1) r.length s.d k = s.d k :=
        fun k k1 k2 => by rw [swapped, if_neg k2, if_neg k1]
      refine wp_mono (sink_sinkIn r x _ (hr.2.congr (fun k hk => e3 k (by omega) (by omega))) e1) ?_
      rintro _ s' ⟨g1, g2, g3⟩
      rw [sinkIn, if_pos ans]
      refine ⟨⟨?_, g1⟩, ?_, fun k hk => ?_⟩
      · rw [sinkIn_length, g3 _ (by omega)]
        exact e2
      · rw [g2]
        simp
      · rw [g3 k (by omega)]
        exact e3 k (by omega) (by omega)
    · refine wp_ret.mpr ?_
      rw [sinkIn, if_neg ans]
      exact ⟨⟨hx, hr⟩, rfl, fun _ _ => rfl⟩

theorem insertionFrom_insertion : ∀ (l pre : List α) (s : Mem α), Rev s.d pre → (∀ k (h : k < l.length), s.d (pre.length + k) = l[k]) →
    wp less (insertionFrom 0 pre.length l.length) s (fun _ s' => Rev s'.d (Ckube.insertion less pre l).1
      ∧ s'.tr = s.tr ++ (Ckube.insertion less pre l).2)
  | [], pre, s, h, _ => wp_ret.mpr ⟨h, by simp [Ckube.insertion]⟩
  | x :: l, pre, s, h, hl => by
    rw [List.length_cons, insertionFrom, wp_bind]
    refine wp_mono (sink_sinkIn pre x s h (hl 0 (by simp))) ?_
    rintro _ s1 ⟨a1, a2, a3⟩
    have := insertionFrom_insertion l (sinkIn less x pre).1 s1 a1 (fun k hk => by
      rw [sinkIn_length, a3 _ (by omega), show pre.length + 1 + k = pre.length + (k + 1) by omega, hl (k + 1) (by simp; omega)]
      rfl)
    rw [sinkIn_length] at this
    refine wp_mono this ?_
    rintro _ s2 ⟨b1, b2⟩
    rw [Ckube.insertion]
    exact ⟨b1, by rw [b2, a2, List.append_assoc]⟩

theorem insertion_length : ∀ (l pre : List α), (Ckube.insertion less pre l).1.length = pre.length + l.length :=
  fun l pre => by simpa using (insertion_perm (less := less) l pre).length_eq

theorem goSlice_insertion [Inhabited α] (rnd : Nat → Nat → Nat) (less : α → α → Bool) (l : List α) (hl : l.length ≤ 12) :
    goSlice rnd less l = ⟨(Ckube.insertion less [] l).1.reverse, (Ckube.insertion less [] l).2⟩ := by
  have key : ∀ l : List α, l.length ≤ 12 → wp less (sortSlice rnd l.length) { d := fun i => l.getD i default }
      (fun _ s' => Rev s'.d (Ckube.insertion less [] l).1 ∧ s'.tr = (Ckube.insertion less [] l).2) := by
    intro l hl
    rw [sortSlice, pdqsort, if_pos (by omega), insertion]
    cases l with
    | nil => exact wp_ret.mpr ⟨trivial, rfl⟩
    | cons x l =>
      have := insertionFrom_insertion (less := less) l [x] { d := fun i => (x :: l).getD i default } ⟨rfl, trivial⟩ (fun k hk => by
        rw [List.length_singleton, Nat.add_comm]
        simp [hk])
      rw [show (x :: l).length - (0 + 1) = l.length by simp]
      refine wp_mono this ?_
      rintro _ s' ⟨h1, h2⟩
      rw [Ckube.insertion]
      exact ⟨h1, by rw [h2]; rfl⟩
  obtain ⟨h1, h2⟩ := key l hl
  have hlen : l.length = (Ckube.insertion less [] l).1.length := by rw [insertion_length]; simp
  show SortRun.mk _ _ = SortRun.mk _ _
  rw [h2]
  congr 1
  have := rev_map h1
  rwa [← hlen] at this

instance : Inhabited SObj := ⟨⟨[], {}⟩⟩

theorem goSlice_short (rnd : Nat → Nat → Nat) (less : SObj → SObj → Bool) (l : List SObj) (hl : l.length ≤ 12) :
    goSlice rnd less l = insertionSort.run less l := goSlice_insertion rnd less l hl

end Ckube.GoSort
