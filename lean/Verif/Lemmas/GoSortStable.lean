import Verif.Lemmas.GoSortShort
import Verif.Lemmas.Sort

/-! # Where the sort of Go 1.19 and `sortBy` give the same list -/

namespace Ckube.GoSort

variable {α : Type} {key : α → Str}

/-- The order by a string. -/
def byKey (key : α → Str) (a b : α) : Bool := strLe (key a) (key b)

/-- The comparison by a string, as Go's `Less` functions write it. -/
def lessKey (key : α → Str) (a b : α) : Bool := strLt (key a) (key b)

/-- A list sorted by a string is determined by the order among the elements with equal strings. -/
theorem eq_of_classes : ∀ (l m : List α), l.Pairwise (fun a b => byKey key a b = true) → m.Pairwise (fun a b => byKey key a b = true) →
    (∀ k, l.filter (fun a => key a == k) = m.filter (fun a => key a == k)) → l = m
  | [], [], _, _, _ => rfl
  | [], b :: m, _, _, h => by
    have := h (key b)
    simp at this
  | a :: l, [], _, _, h => by
    have := h (key a)
    simp at this
  | a :: l, b :: m, hl, hm, h => by
    rw [List.pairwise_cons] at hl hm
    have ha : a ∈ b :: m := List.mem_of_mem_filter (p := fun x => key x == key a) (by rw [← h (key a)]; simp)
    have hb : b ∈ a :: l := List.mem_of_mem_filter (p := fun x => key x == key b) (by rw [h (key b)]; simp)
    have h1 : strLe (key b) (key a) = true := by
      rcases List.mem_cons.mp ha with h' | h'
      · rw [h']; exact strLe_refl _
      · exact hm.1 a h'
    have h2 : strLe (key a) (key b) = true := by
      rcases List.mem_cons.mp hb with h' | h'
      · rw [h']; exact strLe_refl _
      · exact hl.1 b h'
    have hk : key a = key b := strLe_antisymm _ _ h2 h1
    have hab : a = b := by
      have := h (key a)
      rw [List.filter_cons_of_pos (by simp), List.filter_cons_of_pos (by simp [hk])] at this
      exact (List.cons.inj this).1
    subst hab
    rw [eq_of_classes l m hl.2 hm.2 (fun k => ?_)]
    have := h k
    by_cases hkk : (key a == k) = true
    · rw [List.filter_cons_of_pos (by simpa using hkk), List.filter_cons_of_pos (by simpa using hkk)] at this
      exact (List.cons.inj this).2
    · rwa [List.filter_cons_of_neg (by simpa using hkk), List.filter_cons_of_neg (by simpa using hkk)] at this

theorem insertBy_filter (a : α) (k : Str) : ∀ l, (insertBy (byKey key) a l).filter (fun x => key x == k) = (a :: l).filter (fun x => key x == k)
  | [] => rfl
  | b :: l => by
    simp only [insertBy]
    split
    · rfl
    · rename_i hn
      rw [List.filter_cons, insertBy_filter a k l]
      by_cases ha : (key a == k) = true
      · have hb : ¬ (key b == k) = true := by
          intro hb
          apply hn
          rw [beq_iff_eq] at ha hb
          rw [byKey, ha, hb]
          exact strLe_refl _
        rw [if_neg hb, List.filter_cons, List.filter_cons, if_pos ha, if_pos ha, List.filter_cons, if_neg hb]
      · rw [List.filter_cons, if_neg ha, List.filter_cons (x := a), if_neg ha, List.filter_cons]

theorem sortBy_filter (k : Str) : ∀ l : List α, (sortBy (byKey key) l).filter (fun x => key x == k) = l.filter (fun x => key x == k)
  | [] => rfl
  | a :: l => by
    rw [sortBy, insertBy_filter, List.filter_cons, sortBy_filter k l, List.filter_cons]

theorem sinkIn_filter (x : α) (k : Str) : ∀ r, (sinkIn (lessKey key) x r).1.filter (fun x => key x == k) = (x :: r).filter (fun x => key x == k)
  | [] => rfl
  | y :: r => by
    simp only [sinkIn]
    split
    · rename_i hl
      dsimp only
      rw [List.filter_cons, sinkIn_filter x k r]
      by_cases ha : (key x == k) = true
      · have hb : ¬ (key y == k) = true := by
          intro hb
          rw [beq_iff_eq] at ha hb
          rw [lessKey, ha, hb, strLt_irrefl] at hl
          simp at hl
        rw [if_neg hb, List.filter_cons, List.filter_cons, if_pos ha, if_pos ha, List.filter_cons, if_neg hb]
      · rw [List.filter_cons, if_neg ha, List.filter_cons (x := x), if_neg ha, List.filter_cons]
    · rfl

theorem insertion_filter (k : Str) : ∀ l pre : List α, (Ckube.insertion (lessKey key) pre l).1.filter (fun x => key x == k)
    = (l.reverse ++ pre).filter (fun x => key x == k)
  | [], pre => rfl
  | x :: l, pre => by
    rw [Ckube.insertion]
    dsimp only
    rw [insertion_filter k l, List.filter_append, sinkIn_filter, ← List.filter_append]
    simp

theorem byKey_total (a b : α) : byKey key a b = true ∨ byKey key b a = true := strLe_total _ _
theorem byKey_trans (a b c : α) : byKey key a b = true → byKey key b c = true → byKey key a c = true := strLe_trans _ _ _

theorem lessKey_accord (a b : α) : (lessKey key a b = true → byKey key a b = true) ∧ (lessKey key a b = false → byKey key b a = true) := by
  refine ⟨fun h => strLe_of_strLt h, fun h => ?_⟩
  simpa [lessKey, byKey, strLt] using h

theorem goSlice_key_sorted [Inhabited α] (rnd : Nat → Nat → Nat) (l : List α) :
    (goSlice rnd (lessKey key) l).result.Pairwise (fun a b => byKey key a b = true) :=
  goSlice_sorted rnd _ l _ byKey_total byKey_trans (fun a b _ => lessKey_accord a b)

theorem goSlice_key_short [Inhabited α] (rnd : Nat → Nat → Nat) (l : List α) (hl : l.length ≤ 12) :
    (goSlice rnd (lessKey key) l).result = sortBy (byKey key) l := by
  refine eq_of_classes _ _ (goSlice_key_sorted rnd l) (sortBy_sorted byKey_total byKey_trans l) (fun k => ?_)
  rw [sortBy_filter, goSlice_insertion rnd _ l hl]
  dsimp only
  rw [List.filter_reverse, insertion_filter, List.append_nil, List.filter_reverse, List.reverse_reverse]

theorem goSlice_key_inj [Inhabited α] (rnd : Nat → Nat → Nat) (l : List α) (hinj : ∀ a ∈ l, ∀ b ∈ l, key a = key b → a = b) :
    (goSlice rnd (lessKey key) l).result = sortBy (byKey key) l := by
  refine List.Perm.eq_of_pairwise (le := fun x y => byKey key x y = true) ?_ (goSlice_key_sorted rnd l)
    (sortBy_sorted byKey_total byKey_trans l) ((goSlice_perm rnd _ l).trans (sortBy_perm _ l).symm)
  intro a b ha hb h1 h2
  exact hinj a ((goSlice_perm rnd _ l).mem_iff.mp ha) b ((mem_sortBy _).mp hb) (strLe_antisymm _ _ h1 h2)

end Ckube.GoSort
