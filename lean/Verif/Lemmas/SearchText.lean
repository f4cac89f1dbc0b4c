import Verif.Spec.SearchText
import Verif.Lemmas.Search

/-! # Lemmas about white space and the conditions of a search -/

namespace Ckube
open Spec

theorem ws_lead {w : Str} (h : w ∈ whiteSpace) (s : Str) : leadingSpace (w ++ s) = w.length := by
  simp only [whiteSpace, List.mem_cons, List.not_mem_nil, or_false] at h
  rcases h with rfl | rfl | rfl | rfl | rfl | rfl | rfl | rfl | rfl | rfl | rfl | rfl | rfl | rfl | rfl | rfl | rfl | rfl | rfl | rfl
    | rfl | rfl | rfl | rfl | rfl <;> rfl

theorem ws_trail {w : Str} (h : w ∈ whiteSpace) (s : Str) : trailingSpace (w.reverse ++ s) = w.length := by
  simp only [whiteSpace, List.mem_cons, List.not_mem_nil, or_false] at h
  rcases h with rfl | rfl | rfl | rfl | rfl | rfl | rfl | rfl | rfl | rfl | rfl | rfl | rfl | rfl | rfl | rfl | rfl | rfl | rfl | rfl
    | rfl | rfl | rfl | rfl | rfl <;> rfl

theorem ws_ne {w : Str} (h : w ∈ whiteSpace) : w ≠ [] := by
  rintro rfl
  exact absurd h (by decide)

theorem ws_one {b : UInt8} (h : b = 9 ∨ b = 10 ∨ b = 11 ∨ b = 12 ∨ b = 13 ∨ b = 32) : [b] ∈ whiteSpace := by
  rcases h with rfl | rfl | rfl | rfl | rfl | rfl <;> decide

theorem ws_two {b : UInt8} (h : b = 0x85 ∨ b = 0xA0) : [0xC2, b] ∈ whiteSpace := by
  rcases h with rfl | rfl <;> decide

theorem ws_three {b0 b1 b2 : UInt8} (h : (b0 = 0xE1 ∧ b1 = 0x9A ∧ b2 = 0x80)
    ∨ (b0 = 0xE2 ∧ b1 = 0x80 ∧ ((0x80 ≤ b2 ∧ b2 ≤ 0x8A) ∨ b2 = 0xA8 ∨ b2 = 0xA9 ∨ b2 = 0xAF))
    ∨ (b0 = 0xE2 ∧ b1 = 0x81 ∧ b2 = 0x9F) ∨ (b0 = 0xE3 ∧ b1 = 0x80 ∧ b2 = 0x80)) : [b0, b1, b2] ∈ whiteSpace := by
  rcases h with ⟨rfl, rfl, rfl⟩ | ⟨rfl, rfl, h⟩ | ⟨rfl, rfl, rfl⟩ | ⟨rfl, rfl, rfl⟩
  · decide
  · exact forall_byte (P := fun b2 => ((0x80 ≤ b2 ∧ b2 ≤ 0x8A) ∨ b2 = 0xA8 ∨ b2 = 0xA9 ∨ b2 = 0xAF) → [0xE2, 0x80, b2] ∈ whiteSpace)
      (by decide +kernel) b2 h
  · decide
  · decide

/-- What `leadingSpace` finds is a white space character. -/
theorem lead_ws (s : Str) (h : leadingSpace s ≠ 0) : ∃ w ∈ whiteSpace, w <+: s := by
  match s with
  | [] => simp [leadingSpace] at h
  | [b0] =>
    simp only [leadingSpace] at h
    by_cases h1 : b0 = 9 ∨ b0 = 10 ∨ b0 = 11 ∨ b0 = 12 ∨ b0 = 13 ∨ b0 = 32
    · exact ⟨[b0], ws_one h1, by simp⟩
    · rw [if_neg h1] at h; exact absurd rfl h
  | [b0, b1] =>
    simp only [leadingSpace] at h
    by_cases h1 : b0 = 9 ∨ b0 = 10 ∨ b0 = 11 ∨ b0 = 12 ∨ b0 = 13 ∨ b0 = 32
    · exact ⟨[b0], ws_one h1, [b1], rfl⟩
    · rw [if_neg h1] at h
      by_cases h2 : b0 = 0xC2 ∧ (b1 = 0x85 ∨ b1 = 0xA0)
      · obtain ⟨rfl, h2⟩ := h2
        exact ⟨_, ws_two h2, List.prefix_rfl⟩
      · rw [if_neg h2] at h; exact absurd rfl h
  | b0 :: b1 :: b2 :: r =>
    simp only [leadingSpace] at h
    by_cases h1 : b0 = 9 ∨ b0 = 10 ∨ b0 = 11 ∨ b0 = 12 ∨ b0 = 13 ∨ b0 = 32
    · exact ⟨[b0], ws_one h1, b1 :: b2 :: r, rfl⟩
    · rw [if_neg h1] at h
      by_cases h2 : b0 = 0xC2 ∧ (b1 = 0x85 ∨ b1 = 0xA0)
      · obtain ⟨rfl, h2⟩ := h2
        exact ⟨_, ws_two h2, b2 :: r, rfl⟩
      · rw [if_neg h2] at h
        split at h
        next h3 => exact ⟨_, ws_three h3, r, rfl⟩
        next => exact absurd rfl h

theorem lead_solid {x b : Str} (hx : Solid x) (hb : Spaces b) : leadingSpace (x ++ b) = 0 := by
  by_contra hne
  obtain ⟨w, hw, ⟨r, hr⟩⟩ := lead_ws _ hne
  -- `w` is a prefix of `x`, or `x` is a proper prefix of `w`
  rcases List.append_eq_append_iff.mp hr with ⟨c, h1, h2⟩ | ⟨c, h1, h2⟩
  · exact (hx.2 w hw).1 ⟨c, h1.symm⟩
  · by_cases hc : c = []
    · subst hc
      exact (hx.2 w hw).1 ⟨[], by rw [h1]; simp⟩
    · obtain ⟨ws, rfl, hws⟩ := hb
      match ws, hws with
      | [], _ =>
        simp only [List.flatten_nil] at h2
        exact hc (List.append_eq_nil_iff.mp h2.symm).1
      | v :: ws, hws =>
        have hv := hws v (by simp)
        match x, hx, c, hc with
        | [], hx, _, _ => exact hx.1 rfl
        | x0 :: xs, _, c0 :: cs, _ =>
          -- the first byte of `v` is in the middle of `w`
          have hv0 : ∃ vs, v = c0 :: vs := by
            match v, ws_ne hv with
            | v0 :: vs, _ =>
              simp only [List.flatten_cons, List.cons_append] at h2
              exact ⟨vs, by rw [List.cons.injEq] at h2; rw [h2.1]⟩
          obtain ⟨vs, rfl⟩ := hv0
          have k1 : ∀ v ∈ whiteSpace, ∀ b, v.head? = some b → b ∈ ([9, 10, 11, 12, 13, 32, 0xC2, 0xE1, 0xE2, 0xE3] : List UInt8) := by
            intro v hv b hb
            have : v.head?.all (fun b => decide (b ∈ ([9, 10, 11, 12, 13, 32, 0xC2, 0xE1, 0xE2, 0xE3] : List UInt8))) = true :=
              (show ∀ v ∈ whiteSpace, v.head?.all (fun b => decide (b ∈ ([9, 10, 11, 12, 13, 32, 0xC2, 0xE1, 0xE2, 0xE3] : List UInt8))) = true
                by decide +kernel) v hv
            rw [hb] at this
            simpa using this
          have k2 : ∀ w ∈ whiteSpace, ∀ b ∈ w.tail, b ∉ ([9, 10, 11, 12, 13, 32, 0xC2, 0xE1, 0xE2, 0xE3] : List UInt8) := by
            decide +kernel
          refine k2 w hw c0 ?_ (k1 _ hv c0 rfl)
          rw [h1]
          simp

theorem trimLeft_spaces : ∀ (ws : List Str) (n : Nat) (y : Str), (∀ w ∈ ws, w ∈ whiteSpace) → leadingSpace y = 0 → ws.length ≤ n →
    trimLeftFuel n (ws.flatten ++ y) = y
  | [], n, y, _, hy, _ => by
    cases n <;> simp [trimLeftFuel, hy]
  | w :: ws, 0, _, _, _, hn => by simp at hn
  | w :: ws, n + 1, y, hws, hy, hn => by
    have hw := hws w (by simp)
    have hl : leadingSpace (w ++ (ws.flatten ++ y)) = w.length := ws_lead hw _
    have hpos : w.length ≠ 0 := fun h => ws_ne hw (List.length_eq_zero_iff.mp h)
    rw [List.flatten_cons, List.append_assoc, trimLeftFuel, hl, if_neg hpos, List.drop_left]
    exact trimLeft_spaces ws n y (fun v hv => hws v (List.mem_cons_of_mem _ hv)) hy (by simpa using hn)

theorem trimRight_spaces : ∀ (ws : List Str) (n : Nat) (y : Str), (∀ w ∈ ws, w ∈ whiteSpace) → trailingSpace y = 0 → ws.length ≤ n →
    trimRightFuel n ((ws.map List.reverse).flatten ++ y) = y
  | [], n, y, _, hy, _ => by
    cases n <;> simp [trimRightFuel, hy]
  | w :: ws, 0, _, _, _, hn => by simp at hn
  | w :: ws, n + 1, y, hws, hy, hn => by
    have hw := hws w (by simp)
    have hl : trailingSpace (w.reverse ++ ((ws.map List.reverse).flatten ++ y)) = w.length := ws_trail hw _
    have hpos : w.length ≠ 0 := fun h => ws_ne hw (List.length_eq_zero_iff.mp h)
    rw [List.map_cons, List.flatten_cons, List.append_assoc, trimRightFuel, hl, if_neg hpos]
    have : (w.reverse ++ ((ws.map List.reverse).flatten ++ y)).drop w.length = (ws.map List.reverse).flatten ++ y := by
      rw [← List.length_reverse (as := w), List.drop_left]
    rw [this]
    exact trimRight_spaces ws n y (fun v hv => hws v (List.mem_cons_of_mem _ hv)) hy (by simpa using hn)

theorem flatten_length_ge : ∀ (ws : List Str), (∀ w ∈ ws, w ∈ whiteSpace) → ws.length ≤ ws.flatten.length
  | [], _ => by simp
  | w :: ws, h => by
    have := flatten_length_ge ws (fun v hv => h v (List.mem_cons_of_mem _ hv))
    have hpos : w.length ≠ 0 := fun h' => ws_ne (h w (by simp)) (List.length_eq_zero_iff.mp h')
    rw [List.flatten_cons, List.length_append, List.length_cons]
    omega

/-- What `trailingSpace` finds is a white space character. -/
theorem trail_ws (r : Str) (h : trailingSpace r ≠ 0) : ∃ w ∈ whiteSpace, w <:+ r.reverse := by
  have one : ∀ c : UInt8, leadingSpace [c] = 1 → [c] ∈ whiteSpace := by
    intro c hc
    obtain ⟨w, hw, t, ht⟩ := lead_ws [c] (by rw [hc]; simp)
    match w, ws_ne hw with
    | a :: w', _ =>
      simp only [List.cons_append, List.cons.injEq, List.append_eq_nil_iff] at ht
      obtain ⟨rfl, rfl, -⟩ := ht
      exact hw
  have len : ∀ s : Str, leadingSpace s ≠ 0 → ∃ w ∈ whiteSpace, w <+: s ∧ w.length = leadingSpace s := by
    intro s hs
    obtain ⟨w, hw, t, ht⟩ := lead_ws s hs
    exact ⟨w, hw, ⟨t, ht⟩, by rw [← ht, ws_lead hw]⟩
  match r with
  | [] => simp [trailingSpace] at h
  | c :: r =>
    by_cases h1 : leadingSpace [c] = 1
    · exact ⟨[c], one c h1, r.reverse, by simp⟩
    · match r with
      | [] => simp [trailingSpace, h1] at h
      | b :: r =>
        by_cases h2 : leadingSpace [b, c] = 2
        · obtain ⟨w, hw, hp, hl⟩ := len [b, c] (by rw [h2]; simp)
          have : w = [b, c] := hp.eq_of_length (by rw [hl, h2]; rfl)
          exact ⟨[b, c], this ▸ hw, r.reverse, by simp⟩
        · match r with
          | [] => simp [trailingSpace, h1, h2] at h
          | a :: r =>
            by_cases h3 : leadingSpace [a, b, c] = 3
            · obtain ⟨w, hw, hp, hl⟩ := len [a, b, c] (by rw [h3]; simp)
              have : w = [a, b, c] := hp.eq_of_length (by rw [hl, h3]; rfl)
              exact ⟨[a, b, c], this ▸ hw, r.reverse, by simp⟩
            · simp [trailingSpace, h1, h2, h3] at h

/-- `TrimSpace` takes the white space at the ends away, and nothing else. -/
theorem trimSpace_solid {a x b : Str} (ha : Spaces a) (hx : Solid x) (hb : Spaces b) : trimSpace (a ++ x ++ b) = x := by
  have hl := lead_solid hx hb
  obtain ⟨as, rfl, has⟩ := ha
  obtain ⟨bs, rfl, hbs⟩ := hb
  have hr : trailingSpace x.reverse = 0 := by
    by_contra hne
    obtain ⟨w, hw, hsuf⟩ := trail_ws _ hne
    rw [List.reverse_reverse] at hsuf
    exact (hx.2 w hw).2 hsuf
  have e1 : trimLeftFuel (as.flatten ++ x ++ bs.flatten).length (as.flatten ++ x ++ bs.flatten) = x ++ bs.flatten := by
    have := trimLeft_spaces as (as.flatten ++ x ++ bs.flatten).length (x ++ bs.flatten) has hl (by
      have := flatten_length_ge as has
      simp only [List.length_append]
      omega)
    rwa [← List.append_assoc] at this
  have e2 : (x ++ bs.flatten).reverse = ((bs.reverse).map List.reverse).flatten ++ x.reverse := by
    rw [List.reverse_append, List.reverse_flatten, List.map_reverse]
  unfold trimSpace
  simp only [e1, e2]
  rw [trimRight_spaces bs.reverse _ x.reverse (fun w hw => hbs w (List.mem_reverse.mp hw)) hr (by
    have := flatten_length_ge bs hbs
    simp only [List.length_append, List.length_reverse]
    omega), List.reverse_reverse]

/-- Nothing is left of white space. -/
theorem trimSpace_spaces {a : Str} (ha : Spaces a) : trimSpace a = [] := by
  obtain ⟨as, rfl, has⟩ := ha
  have e1 : trimLeftFuel as.flatten.length as.flatten = [] := by
    have := trimLeft_spaces as as.flatten.length [] has rfl (flatten_length_ge as has)
    simpa using this
  unfold trimSpace
  simp only [e1]
  rfl

end Ckube
