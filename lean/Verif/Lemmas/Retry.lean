import Verif.Spec.Retry
import Verif.Lemmas.DeleteBody

/-! # Lemmas about requests that are sent again -/

namespace Ckube

open Spec

theorem atoi_iff {t : Str} {s : Int} : atoi t = some s ↔ SaysSeconds t s := by
  unfold SaysSeconds
  by_cases hp : ∃ r, t = 43 :: r
  · obtain ⟨r, rfl⟩ := hp
    have hno : ¬ MeansInt64 (43 :: r) s := by
      rintro ⟨-, -, ⟨h, -⟩ | ⟨ds, h, -⟩⟩
      · have := h.2 43 List.mem_cons_self
        exact absurd this (by decide)
      · simp at h
    simp only [atoi, hno, false_or]
    constructor
    · intro h
      split at h
      · cases h
      · rename_i hh
        refine ⟨r, rfl, ?_, parseInt64_means.mp h⟩
        obtain ⟨-, -, ⟨h1, -⟩ | ⟨ds, h1, -⟩⟩ := parseInt64_means.mp h
        · exact h1.2
        · rw [h1] at hh
          simp at hh
    · rintro ⟨ds, h1, h2, h3⟩
      rw [List.cons.injEq] at h1
      obtain ⟨-, rfl⟩ := h1
      rw [if_neg, parseInt64_means.mpr h3]
      intro hh
      cases r with
      | nil => simp at hh
      | cons a r =>
        simp only [List.head?_cons, Option.some.injEq] at hh
        have := h2 a List.mem_cons_self
        rw [hh] at this
        exact absurd this (by decide)
  · have e : atoi t = parseInt64 t := by
      unfold atoi
      split
      · exact absurd ⟨_, rfl⟩ hp
      · rfl
    rw [e, parseInt64_means]
    constructor
    · exact Or.inl
    · rintro (h | ⟨ds, rfl, -⟩)
      · exact h
      · exact absurd ⟨_, rfl⟩ hp

theorem checkWait_iff {r : Reply} {s : Int} : checkWait r = some s ↔ PutsOff r s := by
  unfold checkWait PutsOff
  rw [← atoi_iff]
  by_cases h1 : r.code = 429 ∨ 500 ≤ r.code
  · rw [if_pos h1]
    by_cases h2 : r.retryAfter = []
    · rw [if_pos h2, h2]
      simp [atoi, parseInt64]
    · rw [if_neg h2]
      simp [h1]
  · rw [if_neg h1]
    simp [h1]

theorem sleepFor_small {s : Int} (h0 : 0 ≤ s) (h : s ≤ 9223372036) : (sleepFor s : Int) = s * 1000000000 := by
  unfold sleepFor wrap64
  rw [Int.emod_eq_of_lt (by omega) (by omega)]
  omega

theorem sleepFor_neg {s : Int} (h0 : s ≤ 0) (h : -9223372036 ≤ s) : sleepFor s = 0 := by
  unfold sleepFor wrap64
  rw [Int.emod_eq_of_lt (by omega) (by omega)]
  omega

theorem sleepFor_ge {s : Int} (h : s ≤ 9223372036) : s * 1000000000 ≤ sleepFor s := by
  by_cases h0 : 0 ≤ s
  · exact le_of_eq (sleepFor_small h0 h).symm
  · have := Int.natCast_nonneg (sleepFor s)
    omega

/-- What an attempt that is followed by another one was. -/
theorem nextOf_again {get : Bool} {g : Got} {r : Reply} {s : Int} (h : nextOf get g = .again r s) :
    (g = .reply r ∧ PutsOff r s) ∨ (get = true ∧ g = .reset ∧ r = resetReply ∧ s = 1) := by
  cases g with
  | reply r' =>
    simp only [nextOf] at h
    cases hc : checkWait r' with
    | none => rw [hc] at h; cases h
    | some s' =>
      rw [hc] at h
      cases h
      exact Or.inl ⟨rfl, checkWait_iff.mp hc⟩
  | reset =>
    simp only [nextOf] at h
    split at h
    · cases h
      exact Or.inr ⟨by assumption, rfl, rfl, rfl⟩
    · cases h
  | error => cases h

theorem nextOf_stop {get : Bool} {g : Got} {r : Reply} (h : nextOf get g = .stop r) : g = .reply r ∧ ∀ s, ¬ PutsOff r s := by
  cases g with
  | reply r' =>
    simp only [nextOf] at h
    cases hc : checkWait r' with
    | none =>
      rw [hc] at h
      cases h
      refine ⟨rfl, fun s hs => ?_⟩
      rw [checkWait_iff.mpr hs] at hc
      cases hc
    | some s' => rw [hc] at h; cases h
  | reset =>
    simp only [nextOf] at h
    split at h <;> cases h
  | error => cases h

theorem nextOf_fail {get : Bool} {g : Got} (h : nextOf get g = .fail) : g = .error ∨ (g = .reset ∧ get = false) := by
  cases g with
  | reply r' =>
    simp only [nextOf] at h
    split at h <;> cases h
  | reset =>
    simp only [nextOf] at h
    split at h
    · cases h
    · rename_i hg
      exact Or.inr ⟨rfl, by simpa using hg⟩
  | error => exact Or.inl rfl

variable {api : Nat → Nat → Got × Nat} {wait : Nat → Nat → Option Nat} {q : RawReq} {dl : Nat}

/-- Everything about a run of the loop: how the attempts follow each other, what the outcome is, and how many attempts there are. -/
theorem resend_story : ∀ (left n now : Nat),
    (resend api wait q dl left n now).tries.length ≤ left + 1
    ∧ (∀ a ∈ (resend api wait q dl left n now).tries, now ≤ a.time ∧ a.time < dl ∧ ∃ m, (a.got, a.took) = api m a.time)
    ∧ (resend api wait q dl left n now).tries.IsChain (fun a b => MayRepeat q.get a b.time)
    ∧ (n ≠ 0 → q.hasBody = true → (resend api wait q dl left n now).tries = [])
    ∧ (q.hasBody = true → (resend api wait q dl left n now).tries.length ≤ 1)
    ∧ (∀ r, (resend api wait q dl left n now).out = .answered r → ∃ a, (resend api wait q dl left n now).tries.getLast? = some a
        ∧ a.over < dl ∧ (resend api wait q dl left n now).fin = a.over
        ∧ ((a.got = .reply r ∧ ((∀ s, ¬ PutsOff r s) ∨ (resend api wait q dl left n now).tries.length = left + 1))
          ∨ (q.get = true ∧ a.got = .reset ∧ r = resetReply ∧ (resend api wait q dl left n now).tries.length = left + 1)))
    ∧ ((resend api wait q dl left n now).out = .failed → dl ≤ (resend api wait q dl left n now).fin
        ∨ (∃ m t, n ≤ m ∧ wait m t = none) ∨ (q.hasBody = true ∧ (n ≠ 0 ∨ (resend api wait q dl left n now).tries ≠ []))
        ∨ ∃ a ∈ (resend api wait q dl left n now).tries, a.got = .error ∨ (a.got = .reset ∧ q.get = false)) := by
  intro left
  induction left with
  | zero =>
    intro n now
    unfold resend
    cases hw : wait n now with
    | none => simp; exact Or.inr (Or.inl ⟨n, le_refl _, now, hw⟩)
    | some w =>
      simp only
      split
      · rename_i h
        refine ⟨by simp, by simp, by simp, by simp, by simp, by simp, fun _ => ?_⟩
        rcases h with h | h
        · exact Or.inr (Or.inr (Or.inl ⟨h.2, Or.inl h.1⟩))
        · exact Or.inl h
      · rename_i h
        push Not at h
        have hn : n ≠ 0 → q.hasBody = true → False := fun h1 h2 => h.1 h1 h2
        split
        · rename_i h2
          refine ⟨by simp, ?_, by simp, fun h1 h2 => (hn h1 h2).elim, by simp, by simp, fun _ => Or.inl (le_refl _)⟩
          intro a ha
          rw [List.mem_singleton] at ha
          subst ha
          exact ⟨by simp, h.2, n, rfl⟩
        · rename_i h2
          have hmem : ∀ a ∈ [(⟨now + w, (api n (now + w)).1, (api n (now + w)).2⟩ : Sent)], now ≤ a.time ∧ a.time < dl ∧ ∃ m, (a.got, a.took) = api m a.time := by
            intro a ha
            rw [List.mem_singleton] at ha
            subst ha
            exact ⟨by simp, h.2, n, rfl⟩
          push Not at h2
          split
          · rename_i hx
            refine ⟨by simp, hmem, by simp, fun h1 h2 => (hn h1 h2).elim, by simp, by simp, fun _ => ?_⟩
            exact Or.inr (Or.inr (Or.inr ⟨_, List.mem_singleton.mpr rfl, nextOf_fail hx⟩))
          · rename_i r hx
            refine ⟨by simp, hmem, by simp, fun h1 h2 => (hn h1 h2).elim, by simp, ?_, by simp⟩
            intro r' hr'
            cases hr'
            exact ⟨_, rfl, h2, rfl, Or.inl ⟨(nextOf_stop hx).1, Or.inl (nextOf_stop hx).2⟩⟩
          · rename_i r s hx
            refine ⟨by simp, hmem, by simp, fun h1 h2 => (hn h1 h2).elim, by simp, ?_, by simp⟩
            intro r' hr'
            cases hr'
            refine ⟨_, rfl, h2, rfl, ?_⟩
            rcases nextOf_again hx with ⟨g1, -⟩ | ⟨g1, g2, g3, -⟩
            · exact Or.inl ⟨g1, Or.inr rfl⟩
            · exact Or.inr ⟨g1, g2, g3, rfl⟩
  | succ left ih =>
    intro n now
    unfold resend
    cases hw : wait n now with
    | none => simp; exact Or.inr (Or.inl ⟨n, le_refl _, now, hw⟩)
    | some w =>
      simp only
      split
      · rename_i h
        refine ⟨by simp, by simp, by simp, by simp, by simp, by simp, fun _ => ?_⟩
        rcases h with h | h
        · exact Or.inr (Or.inr (Or.inl ⟨h.2, Or.inl h.1⟩))
        · exact Or.inl h
      · rename_i h
        push Not at h
        have hn : n ≠ 0 → q.hasBody = true → False := fun h1 h2 => h.1 h1 h2
        have hmem : ∀ a ∈ [(⟨now + w, (api n (now + w)).1, (api n (now + w)).2⟩ : Sent)], now ≤ a.time ∧ a.time < dl ∧ ∃ m, (a.got, a.took) = api m a.time := by
          intro a ha
          rw [List.mem_singleton] at ha
          subst ha
          exact ⟨by simp, h.2, n, rfl⟩
        split
        · exact ⟨by simp, hmem, by simp, fun h1 h2 => (hn h1 h2).elim, by simp, by simp, fun _ => Or.inl (le_refl _)⟩
        · rename_i h2
          push Not at h2
          split
          · rename_i hx
            refine ⟨by simp, hmem, by simp, fun h1 h2 => (hn h1 h2).elim, by simp, by simp, fun _ => ?_⟩
            exact Or.inr (Or.inr (Or.inr ⟨_, List.mem_singleton.mpr rfl, nextOf_fail hx⟩))
          · rename_i r hx
            refine ⟨by simp, hmem, by simp, fun h1 h2 => (hn h1 h2).elim, by simp, ?_, by simp⟩
            intro r' hr'
            cases hr'
            exact ⟨_, rfl, h2, rfl, Or.inl ⟨(nextOf_stop hx).1, Or.inl (nextOf_stop hx).2⟩⟩
          · rename_i r s hx
            generalize ha : (⟨now + w, (api n (now + w)).1, (api n (now + w)).2⟩ : Sent) = a at *
            obtain ⟨i1, i2, i3, i4, i5, i6, i7⟩ := ih (n + 1) (a.over + sleepFor s)
            generalize resend api wait q dl left (n + 1) (a.over + sleepFor s) = e at *
            have hat : now ≤ a.over := by rw [← ha]; simp only [Sent.over]; omega
            have hgot : (api n (now + w)).1 = a.got := by rw [← ha]
            rw [hgot] at hx
            have hrep : ∀ t, a.over + sleepFor s ≤ t → MayRepeat q.get a t := by
              intro t ht
              rcases nextOf_again hx with ⟨g1, g2⟩ | ⟨g1, g2, g3, rfl⟩
              · refine Or.inl ⟨r, s, g1, g2, fun hs => ?_⟩
                have := sleepFor_ge (s := s) hs
                omega
              · have : sleepFor 1 = 1000000000 := by decide
                exact Or.inr ⟨g1, g2, by omega⟩
            refine ⟨by simpa using i1, ?_, ?_, fun h1 h2 => (hn h1 h2).elim, ?_, ?_, ?_⟩
            · intro b hb
              rcases List.mem_cons.mp hb with rfl | hb
              · exact hmem _ (List.mem_singleton.mpr rfl)
              · obtain ⟨j1, j2, j3⟩ := i2 b hb
                exact ⟨by omega, j2, j3⟩
            · cases ht : e.tries with
              | nil => simp
              | cons b l =>
                rw [List.isChain_cons_cons, ← ht]
                exact ⟨hrep _ (i2 b (by rw [ht]; simp)).1, i3⟩
            · intro hb
              rw [i4 (by omega) hb]
              simp
            · intro r' hr'
              obtain ⟨b, b1, b2, b3, b4⟩ := i6 r' hr'
              refine ⟨b, ?_, b2, b3, ?_⟩
              · rw [List.getLast?_cons, b1]
                rfl
              · simpa using b4
            · intro hf
              rcases i7 hf with k | ⟨m, t, k1, k2⟩ | ⟨k, -⟩ | ⟨b, k1, k2⟩
              · exact Or.inl k
              · exact Or.inr (Or.inl ⟨m, t, by omega, k2⟩)
              · exact Or.inr (Or.inr (Or.inl ⟨k, Or.inr (by simp)⟩))
              · exact Or.inr (Or.inr (Or.inr ⟨b, List.mem_cons_of_mem _ k1, k2⟩))

/-- The loop is over at most one pause after the deadline. -/
theorem resend_fin {S : Nat} (hS : 1000000000 ≤ S) (hw : ∀ n t w, wait n t = some w → w = 0 ∨ t + w ≤ dl)
    (hs : ∀ n t r s, (api n t).1 = .reply r → PutsOff r s → s * 1000000000 ≤ S ∧ -9223372036 ≤ s ∧ s ≤ 9223372036) : ∀ (left n now : Nat), now ≤ dl + S →
    (resend api wait q dl left n now).fin ≤ dl + S := by
  intro left
  induction left with
  | zero =>
    intro n now hnow
    unfold resend
    cases h : wait n now with
    | none => exact hnow
    | some w =>
      simp only
      have := hw n now w h
      split
      · show now + w ≤ _
        omega
      · split
        · show dl ≤ _
          omega
        · rename_i h2
          push Not at h2
          split <;> exact le_trans (le_of_lt h2) (by omega)
  | succ left ih =>
    intro n now hnow
    unfold resend
    cases h : wait n now with
    | none => exact hnow
    | some w =>
      simp only
      have := hw n now w h
      split
      · show now + w ≤ _
        omega
      · split
        · show dl ≤ _
          omega
        · rename_i h2
          push Not at h2
          split
          · exact le_trans (le_of_lt h2) (by omega)
          · exact le_trans (le_of_lt h2) (by omega)
          · rename_i r s hx
            refine ih _ _ ?_
            have : sleepFor s ≤ S := by
              rcases nextOf_again hx with ⟨g1, g2⟩ | ⟨-, -, -, rfl⟩
              · obtain ⟨k1, k2, k3⟩ := hs _ _ _ _ g1 g2
                by_cases h0 : 0 ≤ s
                · have := sleepFor_small h0 k3
                  omega
                · rw [sleepFor_neg (by omega) k2]
                  omega
              · exact le_trans (by decide) hS
            omega

end Ckube
