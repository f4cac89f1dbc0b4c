import Verif.Spec.WatchClock
import Verif.Lemmas.Watcher

/-! # The watcher and the clock -/

namespace Ckube
open Spec

variable {r : GVR} {c : Str}

/-! ## Helpers -/

theorem trun_append {w : WTimed} (is js : List TIn) : trun r c w (is ++ js) = (trun r c w is).bind fun w' => trun r c w' js := by
  induction is generalizing w with
  | nil => rfl
  | cons i is ih =>
    simp only [List.cons_append, trun]
    cases tstep r c w i with
    | none => rfl
    | some w' => simp only [Option.bind_some]; exact ih

/-- Induction over the steps of a run. -/
theorem trun_induction {P : WTimed → Prop} {w : WTimed} (h0 : P w) (hs : ∀ u v i, P u → tstep r c u i = some v → P v) :
    ∀ {ins v}, trun r c w ins = some v → P v := by
  intro ins
  induction ins generalizing w with
  | nil => rintro v h; simp only [trun, Option.some.injEq] at h; exact h ▸ h0
  | cons i is ih =>
    intro v h
    simp only [trun, Option.bind_eq_some_iff] at h
    obtain ⟨w', h1, h2⟩ := h
    exact ih (hs _ _ _ h0 h1) h2

/-- The facts about time that every step keeps. -/
structure TInv (w : WTimed) : Prop where
  dialing : ∀ e, w.pc = .dialing e → w.now ≤ e ∧ ∃ t ts, w.tries = t :: ts ∧ t ≤ w.now ∧ e = t + 3600000
  reading : ∀ b e, w.pc = .reading b e → w.now ≤ e ∧ ∃ t ts, w.tries = t :: ts ∧ t ≤ w.now ∧ e = t + 3600000
  asleep : ∀ u, w.pc = .asleep u → w.now ≤ u ∧ u ≤ w.now + 15000 ∧ ∃ t ts, w.tries = t :: ts ∧ t + 3000 ≤ u
  head : w.pc = .head → ∀ t ts, w.tries = t :: ts → t + 3000 ≤ w.now
  tries : w.tries.Pairwise fun a b => b + 3000 ≤ a
  past : ∀ t ∈ w.tries, t ≤ w.now
  done : w.pc = .done → w.stopped = true

/-- A step, case by case. -/
theorem tstep_cases {w v : WTimed} {i : TIn} (h : tstep r c w i = some v) :
    (∃ d, i = .tick d ∧ w.waits d = true ∧ v = { w with now := w.now + d })
    ∨ (i = .stop ∧ v = { w with stopped := true })
    ∨ (i = .head ∧ w.pc = .head ∧ w.stopped = true ∧ v = { w with pc := .done })
    ∨ (i = .head ∧ w.pc = .head ∧ w.stopped = false ∧ v = { w with pc := .dialing (w.now + 3600000), tries := w.now :: w.tries })
    ∨ (∃ e, i = .fail ∧ w.pc = .dialing e ∧ v = { w with pc := .asleep (w.now + 15000) })
    ∨ (∃ e, i = .opened ∧ w.pc = .dialing e ∧ v = { w with pc := .reading true e })
    ∨ (∃ first e t o, i = .event t o ∧ w.pc = .reading first e
        ∧ v = { w with pc := .reading false e, calls := w.calls ++ (cleanFirst r c first ++ evNotice r c t o).map fun n => (w.now, n) })
    ∨ (∃ first e, i = .closed ∧ w.pc = .reading first e
        ∧ v = { w with pc := .asleep (w.now + 3000), calls := w.calls ++ (cleanFirst r c first).map fun n => (w.now, n) })
    ∨ (∃ first e, i = .seen ∧ w.pc = .reading first e ∧ w.stopped = true ∧ v = { w with pc := .done })
    ∨ (∃ u, i = .wake ∧ w.pc = .asleep u ∧ u ≤ w.now ∧ v = { w with pc := .head }) := by
  cases i with
  | tick d =>
    simp only [tstep] at h
    by_cases hw : w.waits d = true
    · rw [if_pos hw, Option.some.injEq] at h
      exact Or.inl ⟨d, rfl, hw, h.symm⟩
    · rw [if_neg hw] at h; simp at h
  | stop =>
    simp only [tstep, Option.some.injEq] at h
    exact Or.inr (Or.inl ⟨rfl, h.symm⟩)
  | head =>
    simp only [tstep] at h
    cases hp : w.pc <;> rw [hp] at h <;> simp only [reduceCtorEq] at h
    cases hst : w.stopped <;> rw [hst] at h <;> simp only [if_true, Bool.false_eq_true, if_false, Option.some.injEq] at h
    · exact Or.inr (Or.inr (Or.inr (Or.inl ⟨rfl, rfl, rfl, h.symm⟩)))
    · exact Or.inr (Or.inr (Or.inl ⟨rfl, rfl, rfl, h.symm⟩))
  | fail =>
    simp only [tstep] at h
    cases hp : w.pc <;> rw [hp] at h <;> simp only [reduceCtorEq, Option.some.injEq] at h
    exact Or.inr (Or.inr (Or.inr (Or.inr (Or.inl ⟨_, rfl, rfl, h.symm⟩))))
  | opened =>
    simp only [tstep] at h
    cases hp : w.pc <;> rw [hp] at h <;> simp only [reduceCtorEq, Option.some.injEq] at h
    exact Or.inr (Or.inr (Or.inr (Or.inr (Or.inr (Or.inl ⟨_, rfl, rfl, h.symm⟩)))))
  | event t o =>
    simp only [tstep] at h
    cases hp : w.pc <;> rw [hp] at h <;> simp only [reduceCtorEq, Option.some.injEq] at h
    exact Or.inr (Or.inr (Or.inr (Or.inr (Or.inr (Or.inr (Or.inl ⟨_, _, t, o, rfl, rfl, h.symm⟩))))))
  | closed =>
    simp only [tstep] at h
    cases hp : w.pc <;> rw [hp] at h <;> simp only [reduceCtorEq, Option.some.injEq] at h
    exact Or.inr (Or.inr (Or.inr (Or.inr (Or.inr (Or.inr (Or.inr (Or.inl ⟨_, _, rfl, rfl, h.symm⟩)))))))
  | seen =>
    simp only [tstep] at h
    cases hp : w.pc <;> rw [hp] at h <;> simp only [reduceCtorEq] at h
    cases hst : w.stopped <;> rw [hst] at h <;> simp only [if_true, Bool.false_eq_true, if_false, reduceCtorEq, Option.some.injEq] at h
    exact Or.inr (Or.inr (Or.inr (Or.inr (Or.inr (Or.inr (Or.inr (Or.inr (Or.inl ⟨_, _, rfl, rfl, rfl, h.symm⟩))))))))
  | wake =>
    simp only [tstep] at h
    cases hp : w.pc with
    | asleep u =>
      rw [hp] at h
      simp only at h
      by_cases hu : u ≤ w.now
      · rw [if_pos hu, Option.some.injEq] at h
        exact Or.inr (Or.inr (Or.inr (Or.inr (Or.inr (Or.inr (Or.inr (Or.inr (Or.inr ⟨u, rfl, rfl, hu, h.symm⟩))))))))
      · rw [if_neg hu] at h; simp at h
    | _ => rw [hp] at h; simp at h

theorem TInv.init : TInv {} where
  dialing := by simp
  reading := by simp
  asleep := by simp
  head := by simp
  tries := by simp
  past := by simp
  done := by simp

theorem TInv.step {w v : WTimed} {i : TIn} (hi : TInv w) (h : tstep r c w i = some v) : TInv v := by
  rcases tstep_cases h with ⟨d, rfl, hw, rfl⟩ | ⟨rfl, rfl⟩ | ⟨rfl, hp, hs, rfl⟩ | ⟨rfl, hp, hs, rfl⟩ | ⟨e, rfl, hp, rfl⟩ | ⟨e, rfl, hp, rfl⟩
    | ⟨first, e, t, o, rfl, hp, rfl⟩ | ⟨first, e, rfl, hp, rfl⟩ | ⟨first, e, rfl, hp, hs, rfl⟩ | ⟨u, rfl, hp, hu, rfl⟩
  · constructor
    · intro e he
      simp only at he
      simp only [WTimed.waits, he, decide_eq_true_eq] at hw
      obtain ⟨-, t, ts, h1, h2, h3⟩ := hi.dialing e he
      exact ⟨hw, t, ts, h1, by simp only; omega, h3⟩
    · intro b e he
      simp only at he
      simp only [WTimed.waits, he, Bool.and_eq_true, decide_eq_true_eq] at hw
      obtain ⟨-, t, ts, h1, h2, h3⟩ := hi.reading b e he
      exact ⟨hw.2, t, ts, h1, by simp only; omega, h3⟩
    · intro u hu
      simp only at hu
      simp only [WTimed.waits, hu, decide_eq_true_eq] at hw
      obtain ⟨-, h0, t, ts, h1, h2⟩ := hi.asleep u hu
      exact ⟨hw, by simp only; omega, t, ts, h1, h2⟩
    · intro hu t ts ht
      have := hi.head hu t ts ht
      simp only
      omega
    · exact hi.tries
    · intro t ht
      have := hi.past t ht
      simp only
      omega
    · exact hi.done
  · exact ⟨hi.dialing, hi.reading, hi.asleep, hi.head, hi.tries, hi.past, by simp⟩
  · exact ⟨by simp, by simp, by simp, by simp, hi.tries, hi.past, fun _ => hs⟩
  · refine ⟨?_, by simp, by simp, by simp, ?_, ?_, by simp⟩
    · intro e he
      simp only [WPc.dialing.injEq] at he
      exact ⟨by simp only; omega, _, _, rfl, Nat.le_refl _, he.symm⟩
    · refine List.pairwise_cons.mpr ⟨?_, hi.tries⟩
      intro t ht
      cases hts : w.tries with
      | nil => rw [hts] at ht; simp at ht
      | cons a ts =>
        have ha := hi.head hp a ts hts
        rw [hts] at ht
        rcases List.mem_cons.mp ht with rfl | ht
        · exact ha
        · have := (List.pairwise_cons.mp (hts ▸ hi.tries)).1 t ht
          omega
    · intro t ht
      rcases List.mem_cons.mp ht with rfl | ht
      · exact Nat.le_refl _
      · exact hi.past t ht
  · refine ⟨by simp, by simp, ?_, by simp, hi.tries, hi.past, by simp⟩
    intro u hu
    simp only [WPc.asleep.injEq] at hu
    obtain ⟨-, t, ts, h1, h2, h3⟩ := hi.dialing e hp
    exact ⟨by simp only; omega, by simp only; omega, t, ts, h1, by omega⟩
  · refine ⟨by simp, ?_, by simp, by simp, hi.tries, hi.past, by simp⟩
    intro b e' he
    simp only [WPc.reading.injEq] at he
    rw [← he.2]
    exact hi.dialing e hp
  · refine ⟨by simp, ?_, by simp, by simp, hi.tries, hi.past, by simp⟩
    intro b e' he
    simp only [WPc.reading.injEq] at he
    rw [← he.2]
    exact hi.reading first e hp
  · refine ⟨by simp, by simp, ?_, by simp, hi.tries, hi.past, by simp⟩
    intro u hu
    simp only [WPc.asleep.injEq] at hu
    obtain ⟨-, t, ts, h1, h2, h3⟩ := hi.reading first e hp
    exact ⟨by simp only; omega, by simp only; omega, t, ts, h1, by omega⟩
  · exact ⟨by simp, by simp, by simp, by simp, hi.tries, hi.past, fun _ => hs⟩
  · refine ⟨by simp, by simp, by simp, ?_, hi.tries, hi.past, by simp⟩
    intro _ t ts ht
    obtain ⟨-, -, t', ts', h1, h2⟩ := hi.asleep u hp
    simp only at ht
    rw [h1, List.cons.injEq] at ht
    rw [← ht.1]
    simp only
    omega

theorem Spec.Timed.inv {w : WTimed} (h : Timed r c w) : TInv w := by
  obtain ⟨ins, h⟩ := h
  exact trun_induction TInv.init (fun _ _ _ hu hs => hu.step hs) h

end Ckube
