import Verif.Lemmas.WatchClock
import Verif.Props.Watcher

/-! # C128: how often a watcher asks, and how soon it stops -/

namespace Ckube
open Spec

variable {r : GVR} {c : Str}

theorem spaced_length : ∀ {l : List Nat} {n : Nat}, l.Pairwise (fun a b => b + 3000 ≤ a) → (∀ t ∈ l, t ≤ n) → l.length ≤ n / 3000 + 1
  | [], _, _, _ => by simp
  | [a], n, _, _ => by simp
  | a :: b :: l, n, hp, hle => by
    obtain ⟨h1, h2⟩ := List.pairwise_cons.mp hp
    have hb := h1 b (by simp)
    have hna := hle a (by simp)
    have := spaced_length (l := b :: l) (n := n - 3000) h2 (by
      intro t ht
      have := h1 t ht
      omega)
    have h3 : n / 3000 = (n - 3000) / 3000 + 1 := by omega
    rw [List.length_cons]
    omega

/-- **C128**, the API server: between any two attempts of a watcher to open a stream at least three seconds pass, so that in `n` milliseconds it
makes at most `n / 3000 + 1` of them, whatever the API server does. -/
theorem C128_pace {w : WTimed} (h : Timed r c w) :
    w.tries.Pairwise (fun later earlier => earlier + 3000 ≤ later) ∧ w.tries.length ≤ w.now / 3000 + 1 :=
  ⟨h.inv.tries, spaced_length h.inv.tries h.inv.past⟩

/-- **C128**, a stream: it is given up one hour after the attempt to open it. -/
theorem C128_hour {w : WTimed} (h : Timed r c w) {first : Bool} {e : Nat} (hp : w.pc = .reading first e) :
    ∃ t, w.tries.head? = some t ∧ w.now ≤ t + 3600000 := by
  obtain ⟨h1, t, ts, h2, h3, h4⟩ := h.inv.reading _ _ hp
  exact ⟨t, by rw [h2]; rfl, by omega⟩

/-- **C128**, after a stream or an attempt has ended: a watcher that has not been stopped tries again within fifteen seconds. -/
theorem C128_again {w v : WTimed} (h : Timed r c w) (hw : Unconnected w) {ins : List TIn} (hr : trun r c w ins = some v) (hv : Unconnected v)
    (hno : v.tries = w.tries) : v.now ≤ w.now + 15000 := by
  have key : w.tries.length < v.tries.length
      ∨ (v.tries = w.tries ∧ ((v.pc = .head ∧ v.now ≤ w.now + 15000) ∨ (∃ u, v.pc = .asleep u ∧ v.now ≤ u ∧ u ≤ w.now + 15000) ∨ v.pc = .done)) := by
    refine trun_induction (P := fun v => w.tries.length < v.tries.length
      ∨ (v.tries = w.tries ∧ ((v.pc = .head ∧ v.now ≤ w.now + 15000) ∨ (∃ u, v.pc = .asleep u ∧ v.now ≤ u ∧ u ≤ w.now + 15000) ∨ v.pc = .done))) ?_ ?_ hr
    · refine Or.inr ⟨rfl, ?_⟩
      rcases hw with hw | ⟨u, hu⟩
      · exact Or.inl ⟨hw, by omega⟩
      · obtain ⟨h1, h2, -⟩ := h.inv.asleep u hu
        exact Or.inr (Or.inl ⟨u, hu, h1, h2⟩)
    · intro a b i ha hs
      rcases tstep_cases hs with ⟨d, rfl, hwd, rfl⟩ | ⟨rfl, rfl⟩ | ⟨rfl, hp, -, rfl⟩ | ⟨rfl, hp, -, rfl⟩ | ⟨e, rfl, hp, rfl⟩ | ⟨e, rfl, hp, rfl⟩
        | ⟨first, e, t, o, rfl, hp, rfl⟩ | ⟨first, e, rfl, hp, rfl⟩ | ⟨first, e, rfl, hp, -, rfl⟩ | ⟨u, rfl, hp, hu, rfl⟩
      · rcases ha with ha | ⟨h1, h2 | ⟨u, h2, h3, h4⟩ | h2⟩
        · exact Or.inl ha
        · simp only [WTimed.waits, h2.1, decide_eq_true_eq] at hwd
          exact Or.inr ⟨h1, Or.inl ⟨h2.1, by simp only; omega⟩⟩
        · simp only [WTimed.waits, h2, decide_eq_true_eq] at hwd
          exact Or.inr ⟨h1, Or.inr (Or.inl ⟨u, h2, hwd, h4⟩)⟩
        · exact Or.inr ⟨h1, Or.inr (Or.inr h2)⟩
      · exact ha
      · rcases ha with ha | ⟨h1, -⟩
        · exact Or.inl ha
        · exact Or.inr ⟨h1, Or.inr (Or.inr rfl)⟩
      · rcases ha with ha | ⟨h1, -⟩
        · exact Or.inl (by simp only [List.length_cons]; omega)
        · exact Or.inl (by simp only [List.length_cons, h1]; omega)
      · rcases ha with ha | ⟨h1, h2 | ⟨u, h2, -⟩ | h2⟩
        · exact Or.inl ha
        · rw [hp] at h2; simp at h2
        · rw [hp] at h2; simp at h2
        · rw [hp] at h2; simp at h2
      · rcases ha with ha | ⟨h1, h2 | ⟨u, h2, -⟩ | h2⟩
        · exact Or.inl ha
        · rw [hp] at h2; simp at h2
        · rw [hp] at h2; simp at h2
        · rw [hp] at h2; simp at h2
      · rcases ha with ha | ⟨h1, h2 | ⟨u, h2, -⟩ | h2⟩
        · exact Or.inl ha
        · rw [hp] at h2; simp at h2
        · rw [hp] at h2; simp at h2
        · rw [hp] at h2; simp at h2
      · rcases ha with ha | ⟨h1, h2 | ⟨u, h2, -⟩ | h2⟩
        · exact Or.inl ha
        · rw [hp] at h2; simp at h2
        · rw [hp] at h2; simp at h2
        · rw [hp] at h2; simp at h2
      · rcases ha with ha | ⟨h1, -⟩
        · exact Or.inl ha
        · exact Or.inr ⟨h1, Or.inr (Or.inr rfl)⟩
      · rcases ha with ha | ⟨h1, h2 | ⟨u', h2, h3, h4⟩ | h2⟩
        · exact Or.inl ha
        · rw [hp] at h2; simp at h2
        · exact Or.inr ⟨h1, Or.inl ⟨rfl, by simp only; omega⟩⟩
        · rw [hp] at h2; simp at h2
  rcases key with hk | ⟨-, hk⟩
  · rw [hno] at hk; omega
  · rcases hv with hv | ⟨u, hv⟩ <;> rw [hv] at hk <;> simp only [reduceCtorEq, false_and, exists_false, or_false, false_or, true_and] at hk
    · exact hk
    · obtain ⟨u', -, h1, h2⟩ := hk
      omega

/-- What has happened since a watcher was stopped: it may have been dialing until `e`, reading until `e`, in a pause that ends before `l`. -/
structure StopInv (w : WTimed) (e l : Nat) (v : WTimed) : Prop where
  stopped : v.stopped = true
  tries : v.tries = w.tries
  calls : ∃ new, v.calls = w.calls ++ new ∧ ∀ x ∈ new, x.1 ≤ e
  place : (∃ e', v.pc = .dialing e' ∧ e' ≤ e ∧ v.now ≤ e' ∧ e' + 15000 ≤ l) ∨ (∃ b e', v.pc = .reading b e' ∧ v.now ≤ e) ∨ (∃ u, v.pc = .asleep u ∧ v.now ≤ u ∧ u ≤ l)
    ∨ (v.pc = .head ∧ v.now ≤ l) ∨ v.pc = .done

theorem StopInv.step {w a b : WTimed} {e l : Nat} (hl : e + 3000 ≤ l) {i : TIn} (h : StopInv w e l a) (hs : tstep r c a i = some b) :
    StopInv w e l b := by
  obtain ⟨new, hnew, hle⟩ := h.calls
  rcases tstep_cases hs with ⟨d, rfl, hwd, rfl⟩ | ⟨rfl, rfl⟩ | ⟨rfl, hp, -, rfl⟩ | ⟨rfl, hp, hst, rfl⟩ | ⟨e', rfl, hp, rfl⟩ | ⟨e', rfl, hp, rfl⟩
    | ⟨first, e', t, o, rfl, hp, rfl⟩ | ⟨first, e', rfl, hp, rfl⟩ | ⟨first, e', rfl, hp, -, rfl⟩ | ⟨u, rfl, hp, hu, rfl⟩
  · refine ⟨h.stopped, h.tries, h.calls, ?_⟩
    rcases h.place with ⟨e', h1, h2, h3, h4⟩ | ⟨b', e', h1, h2⟩ | ⟨u, h1, h2, h3⟩ | ⟨h1, h2⟩ | h1
    · simp only [WTimed.waits, h1, decide_eq_true_eq] at hwd
      exact Or.inl ⟨e', h1, h2, hwd, h4⟩
    · simp [WTimed.waits, h1, h.stopped] at hwd
    · simp only [WTimed.waits, h1, decide_eq_true_eq] at hwd
      exact Or.inr (Or.inr (Or.inl ⟨u, h1, hwd, h3⟩))
    · simp only [WTimed.waits, h1, decide_eq_true_eq] at hwd
      exact Or.inr (Or.inr (Or.inr (Or.inl ⟨h1, by simp only; omega⟩)))
    · exact Or.inr (Or.inr (Or.inr (Or.inr h1)))
  · exact ⟨rfl, h.tries, h.calls, h.place⟩
  · exact ⟨h.stopped, h.tries, h.calls, Or.inr (Or.inr (Or.inr (Or.inr rfl)))⟩
  · rw [h.stopped] at hst; simp at hst
  · refine ⟨h.stopped, h.tries, h.calls, ?_⟩
    rcases h.place with ⟨e'', h1, h2, h3, h4⟩ | ⟨b', e'', h1, h2⟩ | ⟨u, h1, h2, h3⟩ | ⟨h1, h2⟩ | h1 <;> rw [hp] at h1 <;> simp only [reduceCtorEq, WPc.dialing.injEq] at h1
    exact Or.inr (Or.inr (Or.inl ⟨_, rfl, by simp only; omega, by omega⟩))
  · refine ⟨h.stopped, h.tries, h.calls, ?_⟩
    rcases h.place with ⟨e'', h1, h2, h3, h4⟩ | ⟨b', e'', h1, h2⟩ | ⟨u, h1, h2, h3⟩ | ⟨h1, h2⟩ | h1 <;> rw [hp] at h1 <;> simp only [reduceCtorEq, WPc.dialing.injEq] at h1
    exact Or.inr (Or.inl ⟨_, _, rfl, by simp only; omega⟩)
  · rcases h.place with ⟨e'', h1, h2, h3, h4⟩ | ⟨b', e'', h1, h2⟩ | ⟨u, h1, h2, h3⟩ | ⟨h1, h2⟩ | h1 <;> rw [hp] at h1 <;> simp only [reduceCtorEq, WPc.reading.injEq] at h1
    refine ⟨h.stopped, h.tries, ⟨_, by simp only [hnew, List.append_assoc]; rfl, ?_⟩, Or.inr (Or.inl ⟨_, _, rfl, h2⟩)⟩
    intro x hx
    rcases List.mem_append.mp hx with hx | hx
    · exact hle x hx
    · obtain ⟨n, -, rfl⟩ := List.mem_map.mp hx
      exact h2
  · rcases h.place with ⟨e'', h1, h2, h3, h4⟩ | ⟨b', e'', h1, h2⟩ | ⟨u, h1, h2, h3⟩ | ⟨h1, h2⟩ | h1 <;> rw [hp] at h1 <;> simp only [reduceCtorEq, WPc.reading.injEq] at h1
    refine ⟨h.stopped, h.tries, ⟨_, by simp only [hnew, List.append_assoc]; rfl, ?_⟩,
      Or.inr (Or.inr (Or.inl ⟨_, rfl, by simp only; omega, by omega⟩))⟩
    intro x hx
    rcases List.mem_append.mp hx with hx | hx
    · exact hle x hx
    · obtain ⟨n, -, rfl⟩ := List.mem_map.mp hx
      exact h2
  · exact ⟨h.stopped, h.tries, h.calls, Or.inr (Or.inr (Or.inr (Or.inr rfl)))⟩
  · refine ⟨h.stopped, h.tries, h.calls, ?_⟩
    rcases h.place with ⟨e'', h1, h2, h3, h4⟩ | ⟨b', e'', h1, h2⟩ | ⟨u, h1, h2, h3⟩ | ⟨h1, h2⟩ | h1 <;> rw [hp] at h1 <;> simp only [reduceCtorEq, WPc.asleep.injEq] at h1
    exact Or.inr (Or.inr (Or.inr (Or.inl ⟨rfl, by simp only; omega⟩)))

/-- **C128**, stopping: a watcher that is not opening a stream when it is stopped has returned fifteen seconds later, opens no stream any more, and all it
still tells the store it tells it at once. Missing for the full claim: watchers that are opening a stream (`C128_opening`, `C128_false_stop`). -/
theorem C128_stop_partial {w v : WTimed} (h : Timed r c w) (hst : w.stopped = true) (hnd : ∀ e, w.pc ≠ .dialing e) {ins : List TIn}
    (hr : trun r c w ins = some v) :
    (v.pc = .done ∨ v.now ≤ w.now + 15000) ∧ v.tries = w.tries ∧ ∃ new, v.calls = w.calls ++ new ∧ ∀ x ∈ new, x.1 ≤ w.now := by
  have hi : StopInv w w.now (w.now + 15000) v := by
    refine trun_induction (P := StopInv w w.now (w.now + 15000)) ⟨hst, rfl, ⟨[], by simp⟩, ?_⟩ (fun _ _ _ ha hs => ha.step (by omega) hs) hr
    cases hp : w.pc with
    | head => exact Or.inr (Or.inr (Or.inr (Or.inl ⟨rfl, by omega⟩)))
    | dialing e => exact absurd hp (hnd e)
    | reading b e => exact Or.inr (Or.inl ⟨b, e, rfl, Nat.le_refl _⟩)
    | asleep u =>
      obtain ⟨h1, h2, -⟩ := h.inv.asleep u hp
      exact Or.inr (Or.inr (Or.inl ⟨u, rfl, h1, h2⟩))
    | done => exact Or.inr (Or.inr (Or.inr (Or.inr rfl)))
  refine ⟨?_, hi.tries, hi.calls⟩
  rcases hi.place with ⟨e', h1, h2, h3, h4⟩ | ⟨b', e', h1, h2⟩ | ⟨u, h1, h2, h3⟩ | ⟨h1, h2⟩ | h1
  · exact Or.inr (by omega)
  · exact Or.inr (by omega)
  · exact Or.inr (by omega)
  · exact Or.inr h2
  · exact Or.inl h1

/-- **C128**, stopping a watcher that is opening a stream: it has returned one hour and fifteen seconds later, opens no other stream, and tells the
store nothing more than an hour later. -/
theorem C128_opening {w v : WTimed} (h : Timed r c w) (hst : w.stopped = true) {e : Nat} (hp : w.pc = .dialing e) {ins : List TIn}
    (hr : trun r c w ins = some v) :
    (v.pc = .done ∨ v.now ≤ w.now + 3615000) ∧ v.tries = w.tries ∧ ∃ new, v.calls = w.calls ++ new ∧ ∀ x ∈ new, x.1 ≤ w.now + 3600000 := by
  obtain ⟨h1, t, ts, h2, h3, h4⟩ := h.inv.dialing e hp
  have hi : StopInv w (w.now + 3600000) (w.now + 3615000) v := by
    refine trun_induction (P := StopInv w (w.now + 3600000) (w.now + 3615000)) ⟨hst, rfl, ⟨[], by simp⟩, ?_⟩ (fun _ _ _ ha hs => ha.step (by omega) hs) hr
    exact Or.inl ⟨e, hp, by omega, h1, by omega⟩
  refine ⟨?_, hi.tries, hi.calls⟩
  rcases hi.place with ⟨e', h1, h2, h3, h4⟩ | ⟨b', e', h1, h2⟩ | ⟨u, h1, h2, h3⟩ | ⟨h1, h2⟩ | h1
  · exact Or.inr (by omega)
  · exact Or.inr (by omega)
  · exact Or.inr (by omega)
  · exact Or.inr h2
  · exact Or.inl h1

/-! ## Examples -/

/-- An attempt that fails at once, a stream that is closed after a second, another stream: attempts after 0, 15 and 19 seconds. -/
example : ((trun exPods (lit "c1") {} [.head, .fail, .tick 15000, .wake, .head, .opened, .tick 1000, .closed, .tick 3000, .wake, .head]).map
    fun w => (w.tries, w.now, decide (w.pc = .dialing 3619000), w.calls.length)) = some ([19000, 15000, 0], 19000, true, 1) := by decide +kernel

/-- A watcher in a pause is stopped and returns when the pause is over. -/
example : ((trun exPods (lit "c1") {} [.head, .fail, .stop, .tick 15000, .wake, .head]).map fun w => (decide (w.pc = .done), w.now)) = some (true, 15000) := by
  decide +kernel

/-- **C128 is false** for a watcher that is opening a stream when it is stopped, because `Watch` does not look at the `stop` channel: with an API server that
accepts the connection and does not answer, an hour later the watcher clears the type in its store and writes an object. -/
theorem C128_false_stop :
    ((trun exPods (lit "c1") {} [.head, .stop, .tick 3600000, .opened, .event .added (exPod "web" "n1")]).map fun w =>
      (w.stopped, w.now, w.calls.map fun e => (e.1, decide (aboutB exPods (lit "c1") e.2 = true)))) = some (true, 3600000, [(3600000, true), (3600000, true)]) := by
  decide +kernel

end Ckube
