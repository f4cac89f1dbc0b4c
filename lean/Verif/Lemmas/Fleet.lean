import Verif.Spec.Fleet
import Verif.Lemmas.Watcher

/-! # Lemmas: the goroutines of a watcher -/

namespace Ckube
open Spec

theorem callsBy_append (i : Nat) (a b : List (Nat × Notice)) : callsBy i (a ++ b) = callsBy i a ++ callsBy i b := by
  induction a with
  | nil => rfl
  | cons e a ih => obtain ⟨j, n⟩ := e; simp only [List.cons_append, callsBy, ih]; split <;> simp

theorem callsBy_map (i j : Nat) (l : List Notice) : callsBy i (l.map fun n => (j, n)) = if j = i then l else [] := by
  induction l with
  | nil => simp [callsBy]
  | cons n l ih => simp only [List.map_cons, callsBy, ih]; split <;> rfl

theorem doneBy_append (i : Nat) (a b : List FIn) : doneBy i (a ++ b) = doneBy i a ++ doneBy i b := by
  induction a with
  | nil => rfl
  | cons e a ih =>
    cases e with
    | stop => simpa only [List.cons_append, doneBy] using ih
    | go j x => simp only [List.cons_append, doneBy, ih]; split <;> simp

theorem Fleet.run_append (a b : List FIn) : ∀ f : Fleet,
    f.run (a ++ b) = (f.run a).bind fun x => (x.1.run b).map fun y => (y.1, x.2 ++ y.2) := by
  induction a with
  | nil => intro f; simp [Fleet.run]
  | cons x a ih =>
    intro f
    simp only [List.cons_append, Fleet.run]
    cases f.step x with
    | none => rfl
    | some y =>
      simp only [ih]
      cases y.1.run a with
      | none => rfl
      | some z => simp [Option.map_map, Function.comp_def]

/-- One step, seen from a goroutine. -/
theorem Fleet.step_at {f f' : Fleet} {x : FIn} {out : List (Nat × Notice)} (h : f.step x = some (f', out)) {i : Nat}
    {k : GVR × Str} {p : GPhase} (hi : f.gs[i]? = some (k, p)) :
    (doneBy i [x] = [] ∧ f'.gs[i]? = some (k, p) ∧ callsBy i out = [])
    ∨ ∃ (y : GIn) (p' : GPhase), x = .go i y ∧ f'.gs[i]? = some (k, p') ∧ gstep k.1 k.2 f.stopped p y = some (p', callsBy i out)
      ∧ f'.stopped = f.stopped := by
  cases x with
  | stop =>
    simp only [Fleet.step] at h
    split at h
    · cases h
    · simp only [Option.some.injEq, Prod.mk.injEq] at h
      obtain ⟨rfl, rfl⟩ := h
      exact Or.inl ⟨rfl, hi, rfl⟩
  | go j y =>
    simp only [Fleet.step] at h
    split at h
    · cases h
    · rename_i k' q hj
      simp only [Option.map_eq_some_iff, Prod.mk.injEq] at h
      obtain ⟨z, hz, rfl, rfl⟩ := h
      by_cases hji : j = i
      · subst hji
        rw [hi] at hj
        simp only [Option.some.injEq, Prod.mk.injEq] at hj
        obtain ⟨rfl, rfl⟩ := hj
        refine Or.inr ⟨y, z.1, rfl, ?_, ?_, rfl⟩
        · have := (List.getElem?_eq_some_iff.mp hi).1
          simp [this]
        · rw [callsBy_map, if_pos rfl, hz]
      · refine Or.inl ⟨by simp [doneBy, hji], ?_, by rw [callsBy_map, if_neg hji]⟩
        simp only
        rw [List.getElem?_set_ne hji, hi]

/-! ## The machine of `Model/Watcher.lean` -/

/-- The phase without the distinction at the head of the loop. -/
def GPhase.plain : GPhase → WPhase
  | .head | .dialing => .connecting
  | .streaming f => .streaming f
  | .done => .done

/-- What the machine of `Model/Watcher.lean` takes from outside. -/
def GIn.plain : GIn → Option WIn
  | .check | .seen => none
  | .fail => some .fail
  | .opened => some .opened
  | .event t o => some (.event t o)
  | .closed => some .closed

theorem wrun_done {r : GVR} {c : Str} {ws : List WIn} {x : WPhase × List Notice} (h : wrun r c .done ws = some x) : ws = [] := by
  cases ws with
  | nil => rfl
  | cons w ws => rw [wrun] at h; cases w <;> simp [wstep] at h

/-- Each goroutine is the machine of `Model/Watcher.lean`; it finds `stop` closed at most once, at the end. -/
theorem Fleet.goroutine (ins : List FIn) : ∀ {f f' : Fleet} {out : List (Nat × Notice)}, f.run ins = some (f', out) →
    ∀ {i : Nat} {k : GVR × Str} {p : GPhase}, f.gs[i]? = some (k, p) →
    ∃ (p' : GPhase) (ws : List WIn), f'.gs[i]? = some (k, p')
      ∧ (ws = (doneBy i ins).filterMap GIn.plain ∨ ws = (doneBy i ins).filterMap GIn.plain ++ [.stop])
      ∧ wrun k.1 k.2 p.plain ws = some (p'.plain, callsBy i out) := by
  induction ins with
  | nil =>
    intro f f' out h i k p hi
    simp only [Fleet.run, Option.some.injEq, Prod.mk.injEq] at h
    obtain ⟨rfl, rfl⟩ := h
    exact ⟨p, [], hi, Or.inl rfl, rfl⟩
  | cons x ins ih =>
    intro f f' out h i k p hi
    rw [Fleet.run] at h
    cases hs : f.step x with
    | none => rw [hs] at h; cases h
    | some y =>
      obtain ⟨f1, o1⟩ := y
      rw [hs] at h
      simp only [Option.map_eq_some_iff, Prod.mk.injEq] at h
      obtain ⟨⟨f2, o2⟩, hz, rfl, rfl⟩ := h
      have hcons : doneBy i (x :: ins) = doneBy i [x] ++ doneBy i ins := doneBy_append i [x] ins
      rcases Fleet.step_at hs hi with ⟨h1, h2, h3⟩ | ⟨y, p1, rfl, h2, h3, _⟩
      · obtain ⟨p', ws, e1, e2, e3⟩ := ih hz h2
        rw [hcons, h1, callsBy_append, h3]
        exact ⟨p', ws, e1, e2, e3⟩
      · obtain ⟨p', ws, e1, e2, e3⟩ := ih hz h2
        have hd : doneBy i [FIn.go i y] = [y] := by simp [doneBy]
        rw [hcons, hd, callsBy_append]
        -- a step of the machine
        have hstep : ∀ w, y.plain = some w → wstep k.1 k.2 p.plain w = some (p1.plain, callsBy i o1) →
            ∃ (p' : GPhase) (ws : List WIn), f2.gs[i]? = some (k, p')
              ∧ (ws = ([y] ++ doneBy i ins).filterMap GIn.plain ∨ ws = ([y] ++ doneBy i ins).filterMap GIn.plain ++ [.stop])
              ∧ wrun k.1 k.2 p.plain ws = some (p'.plain, callsBy i o1 ++ callsBy i o2) := by
          intro w hw hst
          refine ⟨p', w :: ws, e1, ?_, ?_⟩
          · have : ([y] ++ doneBy i ins).filterMap GIn.plain = w :: (doneBy i ins).filterMap GIn.plain := by
              simp [hw]
            rw [this]
            rcases e2 with rfl | rfl
            · exact Or.inl rfl
            · exact Or.inr rfl
          · rw [wrun, hst]
            simp only [e3, Option.map_some]
        -- `stop` is found closed
        have hstop : y.plain = none → p1 = .done → callsBy i o1 = [] → wstep k.1 k.2 p.plain .stop = some (.done, []) →
            ∃ (p' : GPhase) (ws : List WIn), f2.gs[i]? = some (k, p')
              ∧ (ws = ([y] ++ doneBy i ins).filterMap GIn.plain ∨ ws = ([y] ++ doneBy i ins).filterMap GIn.plain ++ [.stop])
              ∧ wrun k.1 k.2 p.plain ws = some (p'.plain, callsBy i o1 ++ callsBy i o2) := by
          intro hy hp1 ho hst
          subst hp1
          have hws : ws = [] := wrun_done e3
          refine ⟨p', [.stop], e1, Or.inr ?_, ?_⟩
          · have : ([y] ++ doneBy i ins).filterMap GIn.plain = (doneBy i ins).filterMap GIn.plain := by simp [hy]
            rw [this]
            rcases e2 with e2 | e2
            · rw [← e2, hws]; rfl
            · rw [hws] at e2; simp at e2
          · rw [wrun, hst]
            rw [hws] at e3
            have e3' : wrun k.1 k.2 .done [] = some (p'.plain, callsBy i o2) := e3
            simp only [e3', Option.map_some, ho, List.nil_append]
        cases p with
        | head =>
          cases y <;> simp only [gstep, Option.some.injEq, Prod.mk.injEq, reduceCtorEq] at h3
          obtain ⟨rfl, h3⟩ := h3
          split at e3
          · rename_i hst
            exact hstop rfl (by rw [if_pos hst]) h3.symm rfl
          · rename_i hst
            refine ⟨p', ws, e1, e2, ?_⟩
            rw [← h3]
            exact e3
        | dialing =>
          cases y <;> simp only [gstep, Option.some.injEq, Prod.mk.injEq, reduceCtorEq] at h3
          · obtain ⟨rfl, h3⟩ := h3
            exact hstep .fail rfl (by rw [← h3]; rfl)
          · obtain ⟨rfl, h3⟩ := h3
            exact hstep .opened rfl (by rw [← h3]; rfl)
        | done => cases y <;> simp [gstep] at h3
        | streaming first =>
          cases y <;> simp only [gstep, Option.some.injEq, Prod.mk.injEq, reduceCtorEq] at h3
          · rename_i t o
            obtain ⟨rfl, h3⟩ := h3
            exact hstep (.event t o) rfl (by rw [← h3]; rfl)
          · obtain ⟨rfl, h3⟩ := h3
            exact hstep .closed rfl (by rw [← h3]; rfl)
          · split at h3
            · simp only [Option.some.injEq, Prod.mk.injEq] at h3
              exact hstop rfl h3.1.symm h3.2.symm rfl
            · cases h3

/-! ## After `Stop` -/

/-- One goroutine, with `stop` closed. -/
def gall (r : GVR) (c : Str) : GPhase → List GIn → Option (GPhase × List Notice)
  | p, [] => some (p, [])
  | p, x :: xs =>
    match gstep r c true p x with
    | none => none
    | some (p', out) => (gall r c p' xs).map fun y => (y.1, out ++ y.2)

theorem Fleet.after (ins : List FIn) : ∀ {f f' : Fleet} {out : List (Nat × Notice)}, f.run ins = some (f', out) → f.stopped = true →
    ∀ {i : Nat} {k : GVR × Str} {p : GPhase}, f.gs[i]? = some (k, p) →
    ∃ p' : GPhase, f'.gs[i]? = some (k, p') ∧ gall k.1 k.2 p (doneBy i ins) = some (p', callsBy i out) := by
  induction ins with
  | nil =>
    intro f f' out h _ i k p hi
    simp only [Fleet.run, Option.some.injEq, Prod.mk.injEq] at h
    obtain ⟨rfl, rfl⟩ := h
    exact ⟨p, hi, rfl⟩
  | cons x ins ih =>
    intro f f' out h hst i k p hi
    rw [Fleet.run] at h
    cases hs : f.step x with
    | none => rw [hs] at h; cases h
    | some y =>
      obtain ⟨f1, o1⟩ := y
      rw [hs] at h
      simp only [Option.map_eq_some_iff, Prod.mk.injEq] at h
      obtain ⟨⟨f2, o2⟩, hz, rfl, rfl⟩ := h
      have hst1 : f1.stopped = true := by
        cases x with
        | stop => simp [Fleet.step, hst] at hs
        | go j y =>
          simp only [Fleet.step] at hs
          split at hs
          · cases hs
          · simp only [Option.map_eq_some_iff, Prod.mk.injEq] at hs
            obtain ⟨_, _, rfl, _⟩ := hs
            exact hst
      have hcons : doneBy i (x :: ins) = doneBy i [x] ++ doneBy i ins := doneBy_append i [x] ins
      rcases Fleet.step_at hs hi with ⟨h1, h2, h3⟩ | ⟨y, p1, rfl, h2, h3, _⟩
      · obtain ⟨p', e1, e2⟩ := ih hz hst1 h2
        rw [hcons, h1, callsBy_append, h3]
        exact ⟨p', e1, e2⟩
      · obtain ⟨p', e1, e2⟩ := ih hz hst1 h2
        have hd : doneBy i [FIn.go i y] = [y] := by simp [doneBy]
        rw [hcons, hd, callsBy_append]
        refine ⟨p', e1, ?_⟩
        rw [hst] at h3
        rw [List.singleton_append, gall, h3]
        simp only [e2, Option.map_some]

/-- What remains to be done from a phase: connections, steps and calls besides events, and what may follow. -/
structure Ends (conn extra calls : Nat) (xs : List GIn) (out : List Notice) : Prop where
  conns : xs.count .opened ≤ conn
  steps : xs.length ≤ extra + eventCount xs
  calls : out.length ≤ calls + eventCount xs
  last : ∀ a x b, xs = a ++ x :: b → x = .check ∨ x = .seen → b = []
  broke : ∀ a x b, xs = a ++ x :: b → x = .fail ∨ x = .closed → b = [] ∨ b = [.check]

theorem Ends.nil (a b d : Nat) : Ends a b d [] [] :=
  ⟨by simp, by simp [eventCount], by simp, by intro a x b h; simp at h, by intro a x b h; simp at h⟩

theorem gall_done {r : GVR} {c : Str} {xs : List GIn} {y : GPhase × List Notice} (h : gall r c .done xs = some y) :
    xs = [] ∧ y = (.done, []) := by
  cases xs with
  | nil => simp only [gall, Option.some.injEq] at h; exact ⟨rfl, h.symm⟩
  | cons x xs => cases x <;> simp [gall, gstep] at h

theorem gall_head {r : GVR} {c : Str} {xs : List GIn} {y : GPhase × List Notice} (h : gall r c .head xs = some y) :
    (xs = [] ∨ xs = [.check]) ∧ y.2 = [] := by
  cases xs with
  | nil => simp only [gall, Option.some.injEq] at h; subst h; exact ⟨Or.inl rfl, rfl⟩
  | cons x xs =>
    cases x <;> simp only [gall, gstep, reduceCtorEq, if_true, Option.map_eq_some_iff] at h
    obtain ⟨z, hz, rfl⟩ := h
    obtain ⟨rfl, rfl⟩ := gall_done hz
    exact ⟨Or.inr rfl, rfl⟩

/-- A step before the rest. -/
theorem Ends.cons {conn extra calls : Nat} {xs : List GIn} {out o : List Notice} {x : GIn} {conn' extra' calls' : Nat}
    (h : Ends conn extra calls xs out) (h1 : (if x = .opened then 1 else 0) + conn ≤ conn')
    (h2 : extra + 1 ≤ extra' + eventCount [x]) (h3 : o.length + calls ≤ calls' + eventCount [x])
    (h4 : x = .check ∨ x = .seen → xs = []) (h5 : x = .fail ∨ x = .closed → xs = [] ∨ xs = [.check]) :
    Ends conn' extra' calls' (x :: xs) (o ++ out) := by
  have hev : eventCount (x :: xs) = eventCount [x] + eventCount xs := by
    cases x <;> simp [eventCount, Nat.add_comm]
  refine ⟨?_, ?_, ?_, ?_, ?_⟩
  · have := h.conns
    rw [List.count_cons]
    simp only [beq_iff_eq]
    omega
  · have := h.steps
    rw [List.length_cons, hev]
    omega
  · have := h.calls
    rw [List.length_append, hev]
    omega
  · intro a y b e hy
    cases a with
    | nil =>
      simp only [List.nil_append, List.cons.injEq] at e
      obtain ⟨rfl, rfl⟩ := e
      exact h4 hy
    | cons z a =>
      simp only [List.cons_append, List.cons.injEq] at e
      exact h.last a y b e.2 hy
  · intro a y b e hy
    cases a with
    | nil =>
      simp only [List.nil_append, List.cons.injEq] at e
      obtain ⟨rfl, rfl⟩ := e
      exact h5 hy
    | cons z a =>
      simp only [List.cons_append, List.cons.injEq] at e
      exact h.broke a y b e.2 hy

theorem Ends.head {r : GVR} {c : Str} {xs : List GIn} {y : GPhase × List Notice} (h : gall r c .head xs = some y) :
    Ends 0 1 0 xs y.2 := by
  obtain ⟨h1, h2⟩ := gall_head h
  rw [h2]
  rcases h1 with rfl | rfl
  · exact .nil _ _ _
  · exact (Ends.nil 0 0 0).cons (o := []) (by simp) (by simp [eventCount]) (by simp [eventCount]) (fun _ => rfl) (fun _ => Or.inl rfl)

theorem Ends.streaming {r : GVR} {c : Str} (xs : List GIn) : ∀ {first : Bool} {y : GPhase × List Notice},
    gall r c (.streaming first) xs = some y → Ends 0 2 (if first then 1 else 0) xs y.2 := by
  induction xs with
  | nil =>
    intro first y h
    simp only [gall, Option.some.injEq] at h
    subst h
    exact .nil _ _ _
  | cons x xs ih =>
    intro first y h
    have hcl : (cleanFirst r c first).length = if first then 1 else 0 := by cases first <;> rfl
    cases x <;> simp only [gall, gstep, reduceCtorEq, if_true, Option.map_eq_some_iff] at h
    · rename_i t o
      obtain ⟨z, hz, rfl⟩ := h
      have hl : (evNotice r c t o).length ≤ 1 := by cases t <;> simp [evNotice]
      exact (ih hz).cons (by simp) (by simp [eventCount]) (by simp [eventCount, hcl]; exact hl) (by simp) (by simp)
    · obtain ⟨z, hz, rfl⟩ := h
      have hh := gall_head hz
      exact (Ends.head hz).cons (by simp) (by simp [eventCount]) (by rw [hcl]; simp [eventCount]) (by simp) (fun _ => hh.1)
    · obtain ⟨z, hz, rfl⟩ := h
      obtain ⟨rfl, rfl⟩ := gall_done hz
      exact (Ends.nil 0 0 0).cons (by simp) (by simp [eventCount]) (by simp [eventCount]) (fun _ => rfl) (fun _ => Or.inl rfl)

/-- Whatever the phase is when `Stop` is called. -/
theorem Ends.all {r : GVR} {c : Str} {p : GPhase} {xs : List GIn} {y : GPhase × List Notice} (h : gall r c p xs = some y) :
    Ends (if p = .dialing then 1 else 0) 3 1 xs y.2 := by
  have hw : ∀ {a b d : Nat}, a ≤ (if p = .dialing then 1 else 0) → b ≤ 3 → d ≤ 1 → Ends a b d xs y.2 →
      Ends (if p = .dialing then 1 else 0) 3 1 xs y.2 := by
    intro a b d h1 h2 h3 e
    have := e.conns
    have := e.steps
    have := e.calls
    exact ⟨by omega, by omega, by omega, e.last, e.broke⟩
  cases p with
  | done => obtain ⟨rfl, rfl⟩ := gall_done h; exact .nil _ _ _
  | head => exact hw (by simp) (by simp) (by simp) (Ends.head h)
  | streaming f => exact hw (by simp) (by simp) (by split <;> simp) (Ends.streaming xs h)
  | dialing =>
    cases xs with
    | nil => simp only [gall, Option.some.injEq] at h; subst h; exact .nil _ _ _
    | cons x xs =>
      cases x <;> simp only [gall, gstep, reduceCtorEq, Option.map_eq_some_iff] at h
      · obtain ⟨z, hz, rfl⟩ := h
        have hh := gall_head hz
        exact (Ends.head hz).cons (by simp) (by simp [eventCount]) (by simp [eventCount]) (by simp) (fun _ => hh.1)
      · obtain ⟨z, hz, rfl⟩ := h
        exact (Ends.streaming xs hz).cons (by simp) (by simp [eventCount]) (by simp [eventCount]) (by simp) (by simp)

/-! ## Who calls -/

/-- A call is about the type and cluster of the goroutine that makes it. -/
theorem Fleet.called (ins : List FIn) : ∀ {f f' : Fleet} {out : List (Nat × Notice)}, f.run ins = some (f', out) →
    ∀ e ∈ out, ∃ k p, f.gs[e.1]? = some (k, p) ∧ aboutB k.1 k.2 e.2 = true := by
  intro f f' out h e he
  cases hi : f.gs[e.1]? with
  | none =>
    exfalso
    revert f f' out
    induction ins with
    | nil =>
      intro f f' out h he hi
      simp only [Fleet.run, Option.some.injEq, Prod.mk.injEq] at h
      rw [← h.2] at he; simp at he
    | cons x ins ih =>
      intro f f' out h he hi
      rw [Fleet.run] at h
      cases hs : f.step x with
      | none => rw [hs] at h; cases h
      | some y =>
        obtain ⟨f1, o1⟩ := y
        rw [hs] at h
        simp only [Option.map_eq_some_iff, Prod.mk.injEq] at h
        obtain ⟨⟨f2, o2⟩, hz, rfl, rfl⟩ := h
        have h1 : f1.gs.length = f.gs.length ∧ e ∉ o1 := by
          cases x with
          | stop =>
            simp only [Fleet.step] at hs
            split at hs
            · cases hs
            · simp only [Option.some.injEq, Prod.mk.injEq] at hs
              obtain ⟨rfl, rfl⟩ := hs
              exact ⟨rfl, by simp⟩
          | go j y =>
            simp only [Fleet.step] at hs
            split at hs
            · cases hs
            · rename_i k' q hj
              simp only [Option.map_eq_some_iff, Prod.mk.injEq] at hs
              obtain ⟨z, hz, rfl, rfl⟩ := hs
              refine ⟨by simp, ?_⟩
              intro hm
              obtain ⟨n, _, rfl⟩ := List.mem_map.mp hm
              rw [hj] at hi
              cases hi
        rcases List.mem_append.mp he with he | he
        · exact h1.2 he
        · refine ih hz he ?_
          rw [List.getElem?_eq_none_iff] at hi ⊢
          omega
  | some x =>
    obtain ⟨k, p⟩ := x
    obtain ⟨p', ws, _, _, hw⟩ := Fleet.goroutine ins h hi
    refine ⟨k, p, rfl, wrun_about hw e.2 ?_⟩
    obtain ⟨j, n⟩ := e
    clear hw h hi
    induction out with
    | nil => simp at he
    | cons a out ih =>
      obtain ⟨j', n'⟩ := a
      rcases List.mem_cons.mp he with he | he
      · cases he; simp [callsBy]
      · simp only [callsBy]
        split
        · exact List.mem_cons_of_mem _ (ih he)
        · exact ih he

/-- With one goroutine per type and cluster, the calls about a type and cluster are those of its goroutine. -/
theorem Fleet.calls_about {ins : List FIn} {f f' : Fleet} {out : List (Nat × Notice)} (h : f.run ins = some (f', out)) {i : Nat}
    {r : GVR} {c : Str} {p : GPhase} (hi : f.gs[i]? = some ((r, c), p)) (huniq : ∀ j q, f.gs[j]? = some ((r, c), q) → j = i) :
    (out.map Prod.snd).filter (aboutB r c) = callsBy i out := by
  have hall := Fleet.called ins h
  clear h
  induction out with
  | nil => rfl
  | cons a out ih =>
    obtain ⟨j, n⟩ := a
    have ih := ih fun e he => hall e (List.mem_cons_of_mem _ he)
    obtain ⟨k, q, hk, hab⟩ := hall (j, n) List.mem_cons_self
    have hkey : aboutB r c n = true ↔ k = (r, c) := by
      have : ∀ {r' : GVR} {c' : Str}, aboutB r' c' n = true → (aboutB r c n = true ↔ (r', c') = (r, c)) := by
        intro r' c' h'
        cases n <;> simp only [aboutB, Bool.and_eq_true, decide_eq_true_eq] at h' ⊢ <;>
          (obtain ⟨rfl, rfl⟩ := h'; simp)
      exact this hab
    simp only [List.map_cons, callsBy]
    by_cases hji : j = i
    · subst hji
      rw [hi] at hk
      simp only [Option.some.injEq, Prod.mk.injEq] at hk
      rw [if_pos rfl, List.filter_cons_of_pos (hkey.mpr hk.1.symm), ih]
    · rw [if_neg hji, List.filter_cons_of_neg, ih]
      intro hn
      have := hkey.mp hn
      subst this
      exact hji (huniq j q hk)

/-- The goroutines `Start` makes. -/
theorem startFleet_mem {types : List GVR} {clusters : List Str} {i : Nat} {k : GVR × Str} {p : GPhase}
    (h : (startFleet types clusters).gs[i]? = some (k, p)) : k.1 ∈ types ∧ k.2 ∈ clusters ∧ p = .head := by
  have := List.mem_of_getElem? h
  simp only [startFleet, List.mem_flatMap, List.mem_map, Prod.mk.injEq] at this
  obtain ⟨r, hr, c, hc, rfl, rfl⟩ := this
  exact ⟨hr, hc, rfl⟩

theorem startFleet_unique {types : List GVR} {clusters : List Str} (ht : types.Nodup) (hc : clusters.Nodup) {i j : Nat}
    {k : GVR × Str} {p q : GPhase} (hi : (startFleet types clusters).gs[i]? = some (k, p))
    (hj : (startFleet types clusters).gs[j]? = some (k, q)) : i = j := by
  have hnd : ((startFleet types clusters).gs.map Prod.fst).Nodup := by
    have e : (startFleet types clusters).gs.map Prod.fst = types.flatMap fun r => clusters.map fun c => (r, c) := by
      simp [startFleet, List.map_flatMap, Function.comp_def]
    rw [e, List.nodup_flatMap]
    refine ⟨fun r _ => hc.map (by intro a b h; simpa using h), ?_⟩
    refine ht.imp ?_
    intro a b hab x hx hy
    obtain ⟨_, _, rfl⟩ := List.mem_map.mp hx
    obtain ⟨_, _, h2⟩ := List.mem_map.mp hy
    simp only [Prod.mk.injEq] at h2
    exact hab h2.1.symm
  have h1 : ((startFleet types clusters).gs.map Prod.fst)[i]? = some k := by rw [List.getElem?_map, hi]; rfl
  have h2 : ((startFleet types clusters).gs.map Prod.fst)[j]? = some k := by rw [List.getElem?_map, hj]; rfl
  have hlt := (List.getElem?_eq_some_iff.mp h1).1
  exact (List.getElem?_inj hlt hnd).mp (h1.trans h2.symm)

theorem startFleet_exists {types : List GVR} {clusters : List Str} {r : GVR} {c : Str} (hr : r ∈ types) (hc : c ∈ clusters) :
    ∃ i : Nat, (startFleet types clusters).gs[i]? = some ((r, c), .head) := by
  apply List.mem_iff_getElem?.mp
  simp only [startFleet, List.mem_flatMap, List.mem_map, Prod.mk.injEq]
  exact ⟨r, hr, c, hc, ⟨rfl, rfl⟩, trivial⟩

/-! ## Several watchers of one type -/

variable {key : Obj → Str × Str}

/-- Server, streams and cache; `v i` is what the events of the `i`-th watcher's last stream amount to. -/
structure CrowdInv (key : Obj → Str × Str) (r : GVR) (c : Str) (s : Crowd) (v : Nat → Objs) : Prop where
  map : IsMap s.objs
  keys : ∀ e ∈ s.objs, key e.2 = e.1
  about : ∀ n ∈ s.out, aboutB r c n = true
  stream : ∀ (i : Nat) (w : Peer) (f : Bool), s.peers[i]? = some w → w.phase = .streaming f → ∀ k,
    replayOn key (if f then (fun _ => none) else v i) w.pending k = lookup k s.objs
  cache : ∀ k, ∃ i, cached key s.out k = v i k ∧ i < s.peers.length

theorem CrowdInv.reported {r : GVR} {c : Str} {s : Crowd} {v : Nat → Objs} (hi : CrowdInv key r c s v) (e : EvType × Obj)
    {objs : List ((Str × Str) × Obj)} (hm : IsMap objs) (hk : ∀ x ∈ objs, key x.2 = x.1)
    (hl : ∀ k, applyEvent key (fun k => lookup k s.objs) e k = lookup k objs) :
    CrowdInv key r c { s with objs := objs, peers := s.peers.map fun p => p.report e } v := by
  refine ⟨hm, hk, hi.about, ?_, ?_⟩
  · intro i w f hw hf k
    simp only [List.getElem?_map, Option.map_eq_some_iff] at hw
    obtain ⟨w0, hw0, rfl⟩ := hw
    have hph : w0.phase = .streaming f := by
      cases hp : w0.phase <;> simp only [Peer.report, hp] at hf
      · cases hf
      · exact hf
      · cases hf
    have hpe : (w0.report e).pending = w0.pending ++ [e] := by simp only [Peer.report, hph]
    rw [hpe, replayOn_append]
    have : replayOn key (if f then (fun _ => none) else v i) w0.pending = fun k => lookup k s.objs :=
      funext (hi.stream i w0 f hw0 hph)
    rw [this, ← hl k]
    rfl
  · intro k
    obtain ⟨i, h1, h2⟩ := hi.cache k
    exact ⟨i, h1, by simpa using h2⟩

/-- The `i`-th watcher does something: its view changes as the cache does. -/
theorem CrowdInv.moved {r : GVR} {c : Str} {s : Crowd} {v : Nat → Objs} (hi : CrowdInv key r c s v) {i : Nat} {w w' : Peer}
    (hw : s.peers[i]? = some w) {out : List Notice} (hab : ∀ n ∈ out, aboutB r c n = true) (m : Objs)
    (hst : ∀ f, w'.phase = .streaming f → ∀ k, replayOn key (if f then (fun _ => none) else m) w'.pending k = lookup k s.objs)
    (hcache : ∀ k, (∃ o, out.foldl (applyNotice key) o k = m k ∧ ∀ o', out.foldl (applyNotice key) o' k = m k)
      ∨ ((∀ o, out.foldl (applyNotice key) o k = o k) ∧ m k = v i k)) :
    CrowdInv key r c { s with peers := s.peers.set i w', out := s.out ++ out } (fun j => if j = i then m else v j) := by
  have hlt := (List.getElem?_eq_some_iff.mp hw).1
  refine ⟨hi.map, hi.keys, ?_, ?_, ?_⟩
  · intro n hn
    rcases List.mem_append.mp hn with hn | hn
    · exact hi.about n hn
    · exact hab n hn
  · intro j u f hu hf k
    simp only at hu ⊢
    by_cases hji : j = i
    · subst hji
      rw [List.getElem?_set_self hlt] at hu
      cases hu
      simp only [if_true]
      exact hst f hf k
    · rw [List.getElem?_set_ne (Ne.symm hji)] at hu
      simp only [if_neg hji]
      exact hi.stream j u f hu hf k
  · intro k
    simp only [cached_append, List.length_set]
    rcases hcache k with ⟨_, _, h1⟩ | ⟨h1, h2⟩
    · exact ⟨i, by rw [if_pos rfl]; exact h1 _, hlt⟩
    · obtain ⟨j, h3, h4⟩ := hi.cache k
      refine ⟨j, ?_, h4⟩
      rw [h1, h3]
      by_cases hji : j = i
      · subst hji; rw [if_pos rfl, h2]
      · rw [if_neg hji]

theorem applyEvent_key (t : EvType) (o : Obj) (k : Str × Str) :
    (∀ m m' : Objs, applyEvent key m (t, o) k = applyEvent key m' (t, o) k) ∨ (∀ m : Objs, applyEvent key m (t, o) k = m k) := by
  by_cases hk : key o = k
  · cases t <;> simp [applyEvent, hk]
  · exact Or.inr fun m => by cases t <;> simp [applyEvent, hk]

theorem CrowdInv.step {r : GVR} {c : Str} (hkey : ∀ o k, metaKey o = some k → key o = k) {s t : Crowd} {v : Nat → Objs}
    (hi : CrowdInv key r c s v) (h : CrowdStep r c s t) : ∃ v', CrowdInv key r c t v' := by
  -- an event received
  have hevent : ∀ {i : Nat} {w : Peer} {p : WPhase} {out : List Notice} {ty : EvType} {o : Obj} {rest : List (EvType × Obj)},
      s.peers[i]? = some w → wstep r c w.phase (.event ty o) = some (p, out) →
      (∀ m k, replayOn key m w.pending k = replayOn key (applyEvent key m (ty, o)) rest k) →
      ∃ v', CrowdInv key r c { s with peers := s.peers.set i ⟨p, rest⟩, out := s.out ++ out } v' := by
    intro i w p out ty o rest hw hs hrest
    cases hph : w.phase with
    | connecting => rw [hph] at hs; simp [wstep] at hs
    | done => rw [hph] at hs; simp [wstep] at hs
    | streaming f0 =>
      rw [hph] at hs
      have hab := wstep_about hs
      simp only [wstep, Option.some.injEq, Prod.mk.injEq] at hs
      obtain ⟨rfl, rfl⟩ := hs
      refine ⟨_, hi.moved hw hab (applyEvent key (if f0 then (fun _ => none) else v i) (ty, o)) ?_ ?_⟩
      · intro f hf k
        simp only [WPhase.streaming.injEq] at hf
        subst hf
        simp only [Bool.false_eq_true, if_false]
        rw [← hrest, hi.stream i w f0 hw hph]
      · intro k
        simp only [List.foldl_append, foldl_cleanFirst, foldl_evNotice]
        cases f0 with
        | true => exact Or.inl ⟨fun _ => none, rfl, fun _ => rfl⟩
        | false =>
          simp only [Bool.false_eq_true, if_false]
          rcases applyEvent_key (key := key) ty o k with h1 | h1
          · exact Or.inl ⟨v i, rfl, fun o' => h1 _ _⟩
          · exact Or.inr ⟨h1, h1 _⟩
  cases h with
  | @create k o hk hn =>
    refine ⟨v, hi.reported (.added, o) (isMap_insertKV hi.map) ?_ ?_⟩
    · intro e he
      rcases mem_insertKV he with rfl | he
      · exact hkey _ _ hk
      · exact hi.keys e he
    · intro k'; rw [lookup_insertKV]; simp only [applyEvent, hkey _ _ hk]
  | @update k o old hk ho =>
    refine ⟨v, hi.reported (.modified, o) (isMap_insertKV hi.map) ?_ ?_⟩
    · intro e he
      rcases mem_insertKV he with rfl | he
      · exact hkey _ _ hk
      · exact hi.keys e he
    · intro k'; rw [lookup_insertKV]; simp only [applyEvent, hkey _ _ hk]
  | @delete k o old hk ho =>
    refine ⟨v, hi.reported (.deleted, o) (isMap_eraseKV hi.map) (fun e he => hi.keys e (mem_eraseKV_of he)) ?_⟩
    intro k'; rw [lookup_eraseKV hi.map]; simp only [applyEvent, hkey _ _ hk]
  | @fail i w p out hw hs =>
    have hp : w.phase = .connecting := by cases hp : w.phase <;> rw [hp] at hs <;> simp [wstep] at hs
    have hab := wstep_about hs
    rw [hp] at hs
    simp only [wstep, Option.some.injEq, Prod.mk.injEq] at hs
    obtain ⟨rfl, rfl⟩ := hs
    exact ⟨_, hi.moved hw hab (v i) (by intro f hf; cases hf) fun k => Or.inr ⟨fun _ => rfl, rfl⟩⟩
  | @opened i w p out l hw hl hs =>
    have hp : w.phase = .connecting := by cases hp : w.phase <;> rw [hp] at hs <;> simp [wstep] at hs
    have hab := wstep_about hs
    rw [hp] at hs
    simp only [wstep, Option.some.injEq, Prod.mk.injEq] at hs
    obtain ⟨rfl, rfl⟩ := hs
    refine ⟨_, hi.moved hw hab (v i) ?_ fun k => Or.inr ⟨fun _ => rfl, rfl⟩⟩
    intro f hf k
    simp only [WPhase.streaming.injEq] at hf
    subst hf
    simp only [if_true]
    have hlm : IsMap l := by unfold IsMap; exact ((hl.map Prod.fst).nodup_iff).mpr hi.map
    rw [replayOn_initial l (fun e he => hi.keys e (hl.mem_iff.mp he)) _ _ hlm, ← lookup_perm hlm hl k]
    cases lookup k l <;> rfl
  | @deliver i w p out ty o rest hw hp hs => exact hevent hw hs fun m k => by rw [hp]; rfl
  | @other i w p out ty o hw ht hs =>
    exact hevent hw hs fun m k => by rcases ht with rfl | rfl <;> rfl
  | @closed i w p out hw hs =>
    have hab := wstep_about hs
    cases hph : w.phase with
    | connecting => rw [hph] at hs; simp [wstep] at hs
    | done => rw [hph] at hs; simp [wstep] at hs
    | streaming f0 =>
      rw [hph] at hs
      simp only [wstep, Option.some.injEq, Prod.mk.injEq] at hs
      obtain ⟨rfl, rfl⟩ := hs
      refine ⟨_, hi.moved hw hab (if f0 then (fun _ => none) else v i) (by intro f hf; cases hf) ?_⟩
      intro k
      simp only [foldl_cleanFirst]
      cases f0 with
      | true => exact Or.inl ⟨fun _ => none, rfl, fun _ => rfl⟩
      | false => exact Or.inr ⟨fun _ => rfl, rfl⟩

theorem CrowdInv.run {r : GVR} {c : Str} (hkey : ∀ o k, metaKey o = some k → key o = k) {s t : Crowd} {v : Nat → Objs}
    (hi : CrowdInv key r c s v) (h : CrowdRun r c s t) : ∃ v', CrowdInv key r c t v' := by
  induction h with
  | refl => exact ⟨v, hi⟩
  | step _ hs ih => obtain ⟨v', hi'⟩ := ih; exact hi'.step hkey hs

theorem CrowdStep.length {r : GVR} {c : Str} {s t : Crowd} (h : CrowdStep r c s t) : t.peers.length = s.peers.length := by
  cases h <;> simp

end Ckube
