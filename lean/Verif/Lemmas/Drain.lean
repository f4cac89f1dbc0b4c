import Verif.Spec.Drain
import Verif.Lemmas.World
import Verif.Lemmas.Terminate

/-! # The whole when nothing new happens: the work to be done becomes less with every step -/

namespace Ckube
open Spec

variable {isPrint : Nat → Bool} {eval : Str → Obj → Str} {alg : SliceSort} {pf : Str → Option GoFloat}
  {conf : List (GVR × List (Str × Str))} {cs : List (GVR × Str)}

theorem Spec.Drain.step {w w' : World} (h : Drain isPrint eval alg pf conf cs w w') : WStep isPrint eval alg pf conf w w' := by
  cases h with
  | run h => exact .run h
  | opened _ ht hc hl hw => exact .watch (.opened hl hw) ht hc rfl
  | deliver _ ht hc hp hw => exact .watch (.deliver hp hw) ht hc rfl
  | invoke _ hg ht hc => exact .invoke hg ht hc
  | returned _ hc ht hr => exact .returned hc ht hr

/-- Events to come. -/
def Spec.Sys.events (s : Sys) : Nat :=
  match s.phase with
  | .connecting => s.objs.length
  | .streaming _ => s.pending.length
  | .done => 0

/-- A bound for the steps of a store call of a watcher, with those of making it and coming back. -/
def callCost (K : Nat) : Nat := 46 + 4 * K

/-- A bound for the steps a watcher still has to make. -/
def Spec.Comp.work (K : Nat) (k : Comp) : Nat :=
  (if k.calling.isSome then 1 else 0) + k.todo.length * callCost K + k.sys.events * (2 * callCost K + 1)
    + (if k.sys.phase = .connecting then 1 else 0)

/-- A bound for the map entries its store calls will make. -/
def Spec.Comp.room (k : Comp) : Nat := 2 * k.todo.length + 4 * k.sys.events

def Spec.World.work (K : Nat) (cs : List (GVR × Str)) (w : World) : Nat :=
  w.store.weight K + (cs.map fun p => (w.comp p.1 p.2).work K).sum

def Spec.World.room (cs : List (GVR × Str)) (w : World) : Nat :=
  w.store.size + (cs.map fun p => (w.comp p.1 p.2).room).sum

theorem sum_at {f g : GVR × Str → Nat} {p : GVR × Str} (hfg : ∀ q, q ≠ p → g q = f q) :
    ∀ (cs : List (GVR × Str)), cs.Nodup → p ∈ cs → (cs.map g).sum + f p = (cs.map f).sum + g p
  | [], _, h => by simp at h
  | q :: cs, hn, h => by
    rw [List.nodup_cons] at hn
    simp only [List.map_cons, List.sum_cons]
    by_cases hq : q = p
    · subst hq
      have : cs.map g = cs.map f := List.map_congr_left fun a ha => hfg a (fun e => hn.1 (e ▸ ha))
      rw [this]; omega
    · have := sum_at hfg cs hn.2 (by simpa [Ne.symm hq] using h)
      rw [hfg q hq]; omega

theorem sum_set_comp {cs : List (GVR × Str)} (hn : cs.Nodup) (f : Comp → Nat) {w : World} {g : GVR} {c : Str} {k : Comp}
    (hm : (g, c) ∈ cs) : (cs.map fun p => f ((w.set g c k).comp p.1 p.2)).sum + f (w.comp g c)
      = (cs.map fun p => f (w.comp p.1 p.2)).sum + f k := by
  have := sum_at (f := fun p => f (w.comp p.1 p.2)) (g := fun p => f ((w.set g c k).comp p.1 p.2)) (p := (g, c)) (by
    intro q hq
    show f (if q.1 = g ∧ q.2 = c then k else w.comp q.1 q.2) = _
    rw [if_neg]
    rintro ⟨rfl, rfl⟩
    exact hq rfl) cs hn hm
  simp only at this
  rw [this]
  show _ + f (if g = g ∧ c = c then k else w.comp g c) = _
  rw [if_pos ⟨rfl, rfl⟩]

set_option linter.unusedSimpArgs false in
theorem notice_cost (K : Nat) (n : Notice) :
    progWeight K ((COp.notice n).prog eval conf) + 3 ≤ callCost K ∧ inits ((COp.notice n).prog eval conf) ≤ 2 := by
  cases n <;> simp only [COp.prog, notifyProg, initProg, cleanProg, progWeight, callCost, List.map_append, List.map_cons, List.map_nil,
    List.sum_append, List.sum_cons, List.sum_nil, Instr.weight, inits, List.countP_append, List.countP_cons, List.countP_nil,
    Instr.isInit, List.cons_append, List.nil_append] <;> exact ⟨by omega, by simp⟩

theorem call_measure (K : Nat) (σ : CState) (n : Notice) :
    (σ.call eval conf (.notice n)).weight K + 2 ≤ σ.weight K + callCost K ∧ (σ.call eval conf (.notice n)).size ≤ σ.size + 2 := by
  obtain ⟨h1, h2⟩ := notice_cost (eval := eval) (conf := conf) K n
  unfold CState.weight CState.size CState.call
  simp only [List.map_append, List.map_cons, List.map_nil, List.sum_append, List.sum_cons, List.sum_nil]
  constructor
  · unfold Thr.weight
    simp only [Phase.done]
    simp
    omega
  · omega

theorem wstep_out {g : GVR} {c : Str} {p p' : WPhase} {i : WIn} {out : List Notice} (h : wstep g c p i = some (p', out)) : out.length ≤ 2 := by
  have key : ∀ (f : Bool) (t : EvType) (o : Obj), (cleanFirst g c f ++ evNotice g c t o).length ≤ 2 := by
    intro f t o; cases f <;> cases t <;> simp [evNotice, cleanFirst]
  have key' : ∀ (f : Bool), (cleanFirst g c f).length ≤ 2 := by intro f; cases f <;> simp [cleanFirst]
  cases p <;> cases i <;> simp only [wstep, Option.some.injEq, Prod.mk.injEq, reduceCtorEq] at h <;> obtain ⟨_, rfl⟩ := h <;>
    first | exact key _ _ _ | exact key' _ | simp

/-- With every step there is less work. -/
theorem Spec.Drain.less {K : Nat} (hn : cs.Nodup) {past : List World} {w w' : World} (hw : WRun isPrint eval alg pf conf past w)
    (hK : w.room cs ≤ K) (h : Drain isPrint eval alg pf conf cs w w') : w'.room cs ≤ w.room cs ∧ w'.work K cs < w.work K cs := by
  cases h with
  | @run i σ h =>
    obtain ⟨states, he, _, _⟩ := hw.exec
    have hs : w.store.size ≤ K := by unfold World.room at hK; omega
    obtain ⟨h1, h2⟩ := step_weight (K := K) (Good.exec (fun _ h => h) he) (LockInv.exec (fun _ h => h) he) hs h
    unfold World.room World.work
    exact ⟨by simp only; omega, by simp only; omega⟩
  | @opened g c p out l hm ht hc hl hws =>
    have hph : (w.comp g c).sys.phase = .connecting ∧ p = .streaming true ∧ out = [] := by
      cases hp : (w.comp g c).sys.phase with
      | connecting => rw [hp] at hws; simp only [wstep, Option.some.injEq, Prod.mk.injEq] at hws; exact ⟨rfl, hws.1.symm, hws.2.symm⟩
      | streaming f => rw [hp] at hws; simp [wstep] at hws
      | done => rw [hp] at hws; simp [wstep] at hws
    obtain ⟨hph, rfl, rfl⟩ := hph
    have h1 := sum_set_comp hn (Comp.work K) (w := w) (k := { sys := { (w.comp g c).sys with phase := .streaming true, out := (w.comp g c).sys.out ++ [], pending := l.map fun e => (.added, e.2) }, todo := [] }) hm
    have h2 := sum_set_comp hn Comp.room (w := w) (k := { sys := { (w.comp g c).sys with phase := .streaming true, out := (w.comp g c).sys.out ++ [], pending := l.map fun e => (.added, e.2) }, todo := [] }) hm
    have e1 : (w.comp g c).work K = (w.comp g c).sys.objs.length * (2 * callCost K + 1) + 1 := by
      unfold Comp.work Sys.events; simp [ht, hc, hph]
    have e2 : (w.comp g c).room = 4 * (w.comp g c).sys.objs.length := by unfold Comp.room Sys.events; simp [ht, hph]
    have e3 : l.length = (w.comp g c).sys.objs.length := hl.length_eq
    unfold World.room World.work
    constructor
    · rw [e2] at h2
      simp only [Comp.room, Sys.events, List.length_nil, List.length_map, e3] at h2 ⊢
      show w.store.size + _ ≤ _
      omega
    · rw [e1] at h1
      simp only [Comp.work, Sys.events, List.length_nil, List.length_map, e3, Option.isSome_none, reduceCtorEq, if_false,
        Bool.false_eq_true, Nat.zero_mul, Nat.zero_add, Nat.add_zero] at h1 ⊢
      show w.store.weight K + _ < _
      omega
  | @deliver g c p out t o rest hm ht hc hp hws =>
    have hph : ∃ f, (w.comp g c).sys.phase = .streaming f ∧ p = .streaming false := by
      cases hp : (w.comp g c).sys.phase with
      | connecting => rw [hp] at hws; simp [wstep] at hws
      | streaming f => rw [hp] at hws; simp only [wstep, Option.some.injEq, Prod.mk.injEq] at hws; exact ⟨f, rfl, hws.1.symm⟩
      | done => rw [hp] at hws; simp [wstep] at hws
    obtain ⟨f, hph, rfl⟩ := hph
    have hout := wstep_out hws
    have h1 := sum_set_comp hn (Comp.work K) (w := w) (k := { sys := { (w.comp g c).sys with phase := .streaming false, out := (w.comp g c).sys.out ++ out, pending := rest }, todo := out }) hm
    have h2 := sum_set_comp hn Comp.room (w := w) (k := { sys := { (w.comp g c).sys with phase := .streaming false, out := (w.comp g c).sys.out ++ out, pending := rest }, todo := out }) hm
    have e1 : (w.comp g c).work K = rest.length * (2 * callCost K + 1) + (2 * callCost K + 1) := by
      unfold Comp.work Sys.events; simp [ht, hc, hph, hp, Nat.succ_mul]
    have e2 : (w.comp g c).room = 4 * rest.length + 4 := by unfold Comp.room Sys.events; simp [ht, hph, hp]; omega
    have e3 : out.length * callCost K ≤ 2 * callCost K := Nat.mul_le_mul_right _ hout
    unfold World.room World.work
    constructor
    · rw [e2] at h2
      simp only [Comp.room, Sys.events] at h2 ⊢
      show w.store.size + _ ≤ _
      omega
    · rw [e1] at h1
      simp only [Comp.work, Sys.events, Option.isSome_none, reduceCtorEq, if_false,
        Bool.false_eq_true, Nat.zero_add, Nat.add_zero] at h1 ⊢
      show w.store.weight K + _ < _
      omega
  | @invoke g c n rest hm hg ht hc =>
    obtain ⟨m1, m2⟩ := call_measure (eval := eval) (conf := conf) K w.store n
    have h1 := sum_set_comp hn (Comp.work K) (w := w) (k := { sys := (w.comp g c).sys, todo := rest, calling := some w.store.thrs.length }) hm
    have h2 := sum_set_comp hn Comp.room (w := w) (k := { sys := (w.comp g c).sys, todo := rest, calling := some w.store.thrs.length }) hm
    have e1 : (w.comp g c).work K = rest.length * callCost K + callCost K + (w.comp g c).sys.events * (2 * callCost K + 1)
        + (if (w.comp g c).sys.phase = .connecting then 1 else 0) := by
      unfold Comp.work; simp [ht, hc, Nat.succ_mul]
    have e2 : (w.comp g c).room = 2 * rest.length + 2 + 4 * (w.comp g c).sys.events := by unfold Comp.room; simp [ht]; omega
    unfold World.room World.work
    constructor
    · rw [e2] at h2
      simp only [Comp.room] at h2 ⊢
      show (w.store.call eval conf (.notice n)).size + (cs.map fun p => Comp.room ((w.set g c _).comp p.1 p.2)).sum ≤ _
      simp only [Comp.room]
      omega
    · have e3 : Comp.work K { sys := (w.comp g c).sys, todo := rest, calling := some w.store.thrs.length }
          = 1 + rest.length * callCost K + (w.comp g c).sys.events * (2 * callCost K + 1)
            + (if (w.comp g c).sys.phase = .connecting then 1 else 0) := by simp [Comp.work]
      rw [e1, e3] at h1
      show (w.store.call eval conf (.notice n)).weight K + (cs.map fun p => Comp.work K ((w.set g c _).comp p.1 p.2)).sum < _
      omega
  | @returned g c i t hm hc ht hr =>
    have h1 := sum_set_comp hn (Comp.work K) (w := w) (k := { w.comp g c with calling := none }) hm
    have h2 := sum_set_comp hn Comp.room (w := w) (k := { w.comp g c with calling := none }) hm
    unfold World.room World.work
    constructor
    · simp only [Comp.room] at h2 ⊢
      show w.store.size + _ ≤ _
      omega
    · simp only [Comp.work, hc, Option.isSome_some, Option.isSome_none, if_true, Bool.false_eq_true, if_false] at h1 ⊢
      show w.store.weight K + _ < _
      omega

/-- A watcher in a store call is in one that was made. -/
theorem calling_made {past : List World} {w : World} (hw : WRun isPrint eval alg pf conf past w) :
    ∀ g c i, (w.comp g c).calling = some i → i < w.store.thrs.length := by
  have set_ : ∀ {v : World} {g : GVR} {c : Str} {k : Comp} {N : Nat}, (∀ g c i, (v.comp g c).calling = some i → i < N) →
      (∀ i, k.calling = some i → i < N) → ∀ g' c' i, ((v.set g c k).comp g' c').calling = some i → i < N := by
    intro v g c k N h1 h2 g' c' i h
    have h : (if g' = g ∧ c' = c then k else v.comp g' c').calling = some i := h
    split at h
    · exact h2 i h
    · exact h1 g' c' i h
  induction hw with
  | start => intro g c i h; simp at h
  | @step past w w' _ hs ih =>
    cases hs with
    | @run i σ h =>
      have : σ.thrs.length = w.store.thrs.length := by
        rcases h.cases with ⟨_, _, _, _, e, _⟩ | ⟨e, _⟩ | ⟨_, _, _, _, e, _⟩ <;> rw [e] <;> simp
      intro g c j hj
      show j < σ.thrs.length
      rw [this]
      exact ih g c j hj
    | client hv hn =>
      intro g c j hj
      have := ih g c j hj
      show j < (w.store.thrs ++ [_]).length
      rw [List.length_append]; omega
    | @server g c s h hp ho => exact set_ ih (fun i hi => ih g c i hi)
    | @watch g c s new h ht hc ho => exact set_ ih (fun i hi => by simp at hi)
    | @invoke g c n rest hg ht hc =>
      refine set_ (v := { w with store := w.store.call eval conf (.notice n) }) (fun g c j hj => ?_) (fun j hj => ?_)
      · have := ih g c j hj
        show j < (w.store.thrs ++ [_]).length
        rw [List.length_append]; omega
      · simp only [Option.some.injEq] at hj
        subst hj
        show _ < (w.store.thrs ++ [_]).length
        simp
    | @returned g c i t hc ht hr => exact set_ ih (fun i hi => by simp at hi)

end Ckube
