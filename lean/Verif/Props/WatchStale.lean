import Verif.Props.WatchClock
import Verif.Props.Store

/-! # C129: how long a deleted object stays in the cache -/

namespace Ckube
open Spec

variable {r : GVR} {c : Str}

/-! ## Helpers -/

/-- A step with the clock is a step of the watcher without, or none. -/
theorem clockStep_sys {s t : ClockSys} {b : Bool} (h0 : (∀ b e, s.w.pc ≠ .reading b e) → s.pending = []) (h : ClockStep r c b s t) : SysRun r c s.untimed t.untimed := by
  have report : ∀ (s : ClockSys) e, s.report e = s.untimed.report e := by
    intro s e
    unfold ClockSys.report Sys.report ClockSys.untimed
    cases s.w.pc <;> rfl
  cases h with
  | create hk hn =>
    have := SysRun.step (.refl s.untimed) (SysStep.create (r := r) (c := c) (s := s.untimed) hk hn)
    rw [← report] at this
    exact this
  | update hk ho =>
    have := SysRun.step (.refl s.untimed) (SysStep.update (r := r) (c := c) (s := s.untimed) hk ho)
    rw [← report] at this
    exact this
  | delete hk ho =>
    have := SysRun.step (.refl s.untimed) (SysStep.delete (r := r) (c := c) (s := s.untimed) hk ho)
    rw [← report] at this
    exact this
  | tick hw =>
    rcases tstep_cases hw with ⟨d, -, -, rfl⟩ | ⟨h, -⟩ | ⟨h, -⟩ | ⟨h, -⟩ | ⟨e, h, -⟩ | ⟨e, h, -⟩ | ⟨f, e, t, o, h, -⟩ | ⟨f, e, h, -⟩ | ⟨f, e, h, -⟩ | ⟨u, h, -⟩ <;>
      first | exact .refl _ | cases h
  | stop hw =>
    rcases tstep_cases hw with ⟨d, h, -⟩ | ⟨-, rfl⟩ | ⟨h, -⟩ | ⟨h, -⟩ | ⟨e, h, -⟩ | ⟨e, h, -⟩ | ⟨f, e, t, o, h, -⟩ | ⟨f, e, h, -⟩ | ⟨f, e, h, -⟩ | ⟨u, h, -⟩ <;>
      first | exact .refl _ | cases h
  | head hw =>
    rcases tstep_cases hw with ⟨d, h, -⟩ | ⟨h, -⟩ | ⟨-, hp, -, rfl⟩ | ⟨-, hp, -, rfl⟩ | ⟨e, h, -⟩ | ⟨e, h, -⟩ | ⟨f, e, t, o, h, -⟩ | ⟨f, e, h, -⟩ | ⟨f, e, h, -⟩
      | ⟨u, h, -⟩ <;> first | cases h | skip
    · have hn : s.pending = [] := h0 (by intro b e; rw [hp]; simp)
      have := SysRun.step (.refl s.untimed) (SysStep.stop (r := r) (c := c) (s := s.untimed) (p := .done) (out := []) (by unfold ClockSys.untimed; rw [hp]; rfl))
      rw [List.append_nil] at this
      have e2 : ({ s with w := { s.w with pc := .done } } : ClockSys).untimed = { s.untimed with phase := .done, out := s.untimed.out, pending := [] } := by
        unfold ClockSys.untimed ClockSys.told
        rw [hn]
        rfl
      rw [e2]
      exact this
    · have : ({ s with w := { s.w with pc := .dialing (s.w.now + 3600000), tries := s.w.now :: s.w.tries } } : ClockSys).untimed = s.untimed := by
        unfold ClockSys.untimed ClockSys.told
        rw [hp]
        rfl
      rw [this]
      exact .refl _
  | wake hw =>
    rcases tstep_cases hw with ⟨d, h, -⟩ | ⟨h, -⟩ | ⟨h, -⟩ | ⟨h, -⟩ | ⟨e, h, -⟩ | ⟨e, h, -⟩ | ⟨f, e, t, o, h, -⟩ | ⟨f, e, h, -⟩ | ⟨f, e, h, -⟩
      | ⟨u, -, hp, -, rfl⟩ <;> first | cases h | skip
    have : ({ s with w := { s.w with pc := .head } } : ClockSys).untimed = s.untimed := by
      unfold ClockSys.untimed ClockSys.told
      rw [hp]
      rfl
    rw [this]
    exact .refl _
  | fail hw =>
    rcases tstep_cases hw with ⟨d, h, -⟩ | ⟨h, -⟩ | ⟨h, -⟩ | ⟨h, -⟩ | ⟨e, -, hp, rfl⟩ | ⟨e, h, -⟩ | ⟨f, e, t, o, h, -⟩ | ⟨f, e, h, -⟩ | ⟨f, e, h, -⟩
      | ⟨u, h, -⟩ <;> first | cases h | skip
    have : ({ s with w := { s.w with pc := .asleep (s.w.now + 15000) } } : ClockSys).untimed = s.untimed := by
      unfold ClockSys.untimed ClockSys.told
      rw [hp]
      rfl
    rw [this]
    exact .refl _
  | @opened _ w l hl hw =>
    rcases tstep_cases hw with ⟨d, h, -⟩ | ⟨h, -⟩ | ⟨h, -⟩ | ⟨h, -⟩ | ⟨e, h, -⟩ | ⟨e, -, hp, rfl⟩ | ⟨f, e, t, o, h, -⟩ | ⟨f, e, h, -⟩ | ⟨f, e, h, -⟩
      | ⟨u, h, -⟩ <;> first | cases h | skip
    have := SysRun.step (.refl s.untimed) (SysStep.opened (r := r) (c := c) (s := s.untimed) (p := .streaming true) (out := []) hl
      (by unfold ClockSys.untimed; rw [hp]; rfl))
    rw [List.append_nil] at this
    exact this
  | @deliver _ w t o rest hpend hw =>
    rcases tstep_cases hw with ⟨d, h, -⟩ | ⟨h, -⟩ | ⟨h, -⟩ | ⟨h, -⟩ | ⟨e, h, -⟩ | ⟨e, h, -⟩ | ⟨f, e, t', o', h, hp, rfl⟩ | ⟨f, e, h, -⟩ | ⟨f, e, h, -⟩
      | ⟨u, h, -⟩ <;> first | cases h | skip
    have := SysRun.step (.refl s.untimed) (SysStep.deliver (r := r) (c := c) (s := s.untimed) (p := .streaming false)
      (out := cleanFirst r c f ++ evNotice r c t o) hpend (by unfold ClockSys.untimed; rw [hp]; rfl))
    have e2 : ({ s with w := { s.w with pc := .reading false e, calls := s.w.calls ++ (cleanFirst r c f ++ evNotice r c t o).map fun n => (s.w.now, n) }, pending := rest } : ClockSys).untimed
        = { s.untimed with phase := .streaming false, out := s.untimed.out ++ (cleanFirst r c f ++ evNotice r c t o), pending := rest } := by
      unfold ClockSys.untimed ClockSys.told
      simp [WPc.phase, Function.comp_def]
    rw [e2]
    exact this
  | @other _ w t o ht hw =>
    rcases tstep_cases hw with ⟨d, h, -⟩ | ⟨h, -⟩ | ⟨h, -⟩ | ⟨h, -⟩ | ⟨e, h, -⟩ | ⟨e, h, -⟩ | ⟨f, e, t', o', h, hp, rfl⟩ | ⟨f, e, h, -⟩ | ⟨f, e, h, -⟩
      | ⟨u, h, -⟩ <;> first | cases h | skip
    have := SysRun.step (.refl s.untimed) (SysStep.other (r := r) (c := c) (s := s.untimed) (p := .streaming false)
      (out := cleanFirst r c f ++ evNotice r c t o) ht (by unfold ClockSys.untimed; rw [hp]; rfl))
    have e2 : ({ s with w := { s.w with pc := .reading false e, calls := s.w.calls ++ (cleanFirst r c f ++ evNotice r c t o).map fun n => (s.w.now, n) } } : ClockSys).untimed
        = { s.untimed with phase := .streaming false, out := s.untimed.out ++ (cleanFirst r c f ++ evNotice r c t o) } := by
      unfold ClockSys.untimed ClockSys.told
      simp [WPc.phase, Function.comp_def]
    rw [e2]
    exact this
  | closed hw =>
    rcases tstep_cases hw with ⟨d, h, -⟩ | ⟨h, -⟩ | ⟨h, -⟩ | ⟨h, -⟩ | ⟨e, h, -⟩ | ⟨e, h, -⟩ | ⟨f, e, t', o', h, -⟩ | ⟨f, e, -, hp, rfl⟩ | ⟨f, e, h, -⟩
      | ⟨u, h, -⟩ <;> first | cases h | skip
    have := SysRun.step (.refl s.untimed) (SysStep.closed (r := r) (c := c) (s := s.untimed) (p := .connecting)
      (out := cleanFirst r c f) (by unfold ClockSys.untimed; rw [hp]; rfl))
    have e2 : ({ s with w := { s.w with pc := .asleep (s.w.now + 3000), calls := s.w.calls ++ (cleanFirst r c f).map fun n => (s.w.now, n) }, pending := [] } : ClockSys).untimed
        = { s.untimed with phase := .connecting, out := s.untimed.out ++ cleanFirst r c f, pending := [] } := by
      unfold ClockSys.untimed ClockSys.told
      simp [WPc.phase, Function.comp_def]
    rw [e2]
    exact this
  | seen hw =>
    rcases tstep_cases hw with ⟨d, h, -⟩ | ⟨h, -⟩ | ⟨h, -⟩ | ⟨h, -⟩ | ⟨e, h, -⟩ | ⟨e, h, -⟩ | ⟨f, e, t', o', h, -⟩ | ⟨f, e, h, -⟩ | ⟨f, e, -, hp, -, rfl⟩
      | ⟨u, h, -⟩ <;> first | cases h | skip
    have := SysRun.step (.refl s.untimed) (SysStep.stop (r := r) (c := c) (s := s.untimed) (p := .done) (out := []) (by unfold ClockSys.untimed; rw [hp]; rfl))
    rw [List.append_nil] at this
    exact this

/-- What is pending was sent on the open stream; the objects have their names. -/
structure ClockInv (s : ClockSys) : Prop where
  time : TInv s.w
  pending : (∀ b e, s.w.pc ≠ .reading b e) → s.pending = []
  keys : ∀ e ∈ s.objs, metaKey e.2 = some e.1

theorem clock_init : ClockInv {} := ⟨TInv.init, fun _ => rfl, by simp⟩

theorem ClockInv.step {s t : ClockSys} {b : Bool} (hi : ClockInv s) (h : ClockStep r c b s t) : ClockInv t := by
  have rep : ∀ (e : EvType × Obj), (∀ b e, s.w.pc ≠ .reading b e) → s.report e = [] := by
    intro e hn
    unfold ClockSys.report
    cases hp : s.w.pc with
    | reading b e => exact absurd hp (hn b e)
    | _ => simp only; exact hi.pending hn
  have nor : ∀ {i : TIn} {w : WTimed}, tstep r c s.w i = some w → (∀ b e, w.pc ≠ .reading b e) → i ≠ .closed → i ≠ .seen → s.pending = [] := by
    intro i w hw hn h1 h2
    rcases tstep_cases hw with ⟨d, -, -, rfl⟩ | ⟨-, rfl⟩ | ⟨-, hp, -, -⟩ | ⟨-, hp, -, -⟩ | ⟨e, -, hp, -⟩ | ⟨e, -, hp, -⟩
      | ⟨f, e, t, o, -, hp, rfl⟩ | ⟨f, e, rfl, -⟩ | ⟨f, e, rfl, -⟩ | ⟨u, -, hp, -⟩
    · exact hi.pending hn
    · exact hi.pending hn
    · exact hi.pending (by intro b e; rw [hp]; simp)
    · exact hi.pending (by intro b e; rw [hp]; simp)
    · exact hi.pending (by intro b e; rw [hp]; simp)
    · exact hi.pending (by intro b e; rw [hp]; simp)
    · exact absurd rfl (hn _ _)
    · exact absurd rfl h1
    · exact absurd rfl h2
    · exact hi.pending (by intro b e; rw [hp]; simp)
  cases h with
  | create hk hn =>
    refine ⟨hi.time, fun hr => rep _ hr, ?_⟩
    intro e he
    rcases mem_insertKV he with rfl | he
    · exact hk
    · exact hi.keys e he
  | update hk hn =>
    refine ⟨hi.time, fun hr => rep _ hr, ?_⟩
    intro e he
    rcases mem_insertKV he with rfl | he
    · exact hk
    · exact hi.keys e he
  | delete hk hn => exact ⟨hi.time, fun hr => rep _ hr, fun e he => hi.keys e (mem_eraseKV_of he)⟩
  | tick hw => exact ⟨hi.time.step hw, fun hr => nor hw hr (by simp) (by simp), hi.keys⟩
  | stop hw => exact ⟨hi.time.step hw, fun hr => nor hw hr (by simp) (by simp), hi.keys⟩
  | head hw => exact ⟨hi.time.step hw, fun hr => nor hw hr (by simp) (by simp), hi.keys⟩
  | wake hw => exact ⟨hi.time.step hw, fun hr => nor hw hr (by simp) (by simp), hi.keys⟩
  | fail hw => exact ⟨hi.time.step hw, fun hr => nor hw hr (by simp) (by simp), hi.keys⟩
  | @opened _ w l hl hw =>
    refine ⟨hi.time.step hw, ?_, hi.keys⟩
    rcases tstep_cases hw with ⟨d, h, -⟩ | ⟨h, -⟩ | ⟨h, -⟩ | ⟨h, -⟩ | ⟨e, h, -⟩ | ⟨e, -, hp, rfl⟩ | ⟨f, e, t, o, h, -⟩ | ⟨f, e, h, -⟩ | ⟨f, e, h, -⟩
      | ⟨u, h, -⟩ <;> first | cases h | skip
    exact fun hr => absurd rfl (hr _ _)
  | @deliver _ w t o rest hpend hw =>
    refine ⟨hi.time.step hw, ?_, hi.keys⟩
    rcases tstep_cases hw with ⟨d, h, -⟩ | ⟨h, -⟩ | ⟨h, -⟩ | ⟨h, -⟩ | ⟨e, h, -⟩ | ⟨e, h, -⟩ | ⟨f, e, t', o', h, hp, rfl⟩ | ⟨f, e, h, -⟩ | ⟨f, e, h, -⟩
      | ⟨u, h, -⟩ <;> first | cases h | skip
    exact fun hr => absurd rfl (hr _ _)
  | other ht hw => exact ⟨hi.time.step hw, fun hr => nor hw hr (by simp) (by simp), hi.keys⟩
  | closed hw => exact ⟨hi.time.step hw, fun _ => rfl, hi.keys⟩
  | seen hw => exact ⟨hi.time.step hw, fun _ => rfl, hi.keys⟩

theorem Spec.ClockRun.inv {s : ClockSys} (h : ClockRun r c {} s) : ClockInv s := by
  generalize h0 : ({} : ClockSys) = a at h
  induction h with
  | refl => subst h0; exact clock_init
  | step _ hs ih => exact ih.step hs

/-- **C129**, the clock changes nothing else: what an API server and a watcher with a clock can do, they can do without one. So what C36, C37, C80, C96
and C107 say holds of watchers with a clock as well. -/
theorem C129_untimed {s : ClockSys} (h : ClockRun r c {} s) : SysRun r c {} s.untimed := by
  generalize h0 : ({} : ClockSys) = a at h
  induction h with
  | refl => subst h0; exact .refl _
  | @step t u b hr hs ih =>
    subst h0
    have tr : ∀ {x y z : Sys}, SysRun r c x y → SysRun r c y z → SysRun r c x z := by
      intro x y z h1 h2
      induction h2 with
      | refl => exact h1
      | step _ hs ih => exact .step ih hs
    exact tr ih (clockStep_sys hr.inv.pending hs)

/-! ## Deleted objects -/

variable {eval : Str → Obj → Str} {cf : GVR → List (Str × Str)}

theorem absent_append {h ns : List Notice} {id : Ident} (hh : ∀ o, ¬ Latest eval cf h id o) (hn : ∀ n ∈ ns, ∀ o, ¬ Writes eval cf n id o) :
    ∀ o, ¬ Latest eval cf (h ++ ns) id o := by
  induction ns using List.reverseRecOn with
  | nil => rw [List.append_nil]; exact hh
  | append_singleton ns n ih =>
    intro o
    rw [← List.append_assoc, latest_concat]
    rintro (hw | ⟨hl, -⟩)
    · exact hn n (by simp) o hw
    · exact ih (fun m hm => hn m (by simp [hm])) o hl

theorem absent_clean {h ns : List Notice} {k : Str × Str} (hn : ∀ n ∈ ns, ∀ o, ¬ Writes eval cf n ⟨r, c, k.1, k.2⟩ o) :
    ∀ o, ¬ Latest eval cf (h ++ .clean r c :: ns) ⟨r, c, k.1, k.2⟩ o := by
  have : h ++ .clean r c :: ns = (h ++ [.clean r c]) ++ ns := by simp
  rw [this]
  refine absent_append ?_ hn
  intro o
  rw [latest_concat]
  rintro (hw | ⟨-, -, hr⟩)
  · exact hw.elim
  · exact hr ⟨rfl, rfl⟩

/-- Events about other objects. -/
def NotAbout (k : Str × Str) (es : List (EvType × Obj)) : Prop := ∀ e ∈ es, ∃ k', metaKey e.2 = some k' ∧ k' ≠ k

theorem ev_writes {k k' : Str × Str} {t : EvType} {o : Obj} (hk : metaKey o = some k') (hne : k' ≠ k) :
    ∀ n ∈ evNotice r c t o, ∀ o', ¬ Writes eval cf n ⟨r, c, k.1, k.2⟩ o' := by
  intro n hn o' hw
  have h1 : objKey eval (cf r) o = k' := objKey_of_meta hk
  apply hne
  cases t <;> simp only [evNotice, List.mem_cons, List.not_mem_nil, or_false] at hn <;> subst hn
  · obtain ⟨-, h2⟩ := hw
    simp only [identOf, h1, Ident.mk.injEq, true_and] at h2
    exact Prod.ext h2.1 h2.2
  · obtain ⟨-, h2⟩ := hw
    simp only [identOf, h1, Ident.mk.injEq, true_and] at h2
    exact Prod.ext h2.1 h2.2
  · exact hw.elim

/-- Since the time `t1`, at which `k` did not exist and was not created again: the stream of that time is still to be ended, or the next one is
still to tell the store something, or the store does not have `k`. -/
inductive Stage (eval : Str → Obj → Str) (cf : GVR → List (Str × Str)) (r : GVR) (c : Str) (k : Str × Str) (t1 : Nat) (s : ClockSys) : Prop
  | oldReading {b e} : s.w.pc = .reading b e → e ≤ t1 + 3600000 → Stage eval cf r c k t1 s
  | oldAsleep {u} : s.w.pc = .asleep u → u ≤ t1 + 3603000 → Stage eval cf r c k t1 s
  | oldHead : s.w.pc = .head → s.w.now ≤ t1 + 3603000 → Stage eval cf r c k t1 s
  | newDialing {e} : s.w.pc = .dialing e → e ≤ t1 + 7203000 → Stage eval cf r c k t1 s
  | newReading {e} : s.w.pc = .reading true e → e ≤ t1 + 7203000 → NotAbout k s.pending → Stage eval cf r c k t1 s
  | clean : (∀ o, ¬ Latest eval cf s.told ⟨r, c, k.1, k.2⟩ o) → (∀ b e, s.w.pc = .reading b e → NotAbout k s.pending) → Stage eval cf r c k t1 s

theorem Stage.init {k : Str × Str} {s : ClockSys} (hi : ClockInv s) (hst : s.w.stopped = false) : Stage eval cf r c k s.w.now s := by
  cases hp : s.w.pc with
  | head => exact .oldHead hp (by omega)
  | dialing e =>
    obtain ⟨-, t, ts, -, h2, h3⟩ := hi.time.dialing e hp
    exact .newDialing hp (by omega)
  | reading b e =>
    obtain ⟨-, t, ts, -, h2, h3⟩ := hi.time.reading b e hp
    exact .oldReading hp (by omega)
  | asleep u =>
    obtain ⟨-, h2, -⟩ := hi.time.asleep u hp
    exact .oldAsleep hp (by omega)
  | done =>
    have := hi.time.done hp
    rw [hst] at this
    simp at this

/-- A change of the server to another object. -/
theorem Stage.server {k k' : Str × Str} {t1 : Nat} {s : ClockSys} {objs : List ((Str × Str) × Obj)} {t : EvType} {o : Obj} (h : Stage eval cf r c k t1 s)
    (hk : metaKey o = some k') (hne : k' ≠ k) : Stage eval cf r c k t1 { s with objs := objs, pending := s.report (t, o) } := by
  have hrep : ∀ {b e}, s.w.pc = .reading b e → NotAbout k s.pending → NotAbout k (s.report (t, o)) := by
    intro b e hp hn x hx
    unfold ClockSys.report at hx
    rw [hp] at hx
    rcases List.mem_append.mp hx with hx | hx
    · exact hn x hx
    · rw [List.mem_singleton] at hx
      subst hx
      exact ⟨k', hk, hne⟩
  cases h with
  | oldReading hp hb => exact .oldReading hp hb
  | oldAsleep hp hb => exact .oldAsleep hp hb
  | oldHead hp hb => exact .oldHead hp hb
  | newDialing hp hb => exact .newDialing hp hb
  | newReading hp hb hn => exact .newReading hp hb (hrep hp hn)
  | clean hl hn => exact .clean hl fun b e hp => hrep hp (hn b e hp)

/-- An event is received. -/
theorem Stage.event {k : Str × Str} {t1 : Nat} {s : ClockSys} {t : EvType} {o : Obj} {rest : List (EvType × Obj)} {f : Bool} {e : Nat}
    (h : Stage eval cf r c k t1 s) (hp : s.w.pc = .reading f e) (hrest : ∀ x ∈ rest, x ∈ s.pending)
    (hev : NotAbout k s.pending → ∀ n ∈ evNotice r c t o, ∀ o', ¬ Writes eval cf n ⟨r, c, k.1, k.2⟩ o') :
    Stage eval cf r c k t1 { s with w := { s.w with pc := .reading false e, calls := s.w.calls ++ (cleanFirst r c f ++ evNotice r c t o).map fun n => (s.w.now, n) }, pending := rest } := by
  have told : (ClockSys.told { s with w := { s.w with pc := .reading false e, calls := s.w.calls ++ (cleanFirst r c f ++ evNotice r c t o).map fun n => (s.w.now, n) }, pending := rest })
      = s.told ++ (cleanFirst r c f ++ evNotice r c t o) := by
    unfold ClockSys.told
    simp [Function.comp_def]
  have sub : NotAbout k s.pending → NotAbout k rest := fun hn x hx => hn x (hrest x hx)
  cases h with
  | @oldReading b e' hp' hb =>
    rw [hp, WPc.reading.injEq] at hp'
    exact .oldReading (b := false) (e := e) rfl (by rw [hp'.2]; exact hb)
  | oldAsleep hp' => rw [hp] at hp'; simp at hp'
  | oldHead hp' => rw [hp] at hp'; simp at hp'
  | newDialing hp' => rw [hp] at hp'; simp at hp'
  | newReading hp' hb hn =>
    rw [hp, WPc.reading.injEq] at hp'
    refine .clean ?_ (fun _ _ _ => sub hn)
    rw [told, hp'.1]
    exact absent_clean (hev hn)
  | clean hl hn =>
    refine .clean ?_ (fun _ _ _ => sub (hn _ _ hp))
    rw [told]
    cases f with
    | true => exact absent_clean (hev (hn _ _ hp))
    | false => exact absent_append hl (hev (hn _ _ hp))

theorem Stage.step {k : Str × Str} {t1 : Nat} {s t : ClockSys} (hi : ClockInv s) (hk : lookup k s.objs = none) (hk' : lookup k t.objs = none)
    (hst : t.w.stopped = false) (hs : ClockStep r c false s t) (hg : Stage eval cf r c k t1 s) : Stage eval cf r c k t1 t := by
  cases hs with
  | @create _ k' o hm hn =>
    refine hg.server hm ?_
    rintro rfl
    rw [lookup_insertKV, if_pos rfl] at hk'
    simp at hk'
  | @update _ k' o old hm ho =>
    refine hg.server hm ?_
    rintro rfl
    rw [hk] at ho
    simp at ho
  | @delete _ k' o old hm ho =>
    refine hg.server hm ?_
    rintro rfl
    rw [hk] at ho
    simp at ho
  | tick hw =>
    rcases tstep_cases hw with ⟨d, -, hwd, rfl⟩ | ⟨h, -⟩ | ⟨h, -⟩ | ⟨h, -⟩ | ⟨e, h, -⟩ | ⟨e, h, -⟩ | ⟨f, e, t, o, h, -⟩ | ⟨f, e, h, -⟩ | ⟨f, e, h, -⟩ | ⟨u, h, -⟩ <;>
      first | cases h | skip
    cases hg with
    | oldReading hp hb => exact .oldReading hp hb
    | oldAsleep hp hb => exact .oldAsleep hp hb
    | oldHead hp hb =>
      simp only [WTimed.waits, hp, decide_eq_true_eq] at hwd
      exact .oldHead hp (by simp only; omega)
    | newDialing hp hb => exact .newDialing hp hb
    | newReading hp hb hn => exact .newReading hp hb hn
    | clean hl hn => exact .clean hl hn
  | stop hw =>
    rcases tstep_cases hw with ⟨d, h, -⟩ | ⟨-, rfl⟩ | ⟨h, -⟩ | ⟨h, -⟩ | ⟨e, h, -⟩ | ⟨e, h, -⟩ | ⟨f, e, t, o, h, -⟩ | ⟨f, e, h, -⟩ | ⟨f, e, h, -⟩ | ⟨u, h, -⟩ <;>
      first | cases h | skip
    simp at hst
  | head hw =>
    rcases tstep_cases hw with ⟨d, h, -⟩ | ⟨h, -⟩ | ⟨-, hp, hs, rfl⟩ | ⟨-, hp, -, rfl⟩ | ⟨e, h, -⟩ | ⟨e, h, -⟩ | ⟨f, e, t, o, h, -⟩ | ⟨f, e, h, -⟩ | ⟨f, e, h, -⟩
      | ⟨u, h, -⟩ <;> first | cases h | skip
    · simp only at hst
      rw [hs] at hst
      simp at hst
    · cases hg with
      | oldReading hp' => rw [hp] at hp'; simp at hp'
      | oldAsleep hp' => rw [hp] at hp'; simp at hp'
      | oldHead hp' hb => exact .newDialing rfl (by omega)
      | newDialing hp' => rw [hp] at hp'; simp at hp'
      | newReading hp' => rw [hp] at hp'; simp at hp'
      | clean hl hn => exact .clean hl (by simp)
  | wake hw =>
    rcases tstep_cases hw with ⟨d, h, -⟩ | ⟨h, -⟩ | ⟨h, -⟩ | ⟨h, -⟩ | ⟨e, h, -⟩ | ⟨e, h, -⟩ | ⟨f, e, t, o, h, -⟩ | ⟨f, e, h, -⟩ | ⟨f, e, h, -⟩
      | ⟨u, -, hp, hu, rfl⟩ <;> first | cases h | skip
    cases hg with
    | oldReading hp' => rw [hp] at hp'; simp at hp'
    | oldAsleep hp' hb =>
      rw [hp, WPc.asleep.injEq] at hp'
      have := (hi.time.asleep u hp).1
      exact .oldHead rfl (by simp only; omega)
    | oldHead hp' => rw [hp] at hp'; simp at hp'
    | newDialing hp' => rw [hp] at hp'; simp at hp'
    | newReading hp' => rw [hp] at hp'; simp at hp'
    | clean hl hn => exact .clean hl (by simp)
  | @opened _ w l hl hw =>
    rcases tstep_cases hw with ⟨d, h, -⟩ | ⟨h, -⟩ | ⟨h, -⟩ | ⟨h, -⟩ | ⟨e, h, -⟩ | ⟨e, -, hp, rfl⟩ | ⟨f, e, t, o, h, -⟩ | ⟨f, e, h, -⟩ | ⟨f, e, h, -⟩
      | ⟨u, h, -⟩ <;> first | cases h | skip
    have hnot : NotAbout k (l.map fun e => (EvType.added, e.2)) := by
      intro x hx
      obtain ⟨y, hy, rfl⟩ := List.mem_map.mp hx
      have hy' := hl.subset hy
      refine ⟨y.1, hi.keys y hy', ?_⟩
      rintro rfl
      exact (lookup_eq_none.mp hk) y.2 hy'
    cases hg with
    | oldReading hp' => rw [hp] at hp'; simp at hp'
    | oldAsleep hp' => rw [hp] at hp'; simp at hp'
    | oldHead hp' => rw [hp] at hp'; simp at hp'
    | newDialing hp' hb =>
      rw [hp, WPc.dialing.injEq] at hp'
      exact .newReading rfl (by rw [hp']; exact hb) hnot
    | newReading hp' => rw [hp] at hp'; simp at hp'
    | clean hl hn => exact .clean hl (fun _ _ _ => hnot)
  | @deliver _ w t o rest hpend hw =>
    rcases tstep_cases hw with ⟨d, h, -⟩ | ⟨h, -⟩ | ⟨h, -⟩ | ⟨h, -⟩ | ⟨e, h, -⟩ | ⟨e, h, -⟩ | ⟨f, e, t', o', h, hp, rfl⟩ | ⟨f, e, h, -⟩ | ⟨f, e, h, -⟩
      | ⟨u, h, -⟩ <;> first | cases h | skip
    refine hg.event hp (by intro x hx; rw [hpend]; simp [hx]) ?_
    intro hn
    obtain ⟨k', h1, h2⟩ := hn (t, o) (by rw [hpend]; simp)
    exact ev_writes h1 h2
  | @other _ w t o ht hw =>
    rcases tstep_cases hw with ⟨d, h, -⟩ | ⟨h, -⟩ | ⟨h, -⟩ | ⟨h, -⟩ | ⟨e, h, -⟩ | ⟨e, h, -⟩ | ⟨f, e, t', o', h, hp, rfl⟩ | ⟨f, e, h, -⟩ | ⟨f, e, h, -⟩
      | ⟨u, h, -⟩ <;> first | cases h | skip
    refine hg.event (rest := s.pending) hp (fun x hx => hx) ?_
    intro _ n hn
    rcases ht with rfl | rfl <;> simp [evNotice] at hn
  | closed hw =>
    rcases tstep_cases hw with ⟨d, h, -⟩ | ⟨h, -⟩ | ⟨h, -⟩ | ⟨h, -⟩ | ⟨e, h, -⟩ | ⟨e, h, -⟩ | ⟨f, e, t', o', h, -⟩ | ⟨f, e, -, hp, rfl⟩ | ⟨f, e, h, -⟩
      | ⟨u, h, -⟩ <;> first | cases h | skip
    have told : (ClockSys.told { s with w := { s.w with pc := .asleep (s.w.now + 3000), calls := s.w.calls ++ (cleanFirst r c f).map fun n => (s.w.now, n) }, pending := [] })
        = s.told ++ cleanFirst r c f := by
      unfold ClockSys.told
      simp [Function.comp_def]
    cases hg with
    | oldReading hp' hb =>
      rw [hp, WPc.reading.injEq] at hp'
      have := (hi.time.reading f e hp).1
      exact .oldAsleep rfl (by omega)
    | oldAsleep hp' => rw [hp] at hp'; simp at hp'
    | oldHead hp' => rw [hp] at hp'; simp at hp'
    | newDialing hp' => rw [hp] at hp'; simp at hp'
    | newReading hp' hb hn =>
      rw [hp, WPc.reading.injEq] at hp'
      refine .clean ?_ (by simp)
      rw [told, hp'.1]
      exact absent_clean (by simp)
    | clean hl hn =>
      refine .clean ?_ (by simp)
      rw [told]
      refine absent_append hl ?_
      intro n hn o hw
      unfold cleanFirst at hn
      split at hn
      · rw [List.mem_singleton] at hn
        subst hn
        exact hw.elim
      · simp at hn
  | seen hw =>
    rcases tstep_cases hw with ⟨d, h, -⟩ | ⟨h, -⟩ | ⟨h, -⟩ | ⟨h, -⟩ | ⟨e, h, -⟩ | ⟨e, h, -⟩ | ⟨f, e, t', o', h, -⟩ | ⟨f, e, h, -⟩ | ⟨f, e, -, hp, hs, rfl⟩
      | ⟨u, h, -⟩ <;> first | cases h | skip
    simp only at hst
    rw [hs] at hst
    simp at hst

/-- While the watcher was not stopped the API server had no object under this key. -/
def Spec.Without (k : Str × Str) (s : ClockSys) : Prop := lookup k s.objs = none ∧ s.w.stopped = false

theorem stage_run {k : Str × Str} {s t : ClockSys} (h : ClockRun r c {} s) (hr : ClockRunWhile r c (Without k) s t) :
    ClockInv t ∧ Without k t ∧ Stage eval cf r c k s.w.now t := by
  induction hr with
  | refl hp => exact ⟨h.inv, hp, Stage.init h.inv hp.2⟩
  | step _ hs hp ih =>
    obtain ⟨i1, i2, i3⟩ := ih
    exact ⟨i1.step hs, hp, i3.step i1 i2.1 hp.1 hp.2 hs⟩

/-- **C129**: an object that does not exist any more is not in the cache of a watcher for longer than two hours and three seconds, as long as no
attempt to open a stream fails, however late events arrive and whether or not they do. `h` is what all watchers have told the store. -/
theorem C129_gone_partial {conf : List (GVR × List (Str × Str))} {k : Str × Str} {s t : ClockSys} (hs : ClockRun r c {} s)
    (hr : ClockRunWhile r c (Without k) s t) (hlate : s.w.now + 7203000 < t.w.now) {h : List Notice} {st : Store}
    (hrun : (newStore conf).run eval h = some st) (hh : h.filter (aboutB r c) = t.told) : st.get r c k.1 k.2 = none := by
  refine (C20_latest hrun ⟨r, c, k.1, k.2⟩).2 ?_
  intro o
  rw [latest_filter, hh]
  obtain ⟨i1, -, i3⟩ := stage_run (eval := eval) (cf := confAt conf) hs hr
  cases i3 with
  | oldReading hp hb => have := (i1.time.reading _ _ hp).1; omega
  | oldAsleep hp hb => have := (i1.time.asleep _ hp).1; omega
  | oldHead hp hb => omega
  | newDialing hp hb => have := (i1.time.dialing _ hp).1; omega
  | newReading hp hb => have := (i1.time.reading _ _ hp).1; omega
  | clean hl => exact hl o

/-! ## The bound is reached

An API server has one pod, `web`, which is deleted at time 0 when its stream has just delivered it. The event is lost with the connection. The stream is
given up after an hour, the next one is opened three seconds later; it delivers nothing, because there is nothing, and is given up after another hour. -/

def exGone : Obj := exPod "web" "n1"
def exGoneKey : Str × Str := (lit "prod", lit "web")

/-- The calls: the clean up and the pod. -/
def exGoneCalls : List (Nat × Notice) := [(0, .clean exPods (lit "c1")), (0, .added exPods (lit "c1") exGone)]

/-- Right after the deletion. -/
def exDeleted : ClockSys :=
  { objs := [], pending := [(.deleted, exGone)], w := { pc := .reading false 3600000, tries := [0], calls := exGoneCalls } }

/-- Two hours and three seconds later. -/
def exLingers : ClockSys :=
  { objs := [], pending := [], w := { now := 7203000, pc := .reading true 7203000, tries := [3603000, 0], calls := exGoneCalls } }

theorem tick_asleep {s : ClockSys} {u d : Nat} (h : s.w.pc = .asleep u) (hd : s.w.now + d ≤ u) :
    ClockStep r c false s { s with w := { s.w with now := s.w.now + d } } := by
  refine .tick (d := d) ?_
  simp only [tstep, WTimed.waits, h, hd, decide_true, if_true]

theorem wake_asleep {s : ClockSys} {u : Nat} (h : s.w.pc = .asleep u) (hu : u ≤ s.w.now) :
    ClockStep r c false s { s with w := { s.w with pc := .head } } := by
  refine .wake ?_
  simp only [tstep, h, hu, if_true]

theorem exDeleted_run : ClockRun exPods (lit "c1") {} exDeleted := by
  have hk : metaKey exGone = some exGoneKey := by decide +kernel
  have s1 := ClockRun.step (.refl {}) (ClockStep.create (r := exPods) (c := lit "c1") (s := {}) hk rfl)
  have s2 := ClockRun.step s1 (.head rfl)
  have s3 := ClockRun.step s2 (.opened (l := [(exGoneKey, exGone)]) (List.Perm.refl _) rfl)
  have s4 := ClockRun.step s3 (.deliver rfl rfl)
  have s5 := ClockRun.step s4 (.delete (k := exGoneKey) (o := exGone) (old := exGone) hk (by decide +kernel))
  exact s5

theorem exLingers_run : ClockRunWhile exPods (lit "c1") (Without exGoneKey) exDeleted exLingers := by
  have s0 : ClockRunWhile exPods (lit "c1") (Without exGoneKey) exDeleted exDeleted := .refl ⟨rfl, rfl⟩
  have s1 := ClockRunWhile.step s0 (.tick (d := 3600000) rfl) ⟨rfl, rfl⟩
  have s2 := ClockRunWhile.step s1 (.closed rfl) ⟨rfl, rfl⟩
  have s3 := ClockRunWhile.step s2 (tick_asleep (u := 3603000) (d := 3000) rfl (Nat.le_refl 3603000)) ⟨rfl, rfl⟩
  have s4 := ClockRunWhile.step s3 (wake_asleep (u := 3603000) rfl (Nat.le_refl 3603000)) ⟨rfl, rfl⟩
  have s5 := ClockRunWhile.step s4 (.head rfl) ⟨rfl, rfl⟩
  have s6 := ClockRunWhile.step s5 (.opened (l := []) (List.Perm.refl _) rfl) ⟨rfl, rfl⟩
  have s7 := ClockRunWhile.step s6 (.tick (d := 3600000) rfl) ⟨rfl, rfl⟩
  exact s7

/-- **C129 is false** for any shorter time than two hours and three seconds: with a lost connection a pod is in the cache that long after it was deleted,
although every attempt to open a stream succeeds at once. -/
theorem C129_false : ClockRun exPods (lit "c1") {} exDeleted ∧ ClockRunWhile exPods (lit "c1") (Without exGoneKey) exDeleted exLingers
    ∧ exLingers.w.now = exDeleted.w.now + 7203000
    ∧ (((newStore exConf).run exEval exLingers.told).bind fun st => st.get exPods (lit "c1") (lit "prod") (lit "web")).isSome = true :=
  ⟨exDeleted_run, exLingers_run, rfl, by decide +kernel⟩

/-- A millisecond later, when the second stream has been given up, it is gone. -/
example : ∃ t, ClockRunWhile exPods (lit "c1") (Without exGoneKey) exDeleted t ∧ exDeleted.w.now + 7203000 < t.w.now
    ∧ (((newStore exConf).run exEval t.told).bind fun st => st.get exPods (lit "c1") (lit "prod") (lit "web")).isNone = true := by
  have s1 := ClockRunWhile.step exLingers_run (.closed rfl) ⟨rfl, rfl⟩
  have s2 := ClockRunWhile.step s1 (tick_asleep (u := 7206000) (d := 1) rfl (show 7203001 ≤ 7206000 by decide)) ⟨rfl, rfl⟩
  exact ⟨_, s2, by decide, by decide +kernel⟩

end Ckube
