import Verif.Model.WatchClock
import Verif.Spec.Watch

/-! # Specification: an API server and a watcher with a clock -/

namespace Ckube.Spec

/-- The states a watcher can come to. -/
def Timed (r : GVR) (c : Str) (w : WTimed) : Prop := ∃ ins, trun r c {} ins = some w

/-- The watcher has no stream and is not trying to get one. -/
def Unconnected (w : WTimed) : Prop := w.pc = .head ∨ ∃ u, w.pc = .asleep u

/-- An API server with the objects of one type, the events it has sent on the open stream that were not received yet, and the watcher. -/
structure ClockSys where
  objs : List ((Str × Str) × Obj) := []
  pending : List (EvType × Obj) := []
  w : WTimed := {}

/-- The server reports a change on the open stream, if there is one. -/
def ClockSys.report (s : ClockSys) (e : EvType × Obj) : List (EvType × Obj) :=
  match s.w.pc with
  | .reading _ _ => s.pending ++ [e]
  | _ => s.pending

/-- What can happen, as in `SysStep`, with the time. Events may be received as late as the stream lives. The flag says whether an attempt to open a
stream failed. -/
inductive ClockStep (r : GVR) (c : Str) : Bool → ClockSys → ClockSys → Prop
  | create {s : ClockSys} {k o} (hk : metaKey o = some k) (hn : lookup k s.objs = none) :
      ClockStep r c false s { s with objs := insertKV k o s.objs, pending := s.report (.added, o) }
  | update {s : ClockSys} {k o old} (hk : metaKey o = some k) (ho : lookup k s.objs = some old) :
      ClockStep r c false s { s with objs := insertKV k o s.objs, pending := s.report (.modified, o) }
  | delete {s : ClockSys} {k o old} (hk : metaKey o = some k) (ho : lookup k s.objs = some old) :
      ClockStep r c false s { s with objs := eraseKV k s.objs, pending := s.report (.deleted, o) }
  | tick {s : ClockSys} {d w} (hw : tstep r c s.w (.tick d) = some w) : ClockStep r c false s { s with w := w }
  | stop {s : ClockSys} {w} (hw : tstep r c s.w .stop = some w) : ClockStep r c false s { s with w := w }
  | head {s : ClockSys} {w} (hw : tstep r c s.w .head = some w) : ClockStep r c false s { s with w := w }
  | wake {s : ClockSys} {w} (hw : tstep r c s.w .wake = some w) : ClockStep r c false s { s with w := w }
  | fail {s : ClockSys} {w} (hw : tstep r c s.w .fail = some w) : ClockStep r c true s { s with w := w }
  | opened {s : ClockSys} {w} {l : List ((Str × Str) × Obj)} (hl : l.Perm s.objs) (hw : tstep r c s.w .opened = some w) :
      ClockStep r c false s { s with w := w, pending := l.map fun e => (.added, e.2) }
  | deliver {s : ClockSys} {w t o rest} (hp : s.pending = (t, o) :: rest) (hw : tstep r c s.w (.event t o) = some w) :
      ClockStep r c false s { s with w := w, pending := rest }
  | other {s : ClockSys} {w t o} (ht : t = .error ∨ t = .bookmark) (hw : tstep r c s.w (.event t o) = some w) :
      ClockStep r c false s { s with w := w }
  | closed {s : ClockSys} {w} (hw : tstep r c s.w .closed = some w) : ClockStep r c false s { s with w := w, pending := [] }
  | seen {s : ClockSys} {w} (hw : tstep r c s.w .seen = some w) : ClockStep r c false s { s with w := w, pending := [] }

/-- Any number of steps. -/
inductive ClockRun (r : GVR) (c : Str) : ClockSys → ClockSys → Prop
  | refl (s : ClockSys) : ClockRun r c s s
  | step {s t u : ClockSys} {b : Bool} : ClockRun r c s t → ClockStep r c b t u → ClockRun r c s u

/-- Any number of steps during which `P` holds at every state and no attempt to open a stream fails. -/
inductive ClockRunWhile (r : GVR) (c : Str) (P : ClockSys → Prop) : ClockSys → ClockSys → Prop
  | refl {s : ClockSys} : P s → ClockRunWhile r c P s s
  | step {s t u : ClockSys} : ClockRunWhile r c P s t → ClockStep r c false t u → P u → ClockRunWhile r c P s u

/-- What the watcher has told the store. -/
def ClockSys.told (s : ClockSys) : List Notice := s.w.calls.map Prod.snd

/-- The same without time. -/
def ClockSys.untimed (s : ClockSys) : Sys := ⟨s.objs, s.pending, s.w.pc.phase, s.told⟩

end Ckube.Spec
