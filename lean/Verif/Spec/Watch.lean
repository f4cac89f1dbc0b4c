import Verif.Model.Watcher
import Verif.Spec.Cache

/-! # Specification: replaying a watch stream, and an API server -/

namespace Ckube.Spec

/-- A cache of one type and cluster: namespace and name to object. -/
abbrev Objs := Str × Str → Option Obj

/-- The effect of one event of a watch stream. -/
def applyEvent (key : Obj → Str × Str) (m : Objs) (e : EvType × Obj) : Objs :=
  match e.1 with
  | .added | .modified => fun k => if key e.2 = k then some e.2 else m k
  | .deleted => fun k => if key e.2 = k then none else m k
  | .error | .bookmark => m

/-- Replay events on a cache. -/
def replayOn (key : Obj → Str × Str) : Objs → List (EvType × Obj) → Objs
  | m, [] => m
  | m, e :: es => replayOn key (applyEvent key m e) es

/-- Replay events on an empty cache. -/
def replay (key : Obj → Str × Str) (es : List (EvType × Obj)) : Objs := replayOn key (fun _ => none) es

/-- The store holds, for this type and cluster, exactly the objects of `m` (up to ckube's two
annotations). -/
def Holds (s : Store) (r : GVR) (c : Str) (m : Objs) : Prop :=
  ∀ ns name, match m (ns, name) with
    | some o => ∃ o', s.get r c ns name = some o' ∧ SameButMarks o o'
    | none => s.get r c ns name = none

/-- Namespace and name of an API object. -/
def metaKey (o : Obj) : Option (Str × Str) := o.om.map fun m => (m.ns, m.name)

/-- An API server with the objects of one type, the events it has sent on the open watch stream
that the watcher has not received yet, the watcher, and the store calls made so far. -/
structure Sys where
  objs : List ((Str × Str) × Obj) := []
  pending : List (EvType × Obj) := []
  phase : WPhase := .connecting
  out : List Notice := []

/-- The server reports a change on the open stream, if there is one. -/
def Sys.report (s : Sys) (e : EvType × Obj) : List (EvType × Obj) :=
  match s.phase with
  | .streaming _ => s.pending ++ [e]
  | _ => s.pending

/-- What an API server with a watcher of type `r` and cluster `c` can do. A new stream starts with an `Added`
event for every existing object, in any order, and goes on with all the changes (the Kubernetes rule for a
watch without resource version). A stream that breaks loses what was not received. -/
inductive SysStep (r : GVR) (c : Str) : Sys → Sys → Prop
  | create {s : Sys} {k o} (hk : metaKey o = some k) (hn : lookup k s.objs = none) :
      SysStep r c s { s with objs := insertKV k o s.objs, pending := s.report (.added, o) }
  | update {s : Sys} {k o old} (hk : metaKey o = some k) (ho : lookup k s.objs = some old) :
      SysStep r c s { s with objs := insertKV k o s.objs, pending := s.report (.modified, o) }
  | delete {s : Sys} {k o old} (hk : metaKey o = some k) (ho : lookup k s.objs = some old) :
      SysStep r c s { s with objs := eraseKV k s.objs, pending := s.report (.deleted, o) }
  | fail {s : Sys} {p out} (hw : wstep r c s.phase .fail = some (p, out)) :
      SysStep r c s { s with phase := p, out := s.out ++ out }
  | opened {s : Sys} {p out} {l : List ((Str × Str) × Obj)} (hl : l.Perm s.objs)
      (hw : wstep r c s.phase .opened = some (p, out)) :
      SysStep r c s { s with phase := p, out := s.out ++ out, pending := l.map fun e => (.added, e.2) }
  | deliver {s : Sys} {p out t o rest} (hp : s.pending = (t, o) :: rest)
      (hw : wstep r c s.phase (.event t o) = some (p, out)) :
      SysStep r c s { s with phase := p, out := s.out ++ out, pending := rest }
  | other {s : Sys} {p out t o} (ht : t = .error ∨ t = .bookmark)
      (hw : wstep r c s.phase (.event t o) = some (p, out)) :
      SysStep r c s { s with phase := p, out := s.out ++ out }
  | closed {s : Sys} {p out} (hw : wstep r c s.phase .closed = some (p, out)) :
      SysStep r c s { s with phase := p, out := s.out ++ out, pending := [] }
  | stop {s : Sys} {p out} (hw : wstep r c s.phase .stop = some (p, out)) :
      SysStep r c s { s with phase := p, out := s.out ++ out, pending := [] }

/-- The last store call, if there was one, emptied the cache. -/
def Emptied (out : List Notice) : Prop := out = [] ∨ ∃ r c, out.getLast? = some (.clean r c)

/-- Any number of steps. -/
inductive SysRun (r : GVR) (c : Str) : Sys → Sys → Prop
  | refl (s : Sys) : SysRun r c s s
  | step {s t u : Sys} : SysRun r c s t → SysStep r c t u → SysRun r c s u

end Ckube.Spec
