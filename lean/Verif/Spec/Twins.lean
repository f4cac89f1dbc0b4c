import Verif.Spec.Watch

/-! # Specification: an API server with several watchers of the same type

`Start` (watcher/watcher.go:195-202) makes one goroutine for every entry of the configuration and every cluster. Entries that name the same type
give goroutines that watch the same objects and tell the same store. Each of them has its own stream. -/

namespace Ckube.Spec

/-- One of the watchers: where it is, and the events of its stream that it has not received. -/
structure Watched where
  phase : WPhase := .connecting
  pending : List (EvType × Obj) := []

/-- The objects of the API server, the watchers, and the store calls made by all of them, in the order in which the store took them. -/
structure Twins where
  objs : List ((Str × Str) × Obj) := []
  ws : List Watched := []
  out : List Notice := []

/-- A change is reported on an open stream. -/
def Watched.hears (e : EvType × Obj) (w : Watched) : Watched :=
  match w.phase with
  | .streaming _ => { w with pending := w.pending ++ [e] }
  | _ => w

/-- What one watcher can do, and the store calls it makes; as in `SysStep`. -/
inductive Does (r : GVR) (c : Str) (objs : List ((Str × Str) × Obj)) : Watched → Watched → List Notice → Prop
  | fail {w p out} (hw : wstep r c w.phase .fail = some (p, out)) : Does r c objs w { w with phase := p } out
  | opened {w p out} {l : List ((Str × Str) × Obj)} (hl : l.Perm objs) (hw : wstep r c w.phase .opened = some (p, out)) :
      Does r c objs w ⟨p, l.map fun e => (.added, e.2)⟩ out
  | deliver {w p out t o rest} (hp : w.pending = (t, o) :: rest) (hw : wstep r c w.phase (.event t o) = some (p, out)) :
      Does r c objs w ⟨p, rest⟩ out
  | other {w p out t o} (ht : t = .error ∨ t = .bookmark) (hw : wstep r c w.phase (.event t o) = some (p, out)) :
      Does r c objs w { w with phase := p } out
  | closed {w p out} (hw : wstep r c w.phase .closed = some (p, out)) : Does r c objs w ⟨p, []⟩ out
  | stop {w p out} (hw : wstep r c w.phase .stop = some (p, out)) : Does r c objs w ⟨p, []⟩ out

/-- What can happen. -/
inductive TwinStep (r : GVR) (c : Str) : Twins → Twins → Prop
  | create {t : Twins} {k o} (hk : metaKey o = some k) (hn : lookup k t.objs = none) :
      TwinStep r c t { t with objs := insertKV k o t.objs, ws := t.ws.map (Watched.hears (.added, o)) }
  | update {t : Twins} {k o old} (hk : metaKey o = some k) (ho : lookup k t.objs = some old) :
      TwinStep r c t { t with objs := insertKV k o t.objs, ws := t.ws.map (Watched.hears (.modified, o)) }
  | delete {t : Twins} {k o old} (hk : metaKey o = some k) (ho : lookup k t.objs = some old) :
      TwinStep r c t { t with objs := eraseKV k t.objs, ws := t.ws.map (Watched.hears (.deleted, o)) }
  | own {t : Twins} {i w w' out} (hi : t.ws[i]? = some w) (hd : Does r c t.objs w w' out) :
      TwinStep r c t { t with ws := t.ws.set i w', out := t.out ++ out }

/-- Any number of steps. -/
inductive TwinRun (r : GVR) (c : Str) : Twins → Twins → Prop
  | refl (t : Twins) : TwinRun r c t t
  | step {s t u : Twins} : TwinRun r c s t → TwinStep r c t u → TwinRun r c s u

/-- `n` watchers that have not done anything. -/
def twins (n : Nat) : Twins := { ws := List.replicate n {} }

end Ckube.Spec
