import Verif.Model.Fleet
import Verif.Spec.Watch

/-! # Specification: what one of several goroutines does, and several watchers of one type -/

namespace Ckube.Spec

/-- What the `i`-th goroutine does. -/
def doneBy (i : Nat) : List FIn → List GIn
  | [] => []
  | .stop :: xs => doneBy i xs
  | .go j x :: xs => if j = i then x :: doneBy i xs else doneBy i xs

/-- The store calls the `i`-th goroutine makes. -/
def callsBy (i : Nat) : List (Nat × Notice) → List Notice
  | [] => []
  | (j, n) :: l => if j = i then n :: callsBy i l else callsBy i l

/-- The number of events received. -/
def eventCount : List GIn → Nat
  | [] => 0
  | .event _ _ :: xs => eventCount xs + 1
  | _ :: xs => eventCount xs

/-- One of several watchers of a type and cluster: its goroutine, and the events sent to it that it has not received. -/
structure Peer where
  phase : WPhase := .connecting
  pending : List (EvType × Obj) := []

/-- An API server with the objects of one type and any number of watchers of them that call one store. -/
structure Crowd where
  objs : List ((Str × Str) × Obj) := []
  peers : List Peer := []
  out : List Notice := []

/-- The server reports a change on a stream, if it is open. -/
def Peer.report (p : Peer) (e : EvType × Obj) : Peer :=
  match p.phase with
  | .streaming _ => { p with pending := p.pending ++ [e] }
  | _ => p

/-- As `SysStep`, with a stream for each watcher: a change is reported on every open stream. -/
inductive CrowdStep (r : GVR) (c : Str) : Crowd → Crowd → Prop
  | create {s : Crowd} {k o} (hk : metaKey o = some k) (hn : lookup k s.objs = none) :
      CrowdStep r c s { s with objs := insertKV k o s.objs, peers := s.peers.map fun p => p.report (.added, o) }
  | update {s : Crowd} {k o old} (hk : metaKey o = some k) (ho : lookup k s.objs = some old) :
      CrowdStep r c s { s with objs := insertKV k o s.objs, peers := s.peers.map fun p => p.report (.modified, o) }
  | delete {s : Crowd} {k o old} (hk : metaKey o = some k) (ho : lookup k s.objs = some old) :
      CrowdStep r c s { s with objs := eraseKV k s.objs, peers := s.peers.map fun p => p.report (.deleted, o) }
  | fail {s : Crowd} {i : Nat} {w : Peer} {p out} (hi : s.peers[i]? = some w) (hw : wstep r c w.phase .fail = some (p, out)) :
      CrowdStep r c s { s with peers := s.peers.set i { w with phase := p }, out := s.out ++ out }
  | opened {s : Crowd} {i : Nat} {w : Peer} {p out} {l : List ((Str × Str) × Obj)} (hi : s.peers[i]? = some w) (hl : l.Perm s.objs)
      (hw : wstep r c w.phase .opened = some (p, out)) :
      CrowdStep r c s { s with peers := s.peers.set i ⟨p, l.map fun e => (.added, e.2)⟩, out := s.out ++ out }
  | deliver {s : Crowd} {i : Nat} {w : Peer} {p out t o rest} (hi : s.peers[i]? = some w) (hp : w.pending = (t, o) :: rest)
      (hw : wstep r c w.phase (.event t o) = some (p, out)) :
      CrowdStep r c s { s with peers := s.peers.set i ⟨p, rest⟩, out := s.out ++ out }
  | other {s : Crowd} {i : Nat} {w : Peer} {p out t o} (hi : s.peers[i]? = some w) (ht : t = .error ∨ t = .bookmark)
      (hw : wstep r c w.phase (.event t o) = some (p, out)) :
      CrowdStep r c s { s with peers := s.peers.set i { w with phase := p }, out := s.out ++ out }
  | closed {s : Crowd} {i : Nat} {w : Peer} {p out} (hi : s.peers[i]? = some w) (hw : wstep r c w.phase .closed = some (p, out)) :
      CrowdStep r c s { s with peers := s.peers.set i ⟨p, []⟩, out := s.out ++ out }

/-- Any number of steps. -/
inductive CrowdRun (r : GVR) (c : Str) : Crowd → Crowd → Prop
  | refl (s : Crowd) : CrowdRun r c s s
  | step {s t u : Crowd} : CrowdRun r c s t → CrowdStep r c t u → CrowdRun r c s u

end Ckube.Spec
