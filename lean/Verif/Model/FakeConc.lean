import Verif.Model.FakeSession

/-! # Writes to the fake server from several goroutines (pkg/client/fake/fake_ckube.go:371-479)

Every HTTP request has a goroutine of its own. A write first asks the store whether the object is there, then changes the store, then
sends its event; between these three steps other goroutines run. The methods of the store are atomic: they hold its locks, and what they
read besides does not change. `Events` has one channel, sends to it are in one order; a watch of one client sees the events in the order
of the sends, too. -/

namespace Ckube

/-- What a write will do, as far as its request says. -/
structure FPlan where
  action : FAct
  gvr : GVR
  cluster : Str
  ns : Str
  name : Str
  b : FBody
  raw : Str
deriving DecidableEq

/-- The part of `proxy` before the store is asked (pkg/client/fake/fake_ckube.go:371-414, 434-440, 450-451); `inl` is an answer. -/
def fakePlan (dec : Str → Option FBody) (dflt : Str) (ord : Values) (r : HReq) : FReply ⊕ FPlan :=
  if fakeWatch ord then .inl .watch
  else match dec r.body with
    | none => .inl .crash
    | some b0 =>
      let cluster := fakeCluster dflt ord
      let b : FBody := { b0 with om := { b0.om with ns := r.ns } }
      let name := if r.resource = [] then b.om.name else r.resource
      if r.method = lit "POST" then .inr ⟨.add, r.gvr, cluster, r.ns, name, b, r.body⟩
      else if r.method = lit "PUT" then .inr ⟨.update, r.gvr, cluster, r.ns, name, b, r.body⟩
      else if r.method = lit "DELETE" then
        .inr ⟨.delete, r.gvr, fakeDelCluster r.body cluster, r.ns, name, { b with om := { b.om with name := name } }, r.body⟩
      else .inr ⟨.error, r.gvr, cluster, r.ns, name, b, r.body⟩

/-- `s.store.Get` and what follows from it (pkg/client/fake/fake_ckube.go:418-424, 427-433, 441-449): the code of a refusal, or the
text of the event. -/
def FPlan.check (enc : Obj → Str) (s : Store) (p : FPlan) : Nat ⊕ Str :=
  match p.action with
  | .add => if (s.get p.gvr p.cluster p.ns p.name).isSome then .inl 400 else .inr p.raw
  | .update => if (s.get p.gvr p.cluster p.ns p.name).isNone then .inl 404 else .inr p.raw
  | .delete =>
    match s.get p.gvr p.cluster p.ns p.name with
    | none => .inl 404
    | some o => .inr (enc o)
  | .error => .inr p.raw

/-- The event (pkg/client/fake/fake_ckube.go:454-463). -/
def FPlan.event (p : FPlan) (raw : Str) : FEvent := ⟨p.action, p.gvr, p.cluster, p.ns, p.name, raw⟩

/-- `OnResourceAdded`, `OnResourceModified` or `OnResourceDeleted` (pkg/client/fake/fake_ckube.go:425, 434, 452) and the answer that will be
written (pkg/client/fake/fake_ckube.go:478). -/
def FPlan.perform (eval : Str → Obj → Str) (s : Store) (p : FPlan) (raw : Str) : FReply × Store :=
  match p.action with
  | .add => fakeDone eval s (s.onAdded eval p.gvr p.cluster p.b.toObj) p.gvr p.cluster p.b (p.event raw)
  | .update => fakeDone eval s (s.onModified eval p.gvr p.cluster p.b.toObj) p.gvr p.cluster p.b (p.event raw)
  | .delete => fakeDone eval s (s.onDeleted eval p.gvr p.cluster p.b.toObj) p.gvr p.cluster p.b (p.event raw)
  | .error => (.done p.b.om (p.event raw), s)

/-- Where the goroutine of a write is. -/
inductive FPhase where
  | begun
  /-- the store has been asked; the text of the event is known -/
  | passed (p : FPlan) (raw : Str)
  /-- the store has been changed, the event not yet sent -/
  | acted (m : ObjMeta) (e : FEvent)
  | answered (x : FReply)
deriving DecidableEq

/-- The store of the fake server, its goroutines and the events sent so far. -/
structure FWorld where
  store : Store
  phases : List FPhase
  events : List FEvent := []

inductive FStep where
  | check (i : Nat)
  | act (i : Nat)
  | send (i : Nat)
  /-- `Clean` (pkg/client/fake/fake_ckube.go:96-108) -/
  | clean (conf : List (GVR × List (Str × Str)))

/-- One step of one goroutine; `ops` are the writes. `none`: the goroutine is not there. -/
def FWorld.step (eval : Str → Obj → Str) (dec : Str → Option FBody) (enc : Obj → Str) (dflt : Str) (ops : List (Values × HReq))
    (w : FWorld) : FStep → Option FWorld
  | .check i =>
    match w.phases[i]?, ops[i]? with
    | some .begun, some (ord, r) =>
      match fakePlan dec dflt ord r with
      | .inl x => some { w with phases := w.phases.set i (.answered x) }
      | .inr p =>
        match p.check enc w.store with
        | .inl c => some { w with phases := w.phases.set i (.answered (.refused c)) }
        | .inr raw => some { w with phases := w.phases.set i (.passed p raw) }
    | _, _ => none
  | .act i =>
    match w.phases[i]? with
    | some (.passed p raw) =>
      let x := p.perform eval w.store raw
      match x.1 with
      | .done m e => some { w with
          store := x.2
          phases := w.phases.set i (.acted m e) }
      | y => some { w with phases := w.phases.set i (.answered y) }
    | _ => none
  | .send i =>
    match w.phases[i]? with
    | some (.acted m e) => some { w with
        phases := w.phases.set i (.answered (.done m e))
        events := w.events ++ [e] }
    | _ => none
  | .clean conf => some { w with store := newStore conf }

/-- Any number of steps, in any order. -/
def FWorld.run (eval : Str → Obj → Str) (dec : Str → Option FBody) (enc : Obj → Str) (dflt : Str) (ops : List (Values × HReq)) :
    FWorld → List FStep → Option FWorld
  | w, [] => some w
  | w, x :: xs => (w.step eval dec enc dflt ops x).bind fun w => w.run eval dec enc dflt ops xs

/-- A server with this store, when the requests `ops` have come in. -/
def fakeStart (s : Store) (ops : List (Values × HReq)) : FWorld := { store := s, phases := ops.map fun _ => .begun }

end Ckube
