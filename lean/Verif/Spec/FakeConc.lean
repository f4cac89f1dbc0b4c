import Verif.Model.FakeConc
import Verif.Spec.FakeSession

/-! # Specification: writes at the same time, and writes one after the other -/

namespace Ckube.Spec

/-- The answer of a goroutine that has made up its mind. -/
def replyOf (w : FWorld) (i : Nat) : Option FReply :=
  match w.phases[i]? with
  | some (.acted m e) => some (.done m e)
  | some (.answered x) => some x
  | _ => none

/-- The write a step belongs to. -/
def writerOf : FStep → Option Nat
  | .check i | .act i => some i
  | _ => none

/-- The call a step stands for when all calls are made one after the other. -/
def callOf (ops : List (Values × HReq)) : FStep → FOp
  | .check i | .act i | .send i => .write (ops.getD i ([], { method := [] })).1 (ops.getD i ([], { method := [] })).2
  | .clean conf => .clean conf

/-- The object a write has asked the store for. -/
def asked (p : FPlan) : Ident := ⟨p.gvr, p.cluster, p.ns, p.name⟩

/-- The object a write will change. -/
def changed (p : FPlan) : Ident := ⟨p.gvr, p.cluster, p.b.om.ns, p.b.om.name⟩

/-- The step does not change an object that another goroutine has asked for and is about to change. -/
def Polite (w : FWorld) : FStep → Prop
  | .act i => ∀ p raw, w.phases[i]? = some (.passed p raw) → ∀ j p' raw', j ≠ i → w.phases[j]? = some (.passed p' raw') →
      asked p' ≠ changed p
  | .clean _ => ∀ (j : Nat) p' raw', w.phases[j]? ≠ some (.passed p' raw')
  | _ => True

/-- All steps are polite. -/
def AllPolite (eval : Str → Obj → Str) (dec : Str → Option FBody) (enc : Obj → Str) (dflt : Str) (ops : List (Values × HReq)) :
    FWorld → List FStep → Prop
  | _, [] => True
  | w, x :: xs => Polite w x ∧ ∀ w', w.step eval dec enc dflt ops x = some w' → AllPolite eval dec enc dflt ops w' xs

/-- The object an event is about. -/
def about (e : FEvent) : Ident := ⟨e.gvr, e.cluster, e.ns, e.name⟩

/-- The step does not carry out a write of an object as long as the event of an earlier write of this object has not been sent. -/
def Prompt (w : FWorld) : FStep → Prop
  | .act i => ∀ p raw, w.phases[i]? = some (.passed p raw) → ∀ (j : Nat) m e, w.phases[j]? = some (.acted m e) → about e ≠ asked p
  | _ => True

/-- All steps are prompt. -/
def AllPrompt (eval : Str → Obj → Str) (dec : Str → Option FBody) (enc : Obj → Str) (dflt : Str) (ops : List (Values × HReq)) :
    FWorld → List FStep → Prop
  | _, [] => True
  | w, x :: xs => Prompt w x ∧ ∀ w', w.step eval dec enc dflt ops x = some w' → AllPrompt eval dec enc dflt ops w' xs

/-- The events of writes that have been carried out and have not been sent. -/
def unsent (w : FWorld) : List FEvent := w.phases.flatMap fun x => match x with
  | .acted _ e => [e]
  | _ => []

/-- The events of all writes that have been carried out. -/
def eventsOf (w : FWorld) : List FEvent := w.phases.flatMap fun x => match x with
  | .acted _ e => [e]
  | .answered (.done _ e) => [e]
  | _ => []

/-- The call of the store a write makes. -/
def noticeOf (p : FPlan) : List Notice :=
  match p.action with
  | .add => [.added p.gvr p.cluster p.b.toObj]
  | .update => [.modified p.gvr p.cluster p.b.toObj]
  | .delete => [.deleted p.gvr p.cluster p.b.toObj]
  | .error => []

end Ckube.Spec
