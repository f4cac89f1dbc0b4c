import Verif.Model.Fake
import Verif.Spec.Proxy
import Verif.Spec.Cache

/-! # Specification: the fake server as a map of objects with watchers -/

namespace Ckube.Spec

/-- The query names cluster `c` with a marker. -/
def QueryNames (r : HReq) (c : Str) : Prop := ∃ k ∈ markerKeys, First r.rawQuery k (marker c)

/-- The delete options name cluster `c`. -/
def OptionsName (r : HReq) (c : Str) : Prop := r.method = lit "DELETE" ∧ (decodeDelete r.body).dryRun = [marker c]

/-- The cluster a write is about. -/
inductive FakeTarget (dflt : Str) (r : HReq) (c : Str) : Prop
  | options (h : OptionsName r c)
  | query (h : QueryNames r c) (hno : ∀ c', ¬ OptionsName r c')
  | default (h : c = dflt) (hno : ∀ c', ¬ OptionsName r c') (hno' : ∀ c', ¬ QueryNames r c')

/-- The request is a watch. -/
def AsksWatch (r : HReq) : Prop := ∃ v, First r.rawQuery (lit "watch") v ∧ asciiLower v ∈ [lit "true", lit "1"]

/-- The object a write is about: the name in the path, or that in the body. -/
def fakeIdent (r : HReq) (c : Str) (b : FBody) : Ident :=
  ⟨r.gvr, c, r.ns, if r.resource = [] then b.om.name else r.resource⟩

/-- What is read under an identity. -/
def readAt (s : Store) (id : Ident) : Option Obj := s.get id.gvr id.cluster id.ns id.name

/-- The object of the body, in the namespace of the path. -/
def bodyIn (ns : Str) (b : FBody) : Obj := { om := some { b.om with ns := ns }, selector := b.selector, body := b.body }

/-- The watcher asked for events of this kind: the type, the namespace unless it watches all, and the clusters
unless it names none. -/
def Wants (r : HReq) (clusters : List Str) (e : FEvent) : Prop :=
  e.gvr = r.gvr ∧ (r.ns = [] ∨ e.ns = r.ns) ∧ (clusters = [] ∨ e.cluster ∈ clusters)

/-- The name of the event in the Kubernetes watch protocol. -/
def eventType : FAct → Str
  | .add => lit "ADDED"
  | .update => lit "MODIFIED"
  | .delete => lit "DELETED"
  | .error => lit "ERROR"

/-- The text of an event in a watch stream. -/
def eventText (e : FEvent) : Str :=
  lit "{\"type\": \"" ++ eventType e.action ++ lit "\", \"object\": " ++ e.raw ++ lit "}\n"

end Ckube.Spec
