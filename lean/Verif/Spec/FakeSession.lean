import Verif.Model.FakeSession
import Verif.Spec.Fake

/-! # Specification: a test as operations on a map of objects -/

namespace Ckube.Spec

/-- What a test sees of a call: it was carried out, it was refused, or everything was forgotten. -/
inductive Outcome where
  | ok (a : FAct) (id : Ident)
  | no (code : Nat)
  | cleaned

/-- The objects of an API server and one call. -/
inductive WorldStep (dec : Str → Option FBody) (dflt : Str) : List (Ident × Obj) → FOp → Outcome → List (Ident × Obj) → Prop
  | create {W ord r b c} (hm : r.method = lit "POST") (hb : dec r.body = some b) (ht : FakeTarget dflt r c)
      (hn : lookup (fakeIdent r c b) W = none) :
      WorldStep dec dflt W (.write ord r) (.ok .add (fakeIdent r c b)) (insertKV (fakeIdent r c b) (bodyIn r.ns b) W)
  | exists {W ord r b c o} (hm : r.method = lit "POST") (hb : dec r.body = some b) (ht : FakeTarget dflt r c)
      (hn : lookup (fakeIdent r c b) W = some o) : WorldStep dec dflt W (.write ord r) (.no 400) W
  | replace {W ord r b c o} (hm : r.method = lit "PUT") (hb : dec r.body = some b) (ht : FakeTarget dflt r c)
      (hn : lookup (fakeIdent r c b) W = some o) :
      WorldStep dec dflt W (.write ord r) (.ok .update (fakeIdent r c b)) (insertKV (fakeIdent r c b) (bodyIn r.ns b) W)
  | delete {W ord r b c o} (hm : r.method = lit "DELETE") (hb : dec r.body = some b) (ht : FakeTarget dflt r c)
      (hn : lookup (fakeIdent r c b) W = some o) :
      WorldStep dec dflt W (.write ord r) (.ok .delete (fakeIdent r c b)) (eraseKV (fakeIdent r c b) W)
  | missing {W ord r b c} (hm : r.method = lit "PUT" ∨ r.method = lit "DELETE") (hb : dec r.body = some b) (ht : FakeTarget dflt r c)
      (hn : lookup (fakeIdent r c b) W = none) : WorldStep dec dflt W (.write ord r) (.no 404) W
  | clean {W conf} : WorldStep dec dflt W (.clean conf) .cleaned []

/-- A sequence of calls. -/
inductive WorldRun (dec : Str → Option FBody) (dflt : Str) : List (Ident × Obj) → List FOp → List Outcome → List (Ident × Obj) → Prop
  | nil {W} : WorldRun dec dflt W [] [] W
  | cons {W W' W'' op ops x xs} (h : WorldStep dec dflt W op x W') (t : WorldRun dec dflt W' ops xs W'') :
      WorldRun dec dflt W (op :: ops) (x :: xs) W''

/-- The answer of the fake server says this; the event names the object and what was done. -/
def Says : Outcome → Option FReply → Prop
  | .ok a id, some (.done _ e) => e.action = a ∧ (⟨e.gvr, e.cluster, e.ns, e.name⟩ : Ident) = id
  | .no code, some (.refused code') => code' = code
  | .cleaned, none => True
  | _, _ => False

/-- The objects of type `g` in cluster `c`. -/
def objsOf (g : GVR) (c : Str) (W : List (Ident × Obj)) : List ((Str × Str) × Obj) :=
  (W.filter fun e => e.1.gvr = g ∧ e.1.cluster = c).map fun e => ((e.1.ns, e.1.name), e.2)

/-- A call the fake server is made for: a creation, replacement or deletion of an object of a cached type, with a body that can be
read and has the name of the path, if there is one; or `Clean` with the configuration the server was started with. -/
def Orderly (dec : Str → Option FBody) (conf : List (GVR × List (Str × Str))) : FOp → Prop
  | .write ord r => ord.Perm (parseQuery r.rawQuery) ∧ ¬ AsksWatch r ∧ r.method ∈ [lit "POST", lit "PUT", lit "DELETE"]
      ∧ (∃ e ∈ conf, e.1 = r.gvr)
      ∧ ∃ b, dec r.body = some b ∧ (r.method = lit "DELETE" ∨ r.resource = [] ∨ r.resource = b.om.name)
  | .clean conf' => conf' = conf

end Ckube.Spec
