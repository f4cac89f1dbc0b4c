import Verif.Spec.Proxy

/-! # Specification: the services of a deployment -/

namespace Ckube.Spec

/-- The first owner of the object is a ReplicaSet `<d>-<hash>`. -/
def OwnedBy (o : Obj) (d : Str) : Prop :=
  ∃ m hash rest, o.om = some m ∧ m.owners = (lit "ReplicaSet", d ++ lit "-" ++ hash) :: rest ∧ (45 : UInt8) ∉ hash

/-- A Kubernetes name: letters, digits, `-` and `.`. -/
def NameText (name : Str) : Prop := ∀ b ∈ name, isAlnum b = true ∨ b = 45 ∨ b = 46

/-- The service selects objects with these labels: it has a selector and every entry of it is among the labels. -/
def SelectsLabels (svc : Obj) (labels : List (Str × Str)) : Prop :=
  ∃ sel, svc.selector = some sel ∧ ∀ k v, (k, v) ∈ sel → lookup k labels = some v

/-- The names are in ascending order, each once. -/
def InOrder (names : List Str) : Prop := names.Pairwise fun a b => strLt a b = true

end Ckube.Spec
