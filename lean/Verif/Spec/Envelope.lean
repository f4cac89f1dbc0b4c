import Verif.Model.Proxy

/-! # Specification: the head of a list -/

namespace Ckube.Spec

/-- How clients read `apiVersion` (apimachinery `schema.ParseGroupVersion`): the group, empty for the core group, and the version. -/
def GroupVersionIs (apiVersion group version : Str) : Prop :=
  ((47 : UInt8) ∉ apiVersion ∧ group = [] ∧ version = apiVersion)
    ∨ (apiVersion = group ++ lit "/" ++ version ∧ group ≠ [] ∧ (47 : UInt8) ∉ group ∧ (47 : UInt8) ∉ version)

/-- The configuration names `kind` as the kind of lists of the type. -/
def ListKindIs (ps : List ProxyConf) (g : GVR) (kind : Str) : Prop :=
  (∃ p ∈ ps, p.group = g.group ∧ p.version = g.version ∧ p.resource = g.resource)
    ∧ ∀ p ∈ ps, p.group = g.group → p.version = g.version → p.resource = g.resource → p.listKind = kind

end Ckube.Spec
