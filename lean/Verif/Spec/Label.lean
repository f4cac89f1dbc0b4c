import Verif.Model.Str

/-! # Specification: legal label values

Kubernetes documentation: a label value is at most 63 characters, is empty or begins and ends
with an alphanumeric character, with dashes, underscores, dots and alphanumerics between.
Stated with the characters themselves, independently of the model. -/

namespace Ckube.Spec

/-- ASCII letters and digits. -/
def alnum : Str :=
  lit "ABCDEFGHIJKLMNOPQRSTUVWXYZabcdefghijklmnopqrstuvwxyz0123456789"

/-- A legal label value. -/
def LegalLabelValue (v : Str) : Prop :=
  v.length ≤ 63 ∧ (v = [] ∨
    ((∀ b ∈ v, b ∈ alnum ∨ b ∈ lit "-_.") ∧ (∃ a r, v = a :: r ∧ a ∈ alnum)
      ∧ ∃ r z, v = r ++ [z] ∧ z ∈ alnum))

end Ckube.Spec
