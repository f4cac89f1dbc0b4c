import Verif.Model.Labels

/-! # Specification: what a label selector means

Kubernetes documentation of `LabelSelector`: all `matchLabels` entries and all
`matchExpressions` must hold. -/

namespace Ckube.Spec

/-- Meaning of one expression `key op values` on a label set. -/
def ExprHolds (e : LReq) (m : List (Str × Str)) : Prop :=
  match e.op with
  | .isIn => ∃ v, lookup e.key m = some v ∧ v ∈ e.vals
  | .notIn => ∀ v, lookup e.key m = some v → v ∉ e.vals
  | .exist => ∃ v, lookup e.key m = some v
  | .notExist => lookup e.key m = none

/-- Meaning of a selector on a label set. -/
def SelectorHolds (ls : LabelSelector) (m : List (Str × Str)) : Prop :=
  (∀ k v, (k, v) ∈ ls.matchLabels → lookup k m = some v) ∧ ∀ e ∈ ls.matchExprs, ExprHolds e m

/-- Meaning of one written requirement (Kubernetes documentation of label selectors); `>` and `<`
are not accepted by ckube. -/
def ReqHolds (q : Req) (m : List (Str × Str)) : Prop :=
  match q.op with
  | .eq | .deq | .isIn => ∃ v, lookup q.key m = some v ∧ v ∈ q.vals
  | .neq | .notIn => ∀ v, lookup q.key m = some v → v ∉ q.vals
  | .exist => lookup q.key m ≠ none
  | .notExist => lookup q.key m = none
  | .gt | .lt => False

/-- The requirements without the equalities that are followed by another equality on the same
label: of several equalities on one label the last counts. -/
def lastEqualities : List Req → List Req
  | [] => []
  | q :: qs =>
    if (q.op = .eq ∨ q.op = .deq) ∧ ∃ r ∈ qs, (r.op = .eq ∨ r.op = .deq) ∧ r.key = q.key then lastEqualities qs
    else q :: lastEqualities qs

end Ckube.Spec
