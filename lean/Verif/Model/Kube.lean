import Verif.Model.Labels

/-! # kube/label.go -/

namespace Ckube

/-- `eachPartLen` (kube/label.go:12). -/
def eachPartLen : Nat := 56

/-- The loop of `SplittingValue` (kube/label.go:19-26): `i` is the offset, `rest` is
`value[i:]`. `fuel` bounds the number of iterations. -/
def splitFrom : Nat → Nat → Str → List Str
  | 0, i, rest => [pad4 i ++ [46] ++ rest]
  | f + 1, i, rest =>
    if rest.length ≤ eachPartLen then [pad4 i ++ [46] ++ rest]
    else (pad4 i ++ [46] ++ rest.take eachPartLen)
      :: splitFrom f (i + eachPartLen) (rest.drop eachPartLen)

/-- `SplittingValue` (kube/label.go:14-28). -/
def splittingValue (value : Str) : List Str :=
  if value.length ≤ eachPartLen then [value] else splitFrom value.length 0 value

/-- The loop of `MergeValues` (kube/label.go:36-42). -/
def mergeLoop : List Str → Option Str
  | [] => some []
  | v :: vs =>
    match splitByte 46 v with
    | [_, b] => (mergeLoop vs).map (b ++ ·)
    | _ => none

/-- `MergeValues` (kube/label.go:30-44); `none` is an error. `sort.Strings` is `sortBy strLe`. -/
def mergeValues (values : List Str) : Option Str :=
  match values with
  | [v] => some v
  | vs => mergeLoop (sortBy strLe vs)

/-- The loop of `ParseToLabelSelector` (kube/label.go:56-89). -/
def selectorLoop : List Req → LabelSelector → Option LabelSelector
  | [], acc => some acc
  | q :: qs, acc =>
    let expr (op : LOp) : LabelSelector :=
      { acc with matchExprs := acc.matchExprs ++ [⟨q.key, op, setList q.vals⟩] }
    match q.op with
    | .eq | .deq =>
      match q.vals with
      | [v] => selectorLoop qs { acc with matchLabels := insertKV q.key v acc.matchLabels }
      | _ => none
    | .isIn => selectorLoop qs (expr .isIn)
    | .notIn | .neq => selectorLoop qs (expr .notIn)
    | .exist => selectorLoop qs (expr .exist)
    | .notExist => selectorLoop qs (expr .notExist)
    | .gt | .lt => none

/-- `ParseToLabelSelector` (kube/label.go:46-91); `none` is an error. -/
def parseToLabelSelector (s : Str) : Option LabelSelector :=
  (parseReqs s).bind fun qs => selectorLoop qs {}

end Ckube
