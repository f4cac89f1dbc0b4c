import Verif.Model.Page
import Verif.Spec.Selector

/-! # Specification: the constraints of a search text

A search text is a conjunction of parts; parts that start with `__ckube_as__:` are advanced parts and
hold a label selector over the index. -/

namespace Ckube.Spec

/-- `qs` are the requirements written in the advanced part of the search, which has at most one such
part (none: no requirements). -/
def AdvReqs (search : Str) (qs : List Req) : Prop :=
  ((searchParts search).filter (hasPrefix · advPrefix) = [] ∧ qs = []) ∨
    ∃ text, (searchParts search).filter (hasPrefix · advPrefix) = [advPrefix ++ text]
      ∧ parseReqs text = some qs

/-- Every constraint of the search that is not a requirement of the advanced part on `key`: the
plain parts and the other requirements. -/
def OtherConstraints (isPrint : Nat → Bool) (key search : Str) (qs : List Req) (m : List (Str × Str)) : Prop :=
  (∀ p ∈ searchParts search, ¬ advPrefix <+: p → matchParts isPrint m [p] = some true)
    ∧ ∀ q ∈ qs, q.key ≠ key → ReqHolds q m

/-- The text of the search can be taken apart and put together again: no part starts with `;`, and
no requirement other than those on `key` lists only empty values; there is at most one equality
for each index and none on `key`. -/
structure PlainSearch (key search : Str) (qs : List Req) : Prop where
  semicolon : ∀ p ∈ searchParts search, ∀ r, p ≠ lit ";" ++ r
  values : ∀ q ∈ qs, q.key ≠ key → q.op = .isIn ∨ q.op = .notIn ∨ q.op = .neq → ∃ v ∈ q.vals, v ≠ []
  once : ((qs.filter fun q => q.op = .eq ∨ q.op = .deq).map Req.key).Nodup
  noEq : ∀ q ∈ qs, q.op = .eq ∨ q.op = .deq → q.key ≠ key

/-- The first advanced part of the search reads as the requirements `qs`; there may be further advanced parts. -/
def FirstReqs (search : Str) (qs : List Req) : Prop :=
  ((∀ p ∈ searchParts search, ¬ lit "__ckube_as__:" <+: p) ∧ qs = [])
    ∨ ∃ pre text post, searchParts search = pre ++ (lit "__ckube_as__:" ++ text) :: post
      ∧ (∀ p ∈ pre, ¬ lit "__ckube_as__:" <+: p) ∧ parseReqs text = some qs

/-- What is kept of a search when it is restricted by `key`: the plain parts, of the first advanced part the last equality for every index
and every other requirement that is not on `key`. -/
def KeptConstraints (isPrint : Nat → Bool) (key search : Str) (qs : List Req) (m : List (Str × Str)) : Prop :=
  (∀ p ∈ searchParts search, ¬ lit "__ckube_as__:" <+: p → matchParts isPrint m [p] = some true)
    ∧ ∀ q ∈ lastEqualities qs, q.key ≠ key ∨ q.op = .eq ∨ q.op = .deq → ReqHolds q m

/-- The text of the search can be taken apart and put together again: no plain part starts with `;`, and no requirement other than those
on `key` lists only empty values. -/
structure Separable (key search : Str) (qs : List Req) : Prop where
  semicolon : ∀ p ∈ searchParts search, ¬ lit "__ckube_as__:" <+: p → ∀ r, p ≠ lit ";" ++ r
  values : ∀ q ∈ qs, q.key ≠ key → q.op = .isIn ∨ q.op = .notIn ∨ q.op = .neq → ∃ v ∈ q.vals, v ≠ []

end Ckube.Spec
