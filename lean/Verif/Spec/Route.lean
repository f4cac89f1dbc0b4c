import Verif.Model.Str

/-! # Specification: the resource paths of the Kubernetes API -/

namespace Ckube.Spec

/-- What a resource path denotes; the group is empty for the core group, the namespace for cluster wide resources and
lists over all namespaces, the name for lists. -/
structure Target where
  group : Str := []
  version : Str
  ns : Str := []
  resource : Str
  name : Str := []
  /-- subresource and what follows it -/
  sub : List Str := []

/-- A piece of a path. -/
def IsPiece (s : Str) : Prop := s ≠ [] ∧ (47 : UInt8) ∉ s ∧ s ≠ lit "." ∧ s ≠ lit ".."

/-- The text of a path. -/
def pathText (segs : List Str) : Str := (segs.map (47 :: ·)).flatten

/-- `/api/v1/…` or `/apis/group/version/…`, then the namespace, the type, the name and the subresource. -/
def Target.pieces (t : Target) : List Str :=
  (if t.group = [] then [lit "api", t.version] else [lit "apis", t.group, t.version])
    ++ (if t.ns = [] then [] else [lit "namespaces", t.ns])
    ++ [t.resource]
    ++ (if t.name = [] then [] else [t.name])
    ++ t.sub

def Target.path (t : Target) : Str := pathText t.pieces

/-- The subresources of namespaces; a namespaced type cannot have such a name. -/
def nsSubresources : List Str := [lit "status", lit "finalize"]

/-- A path denotes `t`: the words that are not types (`watch` and `proxy` prefix the paths of an old form), and after
`namespaces/x` only the subresources of namespaces are read as such. -/
structure Target.Valid (t : Target) : Prop where
  pieces : ∀ s ∈ t.pieces, IsPiece s
  verb : t.resource ∉ [lit "watch", lit "proxy"]
  namespaced : t.ns ≠ [] → t.resource ∉ nsSubresources
  sub : t.sub ≠ [] → t.name ≠ []
  nsSub : t.ns = [] → t.resource = lit "namespaces" → ∀ s ∈ t.sub.head?, s ∈ nsSubresources

end Ckube.Spec
