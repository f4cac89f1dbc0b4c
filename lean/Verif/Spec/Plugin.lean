import Verif.Model.Selector

/-! # Specification: what the kubectl plugin makes of a command line -/

namespace Ckube.Spec

/-- The arguments meant for kubectl, and the value of the last `--clusters`. -/
inductive KubectlArgs : List Str → List Str → Option Str → Prop
  | nil : KubectlArgs [] [] none
  | clusters (v : Str) {t a : List Str} {c : Option Str} (h : KubectlArgs t a c) :
      KubectlArgs (lit "--clusters" :: v :: t) a (some (c.getD v))
  | other (x : Str) {t a : List Str} {c : Option Str} (hx : x ≠ lit "--clusters") (h : KubectlArgs t a c) :
      KubectlArgs (x :: t) (x :: a) c

/-- The options that give a label selector. -/
def selFlags : List Str := [lit "-l", lit "--selector"]

/-- The selector asks ckube for exactly the clusters `cs`. -/
def ForClusters (text : Str) (cs : List Str) : Prop :=
  ∃ i, parseSelector text = some i ∧ ∀ c, c ∈ getClusters i.paginate.search ↔ c ∈ cs

end Ckube.Spec
