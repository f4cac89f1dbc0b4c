import Mathlib.Data.List.Forall2
import Verif.Spec.Route

/-! # Specification: what nginx sends to ckube -/

namespace Ckube.Spec

/-- Letters, digits, dots, dashes and underscores. -/
def IsWord (s : Str) : Prop := s ≠ [] ∧ ∀ c ∈ s, c ∈ lit "0123456789abcdefghijklmnopqrstuvwxyzABCDEFGHIJKLMNOPQRSTUVWXYZ.-_"

/-- A list or an object without subresource, all of whose names but that of the object are words. -/
structure Target.Plain (t : Target) : Prop where
  group : t.group = [] ∨ IsWord t.group
  version : IsWord t.version
  ns : t.ns = [] ∨ IsWord t.ns
  resource : IsWord t.resource
  name : (47 : UInt8) ∉ t.name
  sub : t.sub = []

/-- The same letter, in one case or the other. -/
def SameLetter (a b : UInt8) : Prop := a = b ∨ (97 ≤ a ∧ a ≤ 122 ∧ b + 32 = a)

/-- `name=value`, with the name in upper or lower case. -/
def IsArg (name : Str) (piece value : Str) : Prop := ∃ n, List.Forall₂ SameLetter name n ∧ piece = n ++ 61 :: value

/-- The text contains a 1 or a true, in any case. -/
def SaysTrue (v : Str) : Prop := (49 : UInt8) ∈ v ∨ ∃ w, w <:+: v ∧ List.Forall₂ SameLetter (lit "true") w

/-- The first argument called watch says true. -/
def AsksToWatch (args : Str) : Prop :=
  ∃ pre piece post v, pre ++ piece :: post = splitByte 38 args ∧ IsArg (lit "watch") piece v ∧ (∀ p ∈ pre, ∀ v, ¬ IsArg (lit "watch") p v)
    ∧ SaysTrue v

end Ckube.Spec
