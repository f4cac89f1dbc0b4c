import Verif.Model.Store

/-! # Specification: the cache as a map

What a client of the cache expects, in terms of the history of notifications. -/

namespace Ckube.Spec

/-- What identifies an object. -/
structure Ident where
  gvr : GVR
  cluster : Str
  ns : Str
  name : Str
  deriving DecidableEq

/-- Namespace and name of an object: its own, or, for values without metadata, those that the
index configuration extracts. -/
def objKey (eval : Str → Obj → Str) (conf : List (Str × Str)) (o : Obj) : Str × Str :=
  match o.om with
  | some m => (m.ns, m.name)
  | none => (match lookup (lit "namespace") conf with | some e => indexValue eval o e | none => [],
             match lookup (lit "name") conf with | some e => indexValue eval o e | none => [])

/-- The identity a notification is about. -/
def identOf (eval : Str → Obj → Str) (conf : GVR → List (Str × Str)) (g : GVR) (c : Str) (o : Obj) : Ident :=
  ⟨g, c, (objKey eval (conf g) o).1, (objKey eval (conf g) o).2⟩

/-- The notification writes object `o` under `id`. -/
def Writes (eval : Str → Obj → Str) (conf : GVR → List (Str × Str)) (n : Notice) (id : Ident) (o : Obj) : Prop :=
  match n with
  | .added g c o' | .modified g c o' => o' = o ∧ identOf eval conf g c o' = id
  | _ => False

/-- The notification removes whatever is under `id`. -/
def Removes (eval : Str → Obj → Str) (conf : GVR → List (Str × Str)) (n : Notice) (id : Ident) : Prop :=
  match n with
  | .deleted g c o => identOf eval conf g c o = id
  | .clean g c => g = id.gvr ∧ c = id.cluster
  | _ => False

/-- After history `h` the object received last for `id` is `o`: some notification wrote it and no
later one wrote or removed anything there. -/
def Latest (eval : Str → Obj → Str) (conf : GVR → List (Str × Str)) (h : List Notice) (id : Ident) (o : Obj) : Prop :=
  ∃ h₁ n h₂, h = h₁ ++ n :: h₂ ∧ Writes eval conf n id o
    ∧ ∀ n' ∈ h₂, (∀ o', ¬ Writes eval conf n' id o') ∧ ¬ Removes eval conf n' id

/-- `o'` is `o` except for the two annotations ckube adds to objects with metadata. -/
def SameButMarks (o o' : Obj) : Prop :=
  o'.selector = o.selector ∧ o'.body = o.body ∧
    match o.om, o'.om with
    | none, none => True
    | some m, some m' => m'.name = m.name ∧ m'.ns = m.ns ∧ m'.labels = m.labels ∧ m'.deleted = m.deleted
        ∧ m'.owners = m.owners
        ∧ ∀ k, k ≠ lit "ckube.doacloud.io/cluster" → k ≠ lit "ckube.daocloud.io/indexes" →
          lookup k m'.annos = lookup k m.annos
    | _, _ => False

/-- The index configuration is a map from resource types to maps from keys to expressions. -/
def ConfOK (conf : List (GVR × List (Str × Str))) : Prop := IsMap conf ∧ ∀ e ∈ conf, IsMap e.2

/-- The configured indexes of a resource type. -/
def confAt (conf : List (GVR × List (Str × Str))) (g : GVR) : List (Str × Str) := (lookup g conf).getD []

/-- The index value of an object received from cluster `c`: the built-in keys `cluster` and, for objects
with metadata, `is_deleted`, `namespace` and `name`; then the configured ones. -/
def indexValueOf (eval : Str → Obj → Str) (conf : List (Str × Str)) (c : Str) (o : Obj) (k : Str) : Option Str :=
  let configured := (lookup k conf).map (indexValue eval o)
  if k = lit "cluster" then some c
  else match o.om with
    | none => configured
    | some m =>
      if k = lit "is_deleted" then some (if m.deleted then lit "true" else lit "false")
      else if k = lit "namespace" then some m.ns
      else if k = lit "name" then some m.name
      else configured

/-- `idx` is the index map of the object. -/
def IsIndex (eval : Str → Obj → Str) (conf : List (Str × Str)) (c : Str) (o : Obj) (idx : List (Str × Str)) : Prop :=
  IsMap idx ∧ ∀ k, lookup k idx = indexValueOf eval conf c o k

/-- The object of identity `id` is `o`, it is in the requested namespace and the search accepts it. -/
def Matching (isPrint : Nat → Bool) (eval : Str → Obj → Str) (conf : List (GVR × List (Str × Str)))
    (h : List Notice) (g : GVR) (q : Query) (id : Ident) (o : Obj) : Prop :=
  Latest eval (confAt conf) h id o ∧ id.gvr = g ∧ (q.ns = [] ∨ q.ns = id.ns)
    ∧ ∃ idx, IsIndex eval (confAt conf g) id.cluster o idx ∧ q.page.matches isPrint idx = some true

/-- Every object received has metadata (is an API object). -/
def ApiObjects (h : List Notice) : Prop :=
  ∀ n ∈ h, match n with
    | .added _ _ o | .modified _ _ o | .deleted _ _ o => o.om.isSome = true
    | .clean _ _ => True

end Ckube.Spec
