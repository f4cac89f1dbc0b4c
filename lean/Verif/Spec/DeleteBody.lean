import Verif.Spec.ConfigFile
import Verif.Model.DeleteOpts

/-! # Specification: what the JSON text of delete options says

The names of members are compared without regard to case, as `encoding/json` does. -/

namespace Ckube.Spec

/-- The number that decimal digits denote. -/
def decimal (ds : Str) : Nat := ds.foldl (fun n c => 10 * n + (c.toNat - 48)) 0

/-- Decimal digits. -/
def IsDigits (ds : Str) : Prop := ds ≠ [] ∧ ∀ c ∈ ds, 48 ≤ c ∧ c ≤ 57

/-- An integer that fits into 64 bits. -/
def MeansInt64 (raw : Str) (i : Int) : Prop :=
  -9223372036854775808 ≤ i ∧ i ≤ 9223372036854775807
    ∧ ((IsDigits raw ∧ i = decimal raw) ∨ ∃ ds, raw = 45 :: ds ∧ IsDigits ds ∧ i = -(decimal ds : Int))

/-- A value that may be left out. -/
def MeansOpt {α : Type} (means : JV → α → Prop) (x : JV) (v : Option α) : Prop :=
  (∃ a, v = some a ∧ means x a) ∨ x = .null ∧ v = none

/-- A list of strings, or null for none. -/
def MeansStrs (x : JV) (v : List Str) : Prop := (∃ xs, x = .arr xs ∧ List.Forall₂ MeansStr xs v) ∨ x = .null ∧ v = []

/-- Preconditions: uid and resource version. -/
def MeansPre (x : JV) (p : Option Str × Option Str) : Prop :=
  ∃ ms, x = .obj ms ∧ Member (MeansOpt fun x s => x = .str s) none ms "uid" p.1
    ∧ Member (MeansOpt fun x s => x = .str s) none ms "resourceversion" p.2

/-- The options. -/
structure MeansDelete (ms : List (Str × JV)) (o : DelOpts) : Prop where
  kind : Member MeansStr [] ms "kind" o.kind
  apiVersion : Member MeansStr [] ms "apiversion" o.apiVersion
  grace : Member (MeansOpt fun x i => ∃ raw, x = .num raw ∧ MeansInt64 raw i) none ms "graceperiodseconds" o.grace
  pre : Member (MeansOpt MeansPre) none ms "preconditions" o.pre
  orphan : Member (MeansOpt fun x b => x = .bool b) none ms "orphandependents" o.orphan
  policy : Member (MeansOpt fun x s => x = .str s) none ms "propagationpolicy" o.policy
  dryRun : Member MeansStrs [] ms "dryrun" o.dryRun

/-- No name occurs twice, neither in the options nor in the preconditions. -/
def PlainDelete (ms : List (Str × JV)) : Prop :=
  PlainNames ms ∧ ∀ k es, (k, .obj es) ∈ ms → asciiLower k = lit "preconditions" → PlainNames es

/-- The text says `o`. -/
def SaysOptions (text : Str) (o : DelOpts) : Prop := ∃ ms, Json.parse text = some (.obj ms) ∧ PlainDelete ms ∧ MeansDelete ms o

/-- The names of the options. -/
def optionNames : List Str :=
  ["kind", "apiversion", "graceperiodseconds", "preconditions", "orphandependents", "propagationpolicy", "dryrun"].map lit

end Ckube.Spec
