import Mathlib.Data.List.Forall2
import Verif.Model.Reload
import Verif.Model.Json

/-! # Specification: configuration files

A configuration file is a JSON object. Member names are compared without regard to case. -/

namespace Ckube.Spec

/-- The names of the members are ASCII and differ in more than case. -/
def PlainNames (ms : List (Str × JV)) : Prop := (∀ e ∈ ms, ∀ b ∈ e.1, b.toNat < 128) ∧ (ms.map fun e => asciiLower e.1).Nodup

/-- The member `name` means `v`; without member the value is `zero`. -/
def Member {α : Type} (means : JV → α → Prop) (zero : α) (ms : List (Str × JV)) (name : String) (v : α) : Prop :=
  (v = zero ∧ ∀ e ∈ ms, asciiLower e.1 ≠ lit name) ∨ ∃ k x, (k, x) ∈ ms ∧ asciiLower k = lit name ∧ means x v

/-- A string, or null for the empty string. -/
def MeansStr (x : JV) (v : Str) : Prop := x = .str v ∨ x = .null ∧ v = []

/-- An object of strings, or null for none. -/
def MeansIndex (x : JV) (m : List (Str × Str)) : Prop :=
  (∃ es, x = .obj es ∧ List.Forall₂ (fun e p => p.1 = e.1 ∧ MeansStr e.2 p.2) es m) ∨ x = .null ∧ m = []

/-- A type to be cached. -/
def MeansProxy (x : JV) (p : ProxyConf) : Prop :=
  (∃ ms, x = .obj ms ∧ Member MeansStr [] ms "group" p.group ∧ Member MeansStr [] ms "version" p.version ∧ Member MeansStr [] ms "resource" p.resource
    ∧ Member MeansStr [] ms "list_kind" p.listKind ∧ Member MeansIndex [] ms "index" p.index) ∨ x = .null ∧ p = {}

/-- The types to be cached. -/
def MeansProxies (x : JV) (ps : List ProxyConf) : Prop := (∃ xs, x = .arr xs ∧ List.Forall₂ MeansProxy xs ps) ∨ x = .null ∧ ps = []

/-- The file. -/
def MeansConfig (x : JV) (c : Config) : Prop :=
  (∃ ms, x = .obj ms ∧ Member MeansProxies [] ms "proxies" c.proxies ∧ Member MeansStr [] ms "default_cluster" c.defaultCluster
    ∧ Member MeansStr [] ms "token" c.token) ∨ x = .null ∧ c = {}

/-- No name occurs twice: in the object, in the objects of `proxies` and in their `index`. -/
def PlainConfig (x : JV) : Prop :=
  ∀ ms, x = .obj ms → PlainNames ms ∧ ∀ k xs, (k, .arr xs) ∈ ms → asciiLower k = lit "proxies" → ∀ y ∈ xs, ∀ ms', y = .obj ms' →
    PlainNames ms' ∧ ∀ k' es, (k', .obj es) ∈ ms' → asciiLower k' = lit "index" → (es.map Prod.fst).Nodup

end Ckube.Spec
