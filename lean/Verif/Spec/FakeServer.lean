import Verif.Model.FakeServer
import Verif.Spec.Route

/-! # Specification: connections of the fake server -/

namespace Ckube.Spec

/-- The handler has not ended. -/
def Wk.Running (w : Wk) : Prop := w.phase ≠ .ended

/-- Runs in which no watch comes from the remote address of one whose handler has not ended. -/
inductive FreshRun : Hub → Prop
  | init : FreshRun {}
  | connect {h h' : Hub} {a : Str} (hr : FreshRun h) (hf : ∀ w ∈ h.ws, Wk.Running w → w.addr ≠ a) (hs : h.step (.connect a) = some h') :
      FreshRun h'
  | step {h h' : Hub} {x : HubIn} (hr : FreshRun h) (hx : ∀ a, x ≠ .connect a) (hs : h.step x = some h') : FreshRun h'

/-- The handler is ready to receive an event. -/
def Wk.Ready (w : Wk) : Prop := ∃ c, w.phase = .waiting c

/-- The handler with one more event. -/
def Wk.received (w : Wk) (e : FEvent) : Wk := { w with phase := .loop, got := w.got ++ [e] }

/-- The list of the groups describes the configured types: the groups other than the core group, with their versions. -/
def GroupsDescribed (ps : List ProxyConf) (doc : List (Str × List Str)) : Prop :=
  ∀ g v, (∃ vs, (g, vs) ∈ doc ∧ v ∈ vs) ↔ g ≠ [] ∧ ∃ p ∈ ps, p.group = g ∧ p.version = v

/-- A resource list describes the configured types of a group and version, with their kinds. -/
def TypesDescribed (ps : List ProxyConf) (g v : Str) (doc : List (Str × Str)) : Prop :=
  ∀ r k, (r, k) ∈ doc ↔ ∃ p ∈ ps, p.group = g ∧ p.version = v ∧ p.resource = r ∧ p.listKind = k ++ lit "List"

end Ckube.Spec
