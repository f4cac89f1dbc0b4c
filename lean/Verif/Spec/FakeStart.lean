import Verif.Model.FakeStart

/-! # Specification: who answers at the address of a fake server -/

namespace Ckube.Spec

/-- An address written as host, colon and port. -/
structure HostPort (a h p : Str) : Prop where
  text : a = h ++ 58 :: p
  host : (58 : UInt8) ∉ h ∧ (91 : UInt8) ∉ h ∧ (93 : UInt8) ∉ h
  port : (58 : UInt8) ∉ p ∧ (91 : UInt8) ∉ p ∧ (93 : UInt8) ∉ p

/-- `127.0.0.1` is the loopback interface. -/
def Machine (e : NetEnv) : Prop := e.host (lit "127.0.0.1") = some (.ip e.lo)

/-- A server that listens at this host hears the loopback interface. -/
def HearsLoopback (e : NetEnv) (h : Str) : Prop := h = [] ∨ e.host h = some .any ∨ e.host h = some (.ip e.lo)

/-- Nobody takes connections to this port of the loopback interface or of all interfaces. -/
def PortFree (ls : List Listener) (k : Nat) : Prop := ∀ l ∈ ls, l.port ≠ k

/-- What is done to other servers than this one. -/
def NotMine (id : Nat) : FakeAct → Prop
  | .start _ _ _ j => j ≠ id
  | .stop j => j ≠ id

end Ckube.Spec
