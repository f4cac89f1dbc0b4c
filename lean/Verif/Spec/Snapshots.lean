import Verif.Spec.Watch

/-! # Specification: the history of an API server and its watcher -/

namespace Ckube.Spec

/-- An execution of an API server with the objects of type `g` of cluster `c` and of its watcher: `e m` is the state after `m` steps. Steps may be
void, so that finite executions are among them. -/
def Unfolds (g : GVR) (c : Str) (e : Nat → Sys) : Prop :=
  e 0 = {} ∧ ∀ m, e (m + 1) = e m ∨ SysStep g c (e m) (e (m + 1))

end Ckube.Spec
