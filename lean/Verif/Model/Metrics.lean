import Verif.Model.Store

/-! # The metric of cached resources across reloads

`prommonitor.Resources` (utils/prommonitor/metrics.go:28-31) is one variable of the process: every store sets it
(store/memory/memory.go:149-150, 158-159, 167-168), also the store of a watcher that is being replaced. A reload makes a store and starts its watcher
(cmd/cacheproxy/main.go:158-160), then resets the metric and stops the old watcher (cmd/cacheproxy/main.go:214-215), whose
goroutines may still be in a call of their store. Calls are atomic here, as in `Model/Store.lean`. -/

namespace Ckube

/-- All stores made so far and the metric they share; the field `gauge` of the stores is not used. -/
structure Metered where
  stores : List Store := []
  gauge : List ((Str × GVR × Str) × Nat) := []

/-- What changes stores or metric. -/
inductive MEvent where
  /-- `NewMemoryStore` (cmd/cacheproxy/main.go:158) -/
  | made (conf : List (GVR × List (Str × Str)))
  /-- a watcher calls the store it fills, the `i`-th that was made -/
  | told (i : Nat) (n : Notice)
  /-- `prommonitor.Resources.Reset()` (cmd/cacheproxy/main.go:214) -/
  | reset

/-- One event; `none` when the call panics or there is no such store. -/
def Metered.step (eval : Str → Obj → Str) (m : Metered) : MEvent → Option Metered
  | .made conf => some { m with stores := m.stores ++ [newStore conf] }
  | .reset => some { m with gauge := [] }
  | .told i n =>
    match m.stores[i]? with
    | none => none
    | some s => (Store.step eval { s with gauge := m.gauge } n).map fun s' => ⟨m.stores.set i s', s'.gauge⟩

/-- A sequence of events. -/
def Metered.run (eval : Str → Obj → Str) (m : Metered) : List MEvent → Option Metered
  | [] => some m
  | e :: h => (m.step eval e).bind fun m' => m'.run eval h

end Ckube
