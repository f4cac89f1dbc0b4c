import Verif.Model.Throttle

/-! # Specification: a limit of 100 requests at a time and 5 more per second -/

namespace Ckube.Spec

/-- What happened to the requests `as`, from the start of ckube on. -/
def Forwarded (as : List Asked) (log : List (Asked × Option Nat)) : Prop :=
  as.Pairwise (fun a b => a.time ≤ b.time) ∧ log = throttle (fun _ => {}) as

/-- When the requests to a cluster that were not refused were made. -/
def madeAt (c : Str) (log : List (Asked × Option Nat)) : List Nat :=
  (log.filter fun e => e.1.cluster = c ∧ e.2 ≠ none).map fun e => e.1.time

/-- With the requests made at `earlier`, one more at `t` that waits for `d` milliseconds keeps the limit: since any moment `s` there were at most 100
requests and one for every 200 ms that have passed when it is sent. -/
def Fits (earlier : List Nat) (t d : Nat) : Prop :=
  ∀ s, s ≤ t → 200 * (earlier.countP (s ≤ ·) + 1) ≤ 20000 + (t - s) + d

/-- `d` is the shortest wait that keeps the limit. -/
def Shortest (earlier : List Nat) (t d : Nat) : Prop := Fits earlier t d ∧ ∀ d', Fits earlier t d' → d ≤ d'

/-- The moments at which the requests to a cluster are sent to its API server. -/
def sentTo (c : Str) (log : List (Asked × Option Nat)) : List Nat :=
  log.filterMap fun e => if e.1.cluster = c then e.2.map (e.1.time + ·) else none

end Ckube.Spec
