import Verif.Model.Watcher

/-! # All goroutines of a watcher, and `Stop` (watcher/watcher.go)

`Model/Watcher.lean` has one goroutine and says nothing about when it finds the `stop` channel closed. Here are all goroutines
`Start` makes, the channel they share, and the two places where they look at it. A goroutine does one thing at a time, in any order
with the others. Sleeps only delay and are not modelled. -/

namespace Ckube

/-- Where a goroutine is (watcher/watcher.go:137-192): before the first `select`, in `Watch`, in the inner loop with this value of
`first`, or returned. -/
inductive GPhase where
  | head
  | dialing
  | streaming (first : Bool)
  | done
  deriving DecidableEq

/-- What a goroutine does next. -/
inductive GIn where
  /-- the `select` at the head of the outer loop (watcher/watcher.go:138-142) -/
  | check
  /-- `Watch` returns an error (watcher/watcher.go:152-154) -/
  | fail
  /-- `Watch` succeeds -/
  | opened
  /-- the inner `select` receives an event (watcher/watcher.go:159-177) -/
  | event (t : EvType) (o : Obj)
  /-- the inner `select` finds `ResultChan` closed (watcher/watcher.go:178-183) -/
  | closed
  /-- the inner `select` finds `stop` closed (watcher/watcher.go:184-187) -/
  | seen
  deriving DecidableEq

/-- One thing a goroutine does; `none` when it cannot happen. When both channels of the inner `select` are ready, Go takes
either: `event` and `closed` remain possible when `stop` is closed. -/
def gstep (r : GVR) (c : Str) (stopped : Bool) : GPhase → GIn → Option (GPhase × List Notice)
  | .head, .check => some (if stopped then .done else .dialing, [])
  | .dialing, .fail => some (.head, [])
  | .dialing, .opened => some (.streaming true, [])
  | .streaming first, .event t o => some (.streaming false, cleanFirst r c first ++ evNotice r c t o)
  | .streaming first, .closed => some (.head, cleanFirst r c first)
  | .streaming _, .seen => if stopped then some (.done, []) else none
  | _, _ => none

/-- A started watcher: whether `stop` is closed, and the goroutines with their type and cluster. -/
structure Fleet where
  stopped : Bool := false
  gs : List ((GVR × Str) × GPhase) := []

/-- `Start` (watcher/watcher.go:195-202) of a watcher for these types and clusters. -/
def startFleet (types : List GVR) (clusters : List Str) : Fleet :=
  ⟨false, types.flatMap fun r => clusters.map fun c => ((r, c), .head)⟩

/-- What happens to a started watcher. -/
inductive FIn where
  /-- `Stop` is called -/
  | stop
  /-- the `i`-th goroutine does something -/
  | go (i : Nat) (x : GIn)
  deriving DecidableEq

/-- One thing happens: the watcher then, and the store calls with the goroutine that makes them. A second `Stop` panics
(watcher/watcher.go:41-44) and is `none`. -/
def Fleet.step (f : Fleet) : FIn → Option (Fleet × List (Nat × Notice))
  | .stop => if f.stopped then none else some ({ f with stopped := true }, [])
  | .go i x =>
    match f.gs[i]? with
    | none => none
    | some (k, p) => (gstep k.1 k.2 f.stopped p x).map fun y =>
        ({ f with gs := f.gs.set i (k, y.1) }, y.2.map fun n => (i, n))

/-- Any number of things happen. -/
def Fleet.run : Fleet → List FIn → Option (Fleet × List (Nat × Notice))
  | f, [] => some (f, [])
  | f, x :: xs =>
    match f.step x with
    | none => none
    | some (f', out) => (f'.run xs).map fun y => (y.1, out ++ y.2)

end Ckube
