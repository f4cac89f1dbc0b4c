import Verif.Model.Watcher

/-! # The watcher and the clock (watcher/watcher.go:138-193)

`Model/Watcher.lean` leaves out time. Here `watchResources` has a clock in milliseconds: the pauses of the loop, the hour after which the
context of a stream ends, and where the goroutine looks at the `stop` channel. What the goroutine does between two waits takes no time, nor do
the calls of the store: time passes only while it waits, and never beyond the end of a wait. When the context is over, `Watch` returns an error or
`ResultChan` is closed (client-go, not part of /repo). With the `stop` channel closed and an event at hand, `select` takes either. -/

namespace Ckube

/-- `time.Sleep(time.Second * 15)` (watcher/watcher.go:155) -/
def retryPause : Nat := 15 * 1000

/-- `time.Sleep(time.Second * 3)` (watcher/watcher.go:181) -/
def reopenPause : Nat := 3 * 1000

/-- `context.WithTimeout(context.Background(), time.Hour)` (watcher/watcher.go:144) -/
def streamLimit : Nat := 60 * 60 * 1000

/-- Where the goroutine is: at the head of the outer loop (watcher/watcher.go:138-143), in `Watch` with a context that ends at the given
time (lines 144-152), in the inner loop with this value of `first` (lines 157-189), in one of the two pauses, or returned. -/
inductive WPc where
  | head
  | dialing (ends : Nat)
  | reading (first : Bool) (ends : Nat)
  | asleep (wakes : Nat)
  | done
  deriving DecidableEq

/-- The goroutine, the clock, whether the `stop` channel is closed, the times at which `Watch` was called (the last one first) and the calls of
the store with their times. -/
structure WTimed where
  now : Nat := 0
  pc : WPc := .head
  stopped : Bool := false
  tries : List Nat := []
  calls : List (Nat × Notice) := []

/-- What happens. -/
inductive TIn where
  /-- time passes -/
  | tick (d : Nat)
  /-- `Stop` closes the channel (watcher/watcher.go:205-208) -/
  | stop
  /-- the goroutine is at the head of the outer loop (watcher/watcher.go:139-152) -/
  | head
  /-- `Watch` returns an error -/
  | fail
  /-- `Watch` returns a stream -/
  | opened
  /-- an event is received -/
  | event (t : EvType) (o : Obj)
  /-- `ResultChan` is closed -/
  | closed
  /-- the inner loop finds the `stop` channel closed (watcher/watcher.go:184-187) -/
  | seen
  /-- a pause is over -/
  | wake

/-- Time may pass only while the goroutine waits. -/
def WTimed.waits (w : WTimed) (d : Nat) : Bool :=
  match w.pc with
  | .head => d = 0
  | .dialing e => w.now + d ≤ e
  | .reading _ e => !w.stopped && decide (w.now + d ≤ e)
  | .asleep u => w.now + d ≤ u
  | .done => true

/-- One step of `watchResources` (watcher/watcher.go:138-193) for type `r` of cluster `c`; `none`: it cannot happen now. -/
def tstep (r : GVR) (c : Str) (w : WTimed) : TIn → Option WTimed
  | .tick d => if w.waits d then some { w with now := w.now + d } else none
  | .stop => some { w with stopped := true }
  | .head =>
    match w.pc with
    | .head =>
      if w.stopped then some { w with pc := .done }
      else some { w with pc := .dialing (w.now + streamLimit), tries := w.now :: w.tries }
    | _ => none
  | .fail =>
    match w.pc with
    | .dialing _ => some { w with pc := .asleep (w.now + retryPause) }
    | _ => none
  | .opened =>
    match w.pc with
    | .dialing e => some { w with pc := .reading true e }
    | _ => none
  | .event t o =>
    match w.pc with
    | .reading first e =>
      some { w with pc := .reading false e, calls := w.calls ++ (cleanFirst r c first ++ evNotice r c t o).map fun n => (w.now, n) }
    | _ => none
  | .closed =>
    match w.pc with
    | .reading first _ =>
      some { w with pc := .asleep (w.now + reopenPause), calls := w.calls ++ (cleanFirst r c first).map fun n => (w.now, n) }
    | _ => none
  | .seen =>
    match w.pc with
    | .reading _ _ => if w.stopped then some { w with pc := .done } else none
    | _ => none
  | .wake =>
    match w.pc with
    | .asleep u => if u ≤ w.now then some { w with pc := .head } else none
    | _ => none

/-- Any number of steps. -/
def trun (r : GVR) (c : Str) : WTimed → List TIn → Option WTimed
  | w, [] => some w
  | w, i :: is => (tstep r c w i).bind fun w' => trun r c w' is

/-- The phase of `Model/Watcher.lean` the goroutine is in. -/
def WPc.phase : WPc → WPhase
  | .head => .connecting
  | .dialing _ => .connecting
  | .reading first _ => .streaming first
  | .asleep _ => .connecting
  | .done => .done

end Ckube
