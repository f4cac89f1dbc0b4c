import Verif.Model.Stream

/-! # Proxied watches over time (api/proxy.go:419-461)

Every proxied watch is a handler that copies one stream of the API server (`copyLoop`). The steps below interleave any number of them with
their clients and with the clock. A handler that waits in `reader.Read` does nothing else: that its client has gone is seen only after the next
byte (api/proxy.go:456-460).

The context of the stream is `context.WithTimeout(context.Background(), 30*time.Minute)` (api/proxy.go:430-432): when its time is over, the
pending read gives an error. The model lets time pass only as long as no handler has outlived its context. A stream can fail earlier (`fail`) for
any reason, among them the shared client timeout (Model/Upstream.lean). Returning runs `defer cancel()` (api/proxy.go:432), which ends the request
to the API server: an open handler and an open stream are the same thing.

Not modelled: the write deadline of the server (server/server.go:101), which cuts the answers to a client some moments before the context ends;
requests whose stream could not be opened. -/

namespace Ckube

/-- One proxied watch: when its context was made (milliseconds), whether its client has gone, the reads so far. -/
structure WSess where
  since : Nat
  gone : Bool := false
  reads : List Rd := []
deriving DecidableEq, Repr

/-- `timeout := 30 * time.Minute` (api/proxy.go:430), in milliseconds -/
def watchTimeout : Nat := 30 * 60 * 1000

/-- The handler has not returned (api/proxy.go:444-461). -/
def WSess.running (s : WSess) : Bool :=
  match (copyLoop [] s.reads).2 with
  | .returned => false
  | .waits _ => true

/-- What the client was sent (api/proxy.go:447-455). -/
def WSess.sent (s : WSess) : List Str := (copyLoop [] s.reads).1

/-- The next read of a handler gives `d`, or an error (api/proxy.go:445-446, 456-460). -/
def WSess.read (s : WSess) (d : Option UInt8) (err : Bool) : WSess :=
  { s with reads := s.reads ++ [⟨d, err, s.gone⟩] }

/-- All proxied watches, in the order in which they were opened, and the clock. -/
structure WLife where
  now : Nat := 0
  sess : List WSess := []
deriving DecidableEq, Repr

/-- One thing that happens. -/
inductive WLStep where
  /-- a request opens a stream (api/proxy.go:430-433) -/
  | opens
  /-- the API server sends a byte on the stream of the `i`-th watch -/
  | byte (i : Nat) (b : UInt8)
  /-- the stream of the `i`-th watch ends or fails -/
  | fail (i : Nat)
  /-- the context of the `i`-th watch is over, its read fails (api/proxy.go:431) -/
  | expire (i : Nat)
  /-- the client of the `i`-th watch goes away: its request context is done -/
  | leave (i : Nat)
  /-- time passes -/
  | tick (d : Nat)
deriving DecidableEq, Repr

/-- One step; `none`: it cannot happen now. -/
def WLife.step (w : WLife) : WLStep → Option WLife
  | .opens => some { w with sess := w.sess ++ [⟨w.now, false, []⟩] }
  | .byte i b =>
    match w.sess[i]? with
    | some s => if s.running then some { w with sess := w.sess.set i (s.read (some b) false) } else none
    | none => none
  | .fail i =>
    match w.sess[i]? with
    | some s => if s.running then some { w with sess := w.sess.set i (s.read none true) } else none
    | none => none
  | .expire i =>
    match w.sess[i]? with
    | some s => if s.running && decide (s.since + watchTimeout ≤ w.now)
        then some { w with sess := w.sess.set i (s.read none true) } else none
    | none => none
  | .leave i =>
    match w.sess[i]? with
    | some s => some { w with sess := w.sess.set i { s with gone := true } }
    | none => none
  | .tick d =>
    if w.sess.all (fun s => !s.running || decide (w.now + d ≤ s.since + watchTimeout)) then some { w with now := w.now + d } else none

/-- A run of the steps. -/
def WLife.run (w : WLife) : List WLStep → Option WLife
  | [] => some w
  | x :: xs => (w.step x).bind fun w' => w'.run xs

end Ckube
