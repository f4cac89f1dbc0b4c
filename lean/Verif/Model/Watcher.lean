import Verif.Model.Store

/-! # The watcher of one resource type of one cluster (watcher/watcher.go)

The watcher is a state machine driven by what client-go reports (`WIn`); what it does to the store
is the list of calls it makes. Timeouts and sleeps only delay and are left to `Model/WatchClock.lean`: a stream that ends
because of the timeout of one hour is `closed`. Everything client-go does below `Watch` and `ResultChan`
is not modelled; the decoding of objects is in `Model/Scheme.lean` and, for `ObjType`, in `Model/ObjType.lean`. -/

namespace Ckube

/-- `watch.EventType` of apimachinery. -/
inductive EvType where
  | added | modified | deleted | error | bookmark
  deriving DecidableEq

/-- What happens to the goroutine. -/
inductive WIn where
  /-- `Watch` returns an error (watcher/watcher.go:152-155) -/
  | fail
  /-- `Watch` succeeds -/
  | opened
  /-- `rr, true` is received from `ResultChan` -/
  | event (t : EvType) (o : Obj)
  /-- `ResultChan` is closed (the stream ended or broke) -/
  | closed
  /-- the `stop` channel is found closed -/
  | stop
  deriving DecidableEq

/-- Where the goroutine is: at the head of the outer loop, in the inner loop with this value of `first`, or
returned (watcher/watcher.go:138-193). -/
inductive WPhase where
  | connecting
  | streaming (first : Bool)
  | done
  deriving DecidableEq

/-- The store call for one event (watcher/watcher.go:167-177). -/
def evNotice (r : GVR) (c : Str) : EvType → Obj → List Notice
  | .added, o => [.added r c o]
  | .modified, o => [.modified r c o]
  | .deleted, o => [.deleted r c o]
  | .error, _ => []
  | .bookmark, _ => []

/-- `if first { Clean; first = false }` (watcher/watcher.go:161-166). -/
def cleanFirst (r : GVR) (c : Str) (first : Bool) : List Notice := if first then [.clean r c] else []

/-- One round of the loops of `watchResources` (watcher/watcher.go:138-193): the new phase and the store calls;
`none` when the input cannot occur in this phase. -/
def wstep (r : GVR) (c : Str) : WPhase → WIn → Option (WPhase × List Notice)
  | .connecting, .fail => some (.connecting, [])
  | .connecting, .opened => some (.streaming true, [])
  | .connecting, .stop => some (.done, [])
  | .streaming first, .event t o => some (.streaming false, cleanFirst r c first ++ evNotice r c t o)
  | .streaming first, .closed => some (.connecting, cleanFirst r c first)
  | .streaming _, .stop => some (.done, [])
  | _, _ => none

/-- The store calls of a sequence of inputs. -/
def wrun (r : GVR) (c : Str) : WPhase → List WIn → Option (WPhase × List Notice)
  | p, [] => some (p, [])
  | p, i :: is =>
    match wstep r c p i with
    | none => none
    | some (p', out) => (wrun r c p' is).map fun x => (x.1, out ++ x.2)

/-- The calls about a resource type of a cluster. -/
def aboutB (r : GVR) (c : Str) : Notice → Bool
  | .added g d _ | .modified g d _ | .deleted g d _ | .clean g d => g = r && d = c

/-! ## The kind that is registered for decoding -/

/-- Go `strings.TrimRight(s, cutset)` for an ASCII cutset. -/
def trimRight (s cutset : Str) : Str := (s.reverse.dropWhile fun b => cutset.contains b).reverse

/-- `common.Proxy` (common/config.go:3-9). -/
structure ProxyConf where
  group : Str := []
  version : Str := []
  resource : Str := []
  listKind : Str := []
  index : List (Str × Str) := []

/-- `common.GetGVRKind` (common/config.go:35-42) for the proxies of the current configuration. -/
def gvrKind (ps : List ProxyConf) (g v r : Str) : Str :=
  match ps.find? fun p => p.group = g && p.version = v && p.resource = r with
  | some p => p.listKind
  | none => []

/-- The kind under which `ObjType` is registered (watcher/watcher.go:115-119). -/
def watchedKind (ps : List ProxyConf) (r : GVR) : Str :=
  trimRight (gvrKind ps r.group r.version r.resource) (lit "List")

end Ckube
