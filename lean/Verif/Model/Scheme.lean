import Verif.Model.Watcher

/-! # The scheme in which kinds are registered, and the decoding of watch streams (watcher/watcher.go:114-136)

`scheme.Scheme` of client-go is one variable of the process; all watchers of all configurations register kinds in it, and nothing is ever removed. client-go looks
every object of a watch stream up in it. `AddKnownTypeWithName`, `KnownTypes`, the decoder of watch streams and `StreamWatcher` are modelled from memory of the source of
apimachinery 0.21. Which kinds client-go registers itself is a parameter (`base`). -/

namespace Ckube

/-- `schema.GroupVersionKind`. -/
structure GVK where
  group : Str := []
  version : Str := []
  kind : Str := []
  deriving DecidableEq

/-- The Go type of a registered kind: one of client-go's, or `ObjType`. -/
inductive GoType where
  | builtIn | objType
  deriving DecidableEq

/-- `gvkToType` of `runtime.Scheme`. -/
abbrev Scheme := List (GVK × GoType)

/-- `AddKnownTypeWithName(gvk, &ObjType{})`: `none` when it panics, because the version is empty or the kind has another type. -/
def addKnown (s : Scheme) (k : GVK) : Option Scheme :=
  if k.version = [] then none
  else if lookup k s = some .builtIn then none
  else some (insertKV k .objType s)

/-- The kind that the goroutine of a type registers (watcher/watcher.go:115-119). -/
def kindOf (ps : List ProxyConf) (r : GVR) : GVK := ⟨r.group, r.version, watchedKind ps r⟩

/-- The registration at the start of `watchResources` (watcher/watcher.go:115-128): `none` when it panics, which ends the process, because the goroutine does not recover. -/
def registerKind (s : Scheme) (x : List ProxyConf × GVR) : Option Scheme :=
  if (lookup (kindOf x.1 x.2) s).isSome then some s else addKnown s (kindOf x.1 x.2)

/-- Goroutines register one after the other. -/
def registerAll : Scheme → List (List ProxyConf × GVR) → Option Scheme
  | s, [] => some s
  | s, x :: xs => (registerKind s x).bind fun s => registerAll s xs

/-- `schema.ParseGroupVersion`. -/
def parseGV (s : Str) : Option (Str × Str) :=
  match splitByte 47 s with
  | [v] => some ([], v)
  | [g, v] => some (g, v)
  | _ => none

/-- The kinds that the scheme knows in every group and version (`AddUnversionedTypes` of meta/v1). -/
def unversioned : List Str := [lit "Status", lit "APIVersions", lit "APIGroup", lit "APIGroupList", lit "APIResourceList"]

/-- The Go type for an object with this `apiVersion` and `kind` (`Interpret` and `New`): `none` is an error. -/
def decodeType (s : Scheme) (apiVersion kind : Str) : Option GoType :=
  match parseGV apiVersion with
  | none => none
  | some (g, v) =>
    if kind = [] ∨ v = [] then none
    else match lookup ⟨g, v, kind⟩ s with
      | some t => some t
      | none => if unversioned.contains kind then some .builtIn else none

/-- One event of a watch stream on the wire: its type, `apiVersion` and `kind` of its object, and what the text of the object gives in each Go type (`none`: an error). -/
structure WatchFrame where
  type : Str := []
  apiVersion : Str := []
  kind : Str := []
  obj : GoType → Option Obj

/-- The types of events the decoder accepts. -/
def evTypeOf (s : Str) : Option EvType :=
  if s = lit "ADDED" then some .added
  else if s = lit "MODIFIED" then some .modified
  else if s = lit "DELETED" then some .deleted
  else if s = lit "ERROR" then some .error
  else if s = lit "BOOKMARK" then some .bookmark
  else none

/-- What the decoder makes of an event: the event for the watcher, and `apiVersion` and `kind` of the object. `WithoutVersionDecoder` clears these two through `GetObjectKind`, which for
`ObjType` changes a copy (watcher/watcher.go:96-98). -/
structure Decoded where
  type : EvType
  obj : Obj
  apiVersion : Str
  kind : Str

/-- `Decode` of the decoder of watch streams. -/
def decodeFrame (s : Scheme) (f : WatchFrame) : Option Decoded :=
  match evTypeOf f.type, decodeType s f.apiVersion f.kind with
  | some t, some g => (f.obj g).map fun o => match g with
    | .builtIn => ⟨t, o, [], []⟩
    | .objType => ⟨t, o, f.apiVersion, f.kind⟩
  | _, _ => none

/-- `StreamWatcher.receive` on the events of a stream, each with the scheme of its moment: after an event that cannot be decoded an event of type error follows, and the
channel is closed. -/
def receive : List (Scheme × WatchFrame) → List WIn
  | [] => []
  | (s, f) :: fs =>
    match decodeFrame s f with
    | some d => .event d.type d.obj :: receive fs
    | none => [.event .error {}]

/-- One round of the outer loop of `watchResources` (watcher/watcher.go:137-192). -/
inductive Round where
  /-- `Watch` fails -/
  | fail
  /-- a stream with these events, which ends by itself or at an event that cannot be decoded -/
  | stream (fs : List (Scheme × WatchFrame))

/-- What the goroutine sees of a round. -/
def Round.ins : Round → List WIn
  | .fail => [.fail]
  | .stream fs => .opened :: receive fs ++ [.closed]

/-! ## Goroutines that use the scheme at the same time -/

/-- Where a goroutine is: before `w.lock.Lock()`, in `KnownTypes`, in `AddKnownTypeWithName`, elsewhere, or in the decoder (which client-go runs in a goroutine of its own for
each stream). -/
inductive SPhase where
  | fresh | checking | writing | idle | decoding
  deriving DecidableEq

/-- The scheme and the goroutines, each with its watcher and the kind it registers. -/
structure SState where
  known : List GVK
  gs : List (Nat × GVK × SPhase) := []

/-- The lock of a watcher is held (watcher/watcher.go:124-128). -/
def SState.locked (σ : SState) (w : Nat) : Prop := ∃ g ∈ σ.gs, g.1 = w ∧ (g.2.2 = .checking ∨ g.2.2 = .writing)

/-- One step of the process; `ok` are the kinds that watchers may be started for. -/
inductive SStep (ok : GVK → Prop) : SState → SState → Prop
  /-- a watcher is started, at first or by a reload, with a goroutine for each type and cluster -/
  | start {σ : SState} (w : Nat) (ks : List GVK) : (∀ g ∈ σ.gs, g.1 ≠ w) → (∀ k ∈ ks, ok k) → SStep ok σ ⟨σ.known, σ.gs ++ ks.map fun k => (w, k, .fresh)⟩
  /-- `w.lock.Lock()` -/
  | lock {σ : SState} {i w : Nat} {k : GVK} : σ.gs[i]? = some (w, k, .fresh) → ¬ σ.locked w → SStep ok σ ⟨σ.known, σ.gs.set i (w, k, .checking)⟩
  /-- `KnownTypes` finds the kind -/
  | found {σ : SState} {i w : Nat} {k : GVK} : σ.gs[i]? = some (w, k, .checking) → k ∈ σ.known → SStep ok σ ⟨σ.known, σ.gs.set i (w, k, .idle)⟩
  /-- `KnownTypes` does not find the kind -/
  | missing {σ : SState} {i w : Nat} {k : GVK} : σ.gs[i]? = some (w, k, .checking) → k ∉ σ.known → SStep ok σ ⟨σ.known, σ.gs.set i (w, k, .writing)⟩
  /-- `AddKnownTypeWithName` returns, and the lock is released -/
  | wrote {σ : SState} {i w : Nat} {k : GVK} : σ.gs[i]? = some (w, k, .writing) → SStep ok σ ⟨k :: σ.known, σ.gs.set i (w, k, .idle)⟩
  /-- the decoder of the stream looks an object up -/
  | decode {σ : SState} {i w : Nat} {k : GVK} : σ.gs[i]? = some (w, k, .idle) → SStep ok σ ⟨σ.known, σ.gs.set i (w, k, .decoding)⟩
  /-- it is done -/
  | decoded {σ : SState} {i w : Nat} {k : GVK} : σ.gs[i]? = some (w, k, .decoding) → SStep ok σ ⟨σ.known, σ.gs.set i (w, k, .idle)⟩
  /-- a goroutine returns -/
  | done {σ : SState} {i w : Nat} {k : GVK} : σ.gs[i]? = some (w, k, .idle) → SStep ok σ ⟨σ.known, σ.gs.eraseIdx i⟩

/-- Any number of steps. -/
inductive SRun (ok : GVK → Prop) : SState → SState → Prop
  | refl (σ : SState) : SRun ok σ σ
  | step {σ τ υ : SState} : SRun ok σ τ → SStep ok τ υ → SRun ok σ υ

end Ckube
