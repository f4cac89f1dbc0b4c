import Verif.Model.Fake

/-! # The rest of the fake server (pkg/client/fake/fake_ckube.go): routes, discovery documents, channels of the watchers -/

namespace Ckube

/-! ## Routes -/

/-- What handles a request: a handler of the fake server, or one of ckube's own. -/
inductive FakeH where
  | write | watch | version | api | apis | resources
  | real (h : HandlerId)
deriving DecidableEq

/-- A route of the fake server. -/
structure FakeRoute where
  segs : List Seg
  methods : List Str
  handler : FakeH

/-- Methods of the write handler (pkg/client/fake/fake_ckube.go:140). -/
def fakeWrites : List Str := [lit "POST", lit "PUT", lit "DELETE"]

/-- `registerFakeRoute` (pkg/client/fake/fake_ckube.go:130-156), in order. -/
def fakeRoutes : List FakeRoute := [
  ⟨[.txt (lit "apis"), .var (lit "group"), .var (lit "version"), .var (lit "resourceType")], fakeWrites, .write⟩,
  ⟨[.txt (lit "api"), .var (lit "version"), .var (lit "resourceType")], fakeWrites, .write⟩,
  ⟨[.txt (lit "apis"), .var (lit "group"), .var (lit "version"), .var (lit "resourceType"), .var (lit "resourceName")], fakeWrites, .write⟩,
  ⟨[.txt (lit "api"), .var (lit "version"), .var (lit "resourceType"), .var (lit "resourceName")], fakeWrites, .write⟩,
  ⟨[.txt (lit "apis"), .var (lit "group"), .var (lit "version"), .txt (lit "namespaces"), .var (lit "namespace"),
    .var (lit "resourceType")], fakeWrites, .write⟩,
  ⟨[.txt (lit "api"), .var (lit "version"), .txt (lit "namespaces"), .var (lit "namespace"), .var (lit "resourceType")], fakeWrites, .write⟩,
  ⟨[.txt (lit "apis"), .var (lit "group"), .var (lit "version"), .txt (lit "namespaces"), .var (lit "namespace"),
    .var (lit "resourceType"), .var (lit "resourceName")], fakeWrites, .write⟩,
  ⟨[.txt (lit "api"), .var (lit "version"), .txt (lit "namespaces"), .var (lit "namespace"), .var (lit "resourceType"),
    .var (lit "resourceName")], fakeWrites, .write⟩,
  ⟨[.txt (lit "apis"), .var (lit "group"), .var (lit "version"), .txt (lit "watch"), .var (lit "resourceType")], [lit "GET"], .watch⟩,
  ⟨[.txt (lit "api"), .var (lit "version"), .txt (lit "watch"), .var (lit "resourceType")], [lit "GET"], .watch⟩,
  ⟨[.txt (lit "apis"), .var (lit "group"), .var (lit "version"), .txt (lit "watch"), .txt (lit "namespaces"), .var (lit "namespace"),
    .var (lit "resourceType")], [lit "GET"], .watch⟩,
  ⟨[.txt (lit "api"), .var (lit "version"), .txt (lit "watch"), .txt (lit "namespaces"), .var (lit "namespace"),
    .var (lit "resourceType")], [lit "GET"], .watch⟩,
  ⟨[.txt (lit "version")], [lit "GET"], .version⟩,
  ⟨[.txt (lit "api")], [lit "GET"], .api⟩,
  ⟨[.txt (lit "apis")], [lit "GET"], .apis⟩,
  ⟨[.txt (lit "apis"), .var (lit "group"), .var (lit "version")], [lit "GET"], .resources⟩,
  ⟨[.txt (lit "api"), .var (lit "version")], [lit "GET"], .resources⟩]

/-- The first route that takes the request; the routes of the fake server come before ckube's (server/server.go:88-92). -/
def fakeRouteOf (method path : Str) : List FakeRoute → Option (FakeH × Vars)
  | [] => (routeOf method path routeTable).map fun x => (.real x.1.handler, x.2)
  | r :: rs =>
    match (if method ∉ r.methods then none
      else match splitByte 47 path with
        | [] :: ss => matchSegs r.segs ss
        | _ => none) with
    | some vs => some (r.handler, vs)
    | none => fakeRouteOf method path rs

/-- The test of the middleware (pkg/client/fake/fake_ckube.go:121-122). -/
def fakeAsks (rawQuery : Str) : Bool :=
  match lookup (lit "watch") (parseQuery rawQuery) with
  | some [v] => v = lit "true" || v = lit "1"
  | _ => false

/-- Which handler runs, with the variables of the route; the middleware (pkg/client/fake/fake_ckube.go:119-129) comes between. `none`: mux
redirects to the clean path, or there is no route. -/
def fakeServe (method path rawQuery : Str) : Option (FakeH × Vars) :=
  if cleanPath path ≠ path then none
  else (fakeRouteOf method path fakeRoutes).map fun x => if fakeAsks rawQuery then (.watch, x.2) else x

/-- The request as the write handler sees it (pkg/client/fake/fake_ckube.go:372-376). -/
def HReq.withFakeVars (r : HReq) (vs : Vars) : HReq :=
  let v (k : String) := (lookup (lit k) vs).getD []
  { r with
    group := v "group"
    version := v "version"
    resourceType := v "resourceType"
    ns := v "namespace"
    resource := v "resourceName" }

/-! ## Discovery -/

/-- Go `strings.TrimSuffix`. -/
def trimSuffix (s t : Str) : Str := if t.isSuffixOf s then s.take (s.length - t.length) else s

/-- The resource list of `resources` (pkg/client/fake/fake_ckube.go:177-207): group version, and name and kind of each resource. -/
def resourcesDoc (ps : List ProxyConf) (group version : Str) : Str × List (Str × Str) :=
  (if group = [] then version else group ++ [47] ++ version, ps.map fun p => (p.resource, trimSuffix p.listKind (lit "List")))

/-- The groups of `apis` with their versions (pkg/client/fake/fake_ckube.go:216-241): `g` is a copy of the group that was found, the version
is appended to the copy. -/
def apisDoc (ps : List ProxyConf) : List (Str × List Str) :=
  ps.foldl (fun a p => if a.any fun g => g.1 = p.group then a else a ++ [(p.group, [])]) []

/-! ## The channels of the watchers -/

/-- Where the handler of a watch is (pkg/client/fake/fake_ckube.go:318-368). -/
inductive WkPhase where
  /-- before it has made its channel -/
  | begun
  /-- before it looks its channel up -/
  | loop
  /-- in the `select`, with the channel it found -/
  | waiting (ch : Option Nat)
  | ended
  | panicked
deriving DecidableEq

/-- The handler of a watch: the remote address, and the events it has received. -/
structure Wk where
  addr : Str
  phase : WkPhase := .begun
  got : List FEvent := []
deriving DecidableEq

/-- `watchChanMap` with its lock, the channels made and closed so far, and all handlers. Nothing tells a handler that its
client is gone: it ends after ten minutes. -/
structure Hub where
  chans : List (Str × Nat) := []
  next : Nat := 0
  closed : List Nat := []
  /-- a handler has panicked while it held the lock -/
  stuck : Bool := false
  ws : List Wk := []

inductive HubIn where
  /-- a watch from this remote address -/
  | connect (addr : Str)
  /-- `s.watchChanMap[r.RemoteAddr] = make(chan Event)` (pkg/client/fake/fake_ckube.go:318-320) -/
  | register (i : Nat)
  /-- `wc := s.watchChanMap[r.RemoteAddr]` (pkg/client/fake/fake_ckube.go:328-330) -/
  | fetch (i : Nat)
  /-- ten minutes have passed (pkg/client/fake/fake_ckube.go:332-337) -/
  | timeout (i : Nat)
  /-- the channel is closed and yields the zero event, which is passed on to no one (pkg/client/fake/fake_ckube.go:338-342) -/
  | zero (i : Nat)
  /-- a write sends its event to the channels (pkg/client/fake/fake_ckube.go:468-476); when several handlers wait at a channel,
  `pick` receives -/
  | send (e : FEvent) (pick : Nat → Nat)

/-- The handlers that wait at a channel. -/
def waiters (ws : List Wk) (ch : Nat) : List Nat :=
  (List.range ws.length).filter fun i => match ws[i]? with | some w => decide (w.phase = .waiting (some ch)) | none => false

/-- Send to every channel that someone waits at. `none`: `pick` is not one of them. -/
def sendAll (e : FEvent) (pick : Nat → Nat) : List (Str × Nat) → List Wk → Option (List Wk)
  | [], ws => some ws
  | (_, ch) :: m, ws =>
    if waiters ws ch = [] then sendAll e pick m ws
    else if pick ch ∈ waiters ws ch then
      sendAll e pick m (ws.modify (pick ch) fun w => { w with phase := .loop, got := w.got ++ [e] })
    else none

/-- One step; `none` when it cannot happen. No lock can be had once a handler has panicked with it; `close` of a nil or a closed
channel and a send to a closed one panic. -/
def Hub.step (h : Hub) : HubIn → Option Hub
  | .connect a => some { h with ws := h.ws ++ [⟨a, .begun, []⟩] }
  | .register i =>
    match h.ws[i]? with
    | some ⟨a, .begun, got⟩ =>
      if h.stuck then none
      else some { h with
        chans := insertKV a h.next h.chans
        next := h.next + 1
        ws := h.ws.set i ⟨a, .loop, got⟩ }
    | _ => none
  | .fetch i =>
    match h.ws[i]? with
    | some ⟨a, .loop, got⟩ => if h.stuck then none else some { h with ws := h.ws.set i ⟨a, .waiting (lookup a h.chans), got⟩ }
    | _ => none
  | .timeout i =>
    match h.ws[i]? with
    | some ⟨a, .waiting _, got⟩ =>
      if h.stuck then none
      else match lookup a h.chans with
        | none => some { h with
            stuck := true
            ws := h.ws.set i ⟨a, .panicked, got⟩ }
        | some ch =>
          if ch ∈ h.closed then some { h with
            stuck := true
            ws := h.ws.set i ⟨a, .panicked, got⟩ }
          else some { h with
            closed := ch :: h.closed
            chans := eraseKV a h.chans
            ws := h.ws.set i ⟨a, .ended, got⟩ }
    | _ => none
  | .zero i =>
    match h.ws[i]? with
    | some ⟨a, .waiting (some ch), got⟩ => if ch ∈ h.closed then some { h with ws := h.ws.set i ⟨a, .loop, got⟩ } else none
    | _ => none
  | .send e pick =>
    if h.stuck then none
    else if h.chans.any fun x => decide (x.2 ∈ h.closed) then some { h with stuck := true }
    else (sendAll e pick h.chans h.ws).map fun ws => { h with ws := ws }

/-- Any number of steps. -/
def Hub.run : Hub → List HubIn → Option Hub
  | h, [] => some h
  | h, x :: xs => (h.step x).bind fun h => h.run xs

end Ckube
