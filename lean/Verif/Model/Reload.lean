import Verif.Model.Proxy

/-! # cmd/cacheproxy/main.go, common/config.go and utils/fs_watcher.go

Not modelled: what a client or a watcher does once it is made, reading and parsing the files (a file is what was read from
it; `ConfigFile` parses the configuration file), metrics other than the two counters of reloads, `-k` with a file that is removed while it is loaded. -/

namespace Ckube

/-- `common.Config` (common/config.go:15-20). -/
structure Config where
  proxies : List ProxyConf := []
  defaultCluster : Str := []
  token : Str := []

/-- The part of a kube config that is read (cmd/cacheproxy/main.go:122-125). -/
structure KubeCfg where
  currentContext : Str := []
  contexts : List Str := []

/-- What a load finds. -/
structure Files where
  /-- the configuration file; `none`: it cannot be read or is not JSON (cmd/cacheproxy/main.go:71-80) -/
  config : Option Config
  /-- `~/.kube/config` exists (cmd/cacheproxy/main.go:85-86) -/
  home : Bool := true
  /-- the kube config file; `none`: it cannot be read or parsed (cmd/cacheproxy/main.go:108-120) -/
  kube : Option KubeCfg := none
  /-- there is a configuration from the service account, and a client can be made of it (cmd/cacheproxy/main.go:89-101) -/
  account : Bool := false
  accountClient : Bool := true
  /-- there is a configuration for a context, and a client can be made of it (cmd/cacheproxy/main.go:125-135) -/
  context : Str → Bool := fun _ => true
  contextClient : Str → Bool := fun _ => true

/-- What a load has found: the configuration, and the clusters with a client and a watch configuration. -/
structure Found where
  conf : Config
  clusters : List Str

/-- `InitConfig` (common/config.go:24-29): the configuration that is then in force. -/
def initConfig (c : Config) : Config :=
  if c.defaultCluster = [] then { c with defaultCluster := lit "default" } else c

/-- The contexts become clusters (cmd/cacheproxy/main.go:124-137); a name that occurs twice is one key of the maps. -/
def loadContexts (f : Files) : List Str → List Str → Option (List Str)
  | acc, [] => some acc
  | acc, c :: cs =>
    if !f.context c then none
    else if !f.contextClient c then none
    else loadContexts f (if c ∈ acc then acc else acc ++ [c]) cs

/-- The service account branch (cmd/cacheproxy/main.go:86-102). -/
def loadAccount (f : Files) (cfg : Config) : Option Found :=
  if !f.account then none
  else
    let cfg := if cfg.defaultCluster = [] then { cfg with defaultCluster := lit "default" } else cfg
    if !f.accountClient then none else some ⟨cfg, [cfg.defaultCluster]⟩

/-- The kube config branch (cmd/cacheproxy/main.go:107-138). -/
def loadKube (f : Files) (cfg : Config) : Option Found :=
  match f.kube with
  | none => none
  | some k => (loadContexts f [] k.contexts).map fun cs => ⟨{ cfg with defaultCluster := k.currentContext }, cs⟩

/-- `loadFromConfig` before `InitConfig` (cmd/cacheproxy/main.go:68-138); `kubeArg`: a kube config was given with `-k`. -/
def findConf (kubeArg : Bool) (f : Files) : Option Found :=
  match f.config with
  | none => none
  | some cfg => if !kubeArg && !f.home then loadAccount f cfg else loadKube f cfg

/-! ## The process -/

/-- A watcher (watcher/watcher.go:23-44): the store it fills, what it watches, whether it has been started, and how often it was
stopped. -/
structure WatcherS where
  fills : Nat
  types : List GVR
  clusters : List Str
  stops : Nat := 0
deriving DecidableEq

/-- The state of the process. Stores are numbered in the order they are made, watchers are the positions in `watchers`. -/
structure World where
  /-- `common.cfg` -/
  conf : Config
  /-- the server's store and clients (server/server.go:36-37) -/
  served : Nat
  clients : List Str
  /-- the variable `w` of `main` -/
  current : Nat
  watchers : List WatcherS
  /-- the types each store was made for -/
  stores : List (List GVR)
  succeeded : Nat := 0
  failed : Nat := 0

/-- The types of a configuration (cmd/cacheproxy/main.go:145-157). -/
def Config.types (c : Config) : List GVR := c.proxies.map fun p => ⟨p.group, p.version, p.resource⟩

/-- The index configuration the store is made for (cmd/cacheproxy/main.go:144-150): an assignment to the map for each proxy. -/
def Config.indexConf (c : Config) : List (GVR × List (Str × Str)) :=
  c.proxies.foldl (fun m p => insertKV ⟨p.group, p.version, p.resource⟩ p.index m) []

/-- `Stop` (watcher/watcher.go:41-44): closing the channel twice panics. -/
def stopAt : Nat → List WatcherS → Option (List WatcherS)
  | _, [] => none
  | 0, x :: xs => if x.stops = 0 then some ({ x with stops := 1 } :: xs) else none
  | i + 1, x :: xs => (stopAt i xs).map (x :: ·)

/-- Where the goroutine that reloads is (cmd/cacheproxy/main.go:198-221). -/
inductive Pc where
  /-- waiting for an event -/
  | idle
  /-- `InitConfig` is done (cmd/cacheproxy/main.go:139) -/
  | configured (clusters : List Str)
  /-- the store is made and the watcher started (cmd/cacheproxy/main.go:158-161, 208) -/
  | started (clusters : List Str) (watcher store : Nat)
  /-- the old watcher is stopped (cmd/cacheproxy/main.go:215-216) -/
  | stopped (clusters : List Str) (store : Nat)
  /-- `m.store` is set (server/server.go:120) -/
  | stored (clusters : List Str)

/-- The process with its reloading goroutine; `none` for a panic is the result of the step. -/
structure Proc where
  w : World
  pc : Pc

/-- One step of the goroutine; `f` is what a load that begins now finds. -/
def Proc.step (kubeArg : Bool) (f : Files) (p : Proc) : Option Proc :=
  match p.pc with
  | .idle => match findConf kubeArg f with
    | none => some { p with w := { p.w with failed := p.w.failed + 1 } }
    | some x => some ⟨{ p.w with conf := initConfig x.conf }, .configured x.clusters⟩
  | .configured cs =>
    some ⟨{ p.w with
        stores := p.w.stores ++ [p.w.conf.types]
        watchers := p.w.watchers ++ [⟨p.w.stores.length, p.w.conf.types, cs, 0⟩] },
      .started cs p.w.watchers.length p.w.stores.length⟩
  | .started cs rw rs => (stopAt p.w.current p.w.watchers).map fun ws =>
      ⟨{ p.w with
          watchers := ws
          current := rw }, .stopped cs rs⟩
  | .stopped cs rs => some ⟨{ p.w with served := rs }, .stored cs⟩
  | .stored cs => some ⟨{ p.w with
      clients := cs
      succeeded := p.w.succeeded + 1 }, .idle⟩

/-- The goroutine handles one event without interruption (cmd/cacheproxy/main.go:198-221). -/
def World.reload (kubeArg : Bool) (w : World) (f : Files) : Option World := do
  let p ← Proc.step kubeArg f ⟨w, .idle⟩
  match p.pc with
  | .idle => some p.w
  | _ =>
    let p ← p.step kubeArg f
    let p ← p.step kubeArg f
    let p ← p.step kubeArg f
    let p ← p.step kubeArg f
    some p.w

/-- A sequence of events. -/
def World.reloads (kubeArg : Bool) : World → List Files → Option World
  | w, [] => some w
  | w, f :: fs => (w.reload kubeArg f).bind fun w => w.reloads kubeArg fs

/-- The start of the process (cmd/cacheproxy/main.go:178-183); `none`: it exits. -/
def bootWorld (kubeArg : Bool) (f : Files) : Option World :=
  (findConf kubeArg f).map fun x =>
    { conf := initConfig x.conf
      served := 0
      clients := x.clusters
      current := 0
      watchers := [⟨0, (initConfig x.conf).types, x.clusters, 0⟩]
      stores := [(initConfig x.conf).types] }

/-! ## The file watcher -/

/-- fsnotify's operations, a set of flags. -/
inductive FsOp where
  | create | write | remove | rename | chmod
deriving DecidableEq, Repr

/-- An event of fsnotify, and whether the file can be watched again two seconds later. -/
structure FsEvent where
  file : Str
  ops : List FsOp
  back : Bool := true

/-- `utils.Event` (utils/fs_watcher.go:19-29). -/
inductive FsNotice where
  | changed (file : Str)
  | error (file : Str)
deriving DecidableEq, Repr

/-- The loop of `Start` on one event (utils/fs_watcher.go:70-102): the files watched then, and the notice. -/
def fsStep (watched : List Str) (e : FsEvent) : List Str × Option FsNotice :=
  if e.ops = [.write] then (watched, some (.changed e.file))
  else if e.ops = [.remove] then
    if e.back then (watched.filter (· ≠ e.file) ++ [e.file], some (.changed e.file))
    else (watched.filter (· ≠ e.file), some (.error e.file))
  else (watched, none)

/-- What happens to a file, as inotify and fsnotify 1.4.9 report it for a file that is watched: a watch belongs to the file, not to its
name. -/
inductive FileOp where
  /-- its content is written -/
  | write
  /-- it is removed or another file is moved over it; `back`: a file of that name is there two seconds later -/
  | replace (back : Bool)
  /-- it is moved away and another file is made with its name -/
  | moveAway
  /-- its mode or owner changes -/
  | chmod
deriving DecidableEq, Repr

/-- The event for something that happens to the file `f`. -/
def FileOp.event (f : Str) : FileOp → FsEvent
  | .write => ⟨f, [.write], true⟩
  | .replace back => ⟨f, [.remove], back⟩
  | .moveAway => ⟨f, [.rename], true⟩
  | .chmod => ⟨f, [.chmod], true⟩

/-- One thing happens to a file: a file that is moved away takes its watch with it. -/
def fsHappens (watched : List Str) (x : Str × FileOp) : List Str × Option FsNotice :=
  if x.1 ∉ watched then (watched, none)
  else
    let r := fsStep watched (x.2.event x.1)
    (if x.2 = .moveAway then r.1.filter (· ≠ x.1) else r.1, r.2)

/-- The notices of a sequence of happenings. -/
def fsRun : List Str → List (Str × FileOp) → List (Option FsNotice)
  | _, [] => []
  | watched, x :: xs => (fsHappens watched x).2 :: fsRun (fsHappens watched x).1 xs

/-- `NewFixedFileWatcher` and `Start` (utils/fs_watcher.go:37-66) on the two files of `main` (cmd/cacheproxy/main.go:190-197): without the kube
config file there is no watcher and the process goes on. -/
def fsStart (there : Str → Bool) (files : List Str) : Option (List Str) :=
  if files.all there then some files else none

/-- The files `main` watches (cmd/cacheproxy/main.go:184-189). -/
def watchedFiles (configFile kubeConfig home : Str) : List Str :=
  [configFile, if kubeConfig = [] then home else kubeConfig]

end Ckube
