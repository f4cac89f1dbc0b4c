import Verif.Model.Reload

/-! # The API servers of a kube config (cmd/cacheproxy/main.go:26-65, 82-138)

`GetK8sConfigConfigWithFile` asks client-go for the configuration of a context. client-go 0.21 (`tools/clientcmd`: `loader.go`, `merged_client_builder.go`,
`client_config.go`, `api/v1/conversion.go`) is not in /repo and is modelled from memory of its source. A kube config is what is read from its file: ckube and client-go
read it with different libraries, which agree on files whose member names are written as documented. Simplifications: the address of a server has no query; a service
account token that exists but cannot be read; credentials and certificates are one text each, and `sound` says that client-go finds nothing wrong with them. -/

namespace Ckube

/-- An entry of `clusters`. -/
structure KubeCluster where
  server : Str := []
  ca : Str := []
  sound : Bool := true
deriving DecidableEq

/-- An entry of `users`. -/
structure KubeUser where
  credentials : Str := []
  impersonate : Str := []
  sound : Bool := true
deriving DecidableEq

/-- An entry of `contexts`. -/
structure KubeContext where
  cluster : Str := []
  user : Str := []
deriving DecidableEq

/-- A kube config (client-go `api/v1/types.go`). -/
structure KubeDoc where
  currentContext : Str := []
  contexts : List (Str × KubeContext) := []
  clusters : List (Str × KubeCluster) := []
  users : List (Str × KubeUser) := []

/-- `rest.Config`: where requests go, and with which credentials. -/
structure RestConf where
  host : Str
  credentials : Str := []
  ca : Str := []
  impersonate : Str := []
deriving DecidableEq

/-- The environment of the process. -/
structure KubeEnv where
  /-- `KUBERNETES_MASTER`, or `http://localhost:8080` (`getDefaultServer`); never empty -/
  defaultServer : Str := lit "http://localhost:8080"
  /-- `rest.InClusterConfig`, in a pod -/
  inCluster : Option RestConf := none
  /-- the kube config that is found without a path: the files of `KUBECONFIG`, or `~/.kube/config` -/
  elsewhere : KubeDoc := {}

/-- `IsConfigTransportTLS`. -/
def isTLS (server : Str) : Bool := asciiLower (server.take 8) = lit "https://"

/-- `DirectClientConfig.ClientConfig` with the context `ctx` and the default cluster of the environment; `none`: an error. Names that occur twice are an error when the file
is loaded; a context must exist, its cluster and its user need not. -/
def directConf (e : KubeEnv) (d : KubeDoc) (ctx : Str) : Option RestConf :=
  if ¬ ((d.contexts.map Prod.fst).Nodup ∧ (d.clusters.map Prod.fst).Nodup ∧ (d.users.map Prod.fst).Nodup) then none
  else
    let name := if ctx = [] then d.currentContext else ctx
    if name ≠ [] ∧ lookup name d.contexts = none then none
    else
      let c := (lookup name d.contexts).getD {}
      let user := (lookup c.user d.users).getD {}
      let cl := (lookup c.cluster d.clusters).getD {}
      let server := if cl.server = [] then e.defaultServer else cl.server
      if !user.sound || !cl.sound then none
      else if isTLS server then some ⟨server, user.credentials, cl.ca, user.impersonate⟩
      else some ⟨server, [], [], user.impersonate⟩

/-- `DeferredLoadingClientConfig.ClientConfig`: a configuration that equals the default one is replaced by that of the pod, if the process is in one. -/
def clientConf (e : KubeEnv) (d : KubeDoc) (ctx : Str) : Option RestConf :=
  (directConf e d ctx).map fun r => if r = ⟨e.defaultServer, [], [], []⟩ then e.inCluster.getD r else r

/-- `GetK8sConfigConfigWithFile("", "")` (cmd/cacheproxy/main.go:26-57). -/
def accountConf (e : KubeEnv) : Option RestConf :=
  match e.inCluster with
  | some r => some r
  | none => clientConf e e.elsewhere []

/-- `GetK8sConfigConfigWithFile(file, ctx)` with a file (cmd/cacheproxy/main.go:26-57), which holds `bs`: if it is not there or empty, another one is used. -/
def fileConf (e : KubeEnv) (readKube : Str → Option KubeDoc) (bs : Option Str) (ctx : Str) : Option RestConf :=
  match bs with
  | none => clientConf e e.elsewhere ctx
  | some [] => clientConf e e.elsewhere ctx
  | some bs => (readKube bs).bind fun d => clientConf e d ctx

/-- What comes of the loop over the contexts: the configurations of the watcher and of the client of each cluster. -/
inductive LoadedEach where
  | failed
  | panicked
  | found (confs : List (Str × RestConf × RestConf))
deriving DecidableEq

/-- The loop over the contexts (cmd/cacheproxy/main.go:124-137). For each the configuration is made twice, once for the watcher and once for the client: `see n` is what the `n`th call
finds. A client for the configuration `nil` is a nil dereference in `NewForConfig`, which panics. `mk`: a client can be made (`NewForConfig`). -/
def loadEach (see : Nat → Str → Option RestConf) (mk : RestConf → Bool) : Nat → List (Str × RestConf × RestConf) → List Str → LoadedEach
  | _, acc, [] => .found acc
  | n, acc, c :: cs =>
    match see n c with
    | none => .failed
    | some w => match see (n + 1) c with
      | none => .panicked
      | some r => if !mk r then .failed else loadEach see mk (n + 2) (insertKV c (w, r) acc) cs

/-- The part of `loadFromConfig` that reads the kube config (cmd/cacheproxy/main.go:107-138). `file n` is what the file holds when it is read for the `n`th time; `none`: it is not there. -/
def loadKubeFile (e : KubeEnv) (readKube : Str → Option KubeDoc) (mk : RestConf → Bool) (file : Nat → Option Str) : LoadedEach :=
  match (file 0).bind readKube with
  | none => .failed
  | some d => loadEach (fun n => fileConf e readKube (file (n + 1))) mk 0 [] (d.contexts.map Prod.fst)

/-- What a load finds when its files hold the configuration `cfg` and the kube config `d` all the time; the processes of `Reload` run on it. -/
def filesOf (e : KubeEnv) (mk : RestConf → Bool) (cfg : Option Config) (home : Bool) (d : Option KubeDoc) : Files :=
  { config := cfg
    home := home
    kube := d.map fun d => ⟨d.currentContext, d.contexts.map Prod.fst⟩
    account := (accountConf e).isSome
    accountClient := (accountConf e).any mk
    context := fun c => (d.bind fun d => clientConf e d c).isSome
    contextClient := fun c => (d.bind fun d => clientConf e d c).any mk }

end Ckube
