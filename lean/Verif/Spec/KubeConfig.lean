import Verif.Model.KubeConfig

/-! # What a kube config says -/

namespace Ckube.Spec

/-- A context is written twice, or a cluster, or a user. -/
def Repeats (d : KubeDoc) : Prop :=
  ¬ (d.contexts.map Prod.fst).Nodup ∨ ¬ (d.clusters.map Prod.fst).Nodup ∨ ¬ (d.users.map Prod.fst).Nodup

/-- The kube config gives the context `c` the API server of the entry `cl`. -/
def Gives (d : KubeDoc) (c : Str) (cl : KubeCluster) : Prop := ∃ k, (c, k) ∈ d.contexts ∧ (k.cluster, cl) ∈ d.clusters

/-- The kube config gives the context `c` the user `u`; a context whose user is not written down has none. -/
def GivesUser (d : KubeDoc) (c : Str) (u : KubeUser) : Prop :=
  ∃ k, (c, k) ∈ d.contexts ∧ ((k.user, u) ∈ d.users ∨ (u = {} ∧ ∀ v, (k.user, v) ∉ d.users))

/-- The connection to this server is encrypted. -/
def Encrypted (server : Str) : Prop := ∃ t, asciiLower server = lit "https://" ++ t

/-- Requests with the configuration `r` go to the API server `cl`, as the user `u`: with their credentials and the certificate of the server, if the connection is
encrypted, and without them otherwise. -/
structure Reaches (r : RestConf) (cl : KubeCluster) (u : KubeUser) : Prop where
  host : r.host = cl.server
  impersonate : r.impersonate = u.impersonate
  encrypted : Encrypted cl.server → r.credentials = u.credentials ∧ r.ca = cl.ca
  plain : ¬ Encrypted cl.server → r.credentials = [] ∧ r.ca = []

end Ckube.Spec
