import Verif.Model.Proxy
import Verif.Spec.Selector

/-! # Specification: what a request asks for

`parseQuery` is the meaning of the query text of a URL, `decodeDelete` that of a body with delete options,
`parseSelector` that of a label selector with a pagination request in it. -/

namespace Ckube.Spec

/-- The first value of the query parameter `k` is `v`. -/
def First (raw k v : Str) : Prop := ∃ vs, lookup k (parseQuery raw) = some (v :: vs)

/-- The text with which the client library names the cluster `c`. -/
def marker (c : Str) : Str := lit "dsm-cluster-" ++ c

/-- The query parameters in which the client library puts it. -/
def markerKeys : List Str := [lit "fieldManager", lit "resourceVersion"]

/-- A DELETE whose options name the cluster `c`; `ds` are the other values of `dryRun`. -/
def DryRunNames (r : HReq) (c : Str) (ds : List Str) : Prop :=
  r.method = lit "DELETE" ∧ (decodeDelete r.body).dryRun = marker c :: ds

/-- The request names the cluster `c`: in its delete options, otherwise in its query. -/
inductive Names (r : HReq) (c : Str) : Prop
  | options (ds : List Str) : DryRunNames r c ds → Names r c
  | param : (∀ c' ds, ¬ DryRunNames r c' ds) → First r.rawQuery (lit "cluster") c → Names r c
  | marked (k : Str) : (∀ c' ds, ¬ DryRunNames r c' ds) → k ∈ markerKeys → First r.rawQuery k (marker c) → Names r c

/-- The pagination request and label selector of the request can be read. -/
def Readable (r : HReq) : Prop := ∀ v, First r.rawQuery (lit "labelSelector") v → (parseSelector v).isSome = true

/-- `p` is the pagination request the request carries. -/
def Carries (r : HReq) (p : Paginate) : Prop :=
  (∃ v i, First r.rawQuery (lit "labelSelector") v ∧ parseSelector v = some i ∧ i.paginate = p)
    ∨ ((∀ v, ¬ First r.rawQuery (lit "labelSelector") v) ∧ p = {})

/-- The cluster of a request that names none: the first cluster of its search, otherwise the default
cluster. -/
def FallsBack (env : Env) (r : HReq) (c : Str) : Prop :=
  (∃ p cs, Carries r p ∧ getClusters p.search = c :: cs ∧ c ≠ [])
    ∨ ((∀ p, Carries r p → (getClusters p.search).headD [] = []) ∧ c = env.defaultCluster)

/-- The cluster that should serve the request is `c`. When a request names several clusters, each of them
will do. -/
def Selects (env : Env) (r : HReq) (c : Str) : Prop :=
  (Names r c ∧ c ≠ []) ∨ ((Names r [] ∨ ∀ c', ¬ Names r c') ∧ FallsBack env r c)

/-- The request does not name two different clusters. -/
def OneName (r : HReq) : Prop := ∀ c c', Names r c → Names r c' → c = c'

/-- A request that can be answered from the cache. -/
structure Cacheable (st : StoreI) (r : HReq) : Prop where
  get : r.method = lit "GET"
  configured : st.isStoreGVR r.gvr = true
  readable : Readable r
  params : ∀ k v, First r.rawQuery k v →
    k ∈ [lit "labelSelector", lit "timeoutSeconds", lit "timeout", lit "limit"] ∨ (k ∈ markerKeys ∧ ∃ c, v = marker c)

/-- The answer comes from the API server of cluster `c`, or says that this cluster is unknown. -/
inductive Upstream (env : Env) (c : Str) : Answer → Prop
  | sent (w m p q b) : c ∈ env.clients → Upstream env c (.forward w c m p q b)
  | unknown : c ∉ env.clients → Upstream env c (.noCluster c)

/-- The request was handed to no API server and not refused for an unknown cluster. -/
def Local (a : Answer) : Prop :=
  (∀ w c m p q b, a ≠ .forward w c m p q b) ∧ ∀ c, a ≠ .noCluster c

/-- The cache is the store `s`. -/
structure Serves (isPrint : Nat → Bool) (alg : SliceSort) (pf : Str → Option GoFloat) (s : Store) (st : StoreI) : Prop where
  types : ∀ g, st.isStoreGVR g = s.isStoreGVR g
  get : ∀ g c n name, st.get g c n name = s.get g c n name
  query : ∀ g q, s.mayAnswer isPrint alg pf g q (st.query g q)

end Ckube.Spec

namespace Ckube.Spec

/-- `i` is what the label selector of the request says; a request without one asks for everything. -/
def Reads (r : HReq) (i : SelInfo) : Prop :=
  (∃ v, First r.rawQuery (lit "labelSelector") v ∧ parseSelector v = some i)
    ∨ ((∀ v, ¬ First r.rawQuery (lit "labelSelector") v) ∧ i = ⟨{}, none, none⟩)

/-- The labels of an object. -/
def labelsOf (o : Obj) : List (Str × Str) := (o.om.map ObjMeta.labels).getD []

/-- The labels of the object satisfy the selector. -/
def Satisfies (labels : Option LabelSelector) (o : Obj) : Prop := ∀ ls, labels = some ls → SelectorHolds ls (labelsOf o)

end Ckube.Spec
