import Verif.Model.Selector
import Verif.Model.Store
import Verif.Model.Url
import Verif.Model.Watcher
import Verif.Model.DeleteOpts

/-! # api/proxy.go

A request is answered from the cache or forwarded. What is sent to the API server is the argument of
`RequestURI` (path and raw query), the method and the body; what client-go makes of it and the answer of the API
server are not modelled. Not modelled: response headers, log output, error texts, a request body that
cannot be read. The store is used through its interface (store/interface.go:15-23); a panic is `crash`. -/

namespace Ckube

/-- The configuration a request sees: `common.GetConfig()` and `r.ClusterClients`. -/
structure Env where
  defaultCluster : Str
  /-- the clusters with a client -/
  clients : List Str
  proxies : List ProxyConf := []

/-- The part of `store.Store` (store/interface.go:15-23) the proxy calls; `none` is a nil object and a
panicking query. -/
structure StoreI where
  isStoreGVR : GVR → Bool
  get : GVR → Str → Str → Str → Option Obj
  query : GVR → Query → Option QueryResult

/-- An HTTP request after routing; the last five are `mux.Vars`, empty when absent. -/
structure HReq where
  method : Str
  path : Str := []
  rawQuery : Str := []
  body : Str := []
  accept : Str := []
  group : Str := []
  version : Str := []
  resourceType : Str := []
  ns : Str := []
  resource : Str := []

/-- `getGVRFromReq` (api/proxy.go:31-42). -/
def HReq.gvr (r : HReq) : GVR := ⟨r.group, r.version, r.resourceType⟩

/-- Why a request is refused. -/
inductive Refusal where
  /-- 404: the object is not in the cache (api/proxy.go:75-81) -/
  | notFound
  /-- 400: the query failed (api/proxy.go:242-247, 291-296) -/
  | query
  /-- 400: the label selector is not valid (api/proxy.go:251-257) -/
  | selector
  /-- 400: out of page (api/proxy.go:315-320) -/
  | outOfPage
deriving DecidableEq, Repr

/-- A column of a table (api/proxy.go:376-388): name and priority. -/
structure Column where
  name : Str
  priority : Nat
deriving DecidableEq, Repr

/-- What a request leads to. -/
inductive Answer where
  /-- sent to the API server of the cluster (api/proxy.go:433, 512) -/
  | forward (watch : Bool) (cluster method path rawQuery body : Str)
  /-- 404: there is no client for the cluster (api/proxy.go:497-502) -/
  | noCluster (cluster : Str)
  | object (o : Obj)
  | refused (why : Refusal)
  /-- a list answered from the cache (api/proxy.go:328-336) -/
  | list (apiVersion kind selfLink : Str) (remaining : Int) (items : List Obj)
  /-- a table; a cell is nil or a string (api/proxy.go:339-403) -/
  | table (columns : List Column) (rows : List (List (Option Str)))
  | crash
deriving DecidableEq

/-! ## parsePaginateAndLabelsAndClean -/

/-- The state of the loop over the query (api/proxy.go:101-117). -/
structure Scan where
  selector : Str := []
  cluster : Str := []
  query : Values
deriving DecidableEq, Repr

/-- One iteration (api/proxy.go:105-117). Values of `url.Values` are never empty, `v[0]` is `headD []`. -/
def scanStep (st : Scan) (e : Str × List Str) : Scan :=
  let v := e.2.headD []
  if e.1 = lit "labelSelector" then { st with selector := v }
  else if e.1 = lit "cluster" then { st with cluster := v }
  else if e.1 = lit "fieldManager" ∨ e.1 = lit "resourceVersion" then
    if hasPrefix v clusterPrefix then
      { st with cluster := v.drop clusterPrefix.length, query := eraseKV e.1 st.query }
    else st
  else st

/-- The loop over the query, iterated in the order of `ord` (api/proxy.go:104-117). -/
def scanQuery (ord : Values) : Scan := ord.foldl scanStep { query := ord }

/-- The cluster named in the `dryRun` option of a body and the body without it (api/proxy.go:122-129). -/
def dryRunMarker (body : Str) : Option (Str × Str) :=
  match (decodeDelete body).dryRun with
  | d :: ds =>
    if hasPrefix d clusterPrefix then
      some (d.drop clusterPrefix.length, { decodeDelete body with dryRun := ds }.toJson)
    else none
  | [] => none

/-- Cluster and body after the DELETE block (api/proxy.go:118-133). The body has been read: without a marker
nothing is left of it. -/
def deleteBlock (r : HReq) (cluster : Str) : Str × Str :=
  if r.method = lit "DELETE" then
    match dryRunMarker r.body with
    | some cb => cb
    | none => (cluster, [])
  else (cluster, r.body)

/-- What `parsePaginateAndLabelsAndClean` returns and leaves in the request. -/
structure Parsed where
  paginate : Paginate
  labels : Option LabelSelector
  cluster : Str
  rawQuery : Str
  body : Str
deriving DecidableEq, Repr

/-- `query.Set("labelSelector", …)` (api/proxy.go:173). -/
def setSelector (rewritten : Option Str) (q : Values) : Values :=
  match rewritten with
  | some s => insertKV (lit "labelSelector") [s] q
  | none => q

/-- The cluster when the request does not name one (api/proxy.go:177-182). -/
def pickCluster (env : Env) (p : Paginate) (cluster : Str) : Str :=
  let c := if cluster = [] then (getClusters p.search).headD [] else cluster
  if c = [] then env.defaultCluster else c

/-- `parsePaginateAndLabelsAndClean` (api/proxy.go:98-184). The second component of `inr` is the error return:
cluster and body; the raw query is left as it was. -/
def parseClean (env : Env) (ord : Values) (r : HReq) : Parsed ⊕ (Str × Str) :=
  let sc := scanQuery ord
  let cb := deleteBlock r sc.cluster
  match parseSelector sc.selector with
  | none => .inr cb
  | some info =>
    .inl ⟨info.paginate, info.labels, pickCluster env info.paginate cb.1,
      encodeQuery (setSelector info.rewritten sc.query), cb.2⟩

/-! ## Forwarding -/

/-- ASCII `strings.ToLower`; of the three words compared with (api/proxy.go:408-409) none has a letter that is the
lower case of another letter outside ASCII. -/
def asciiLower (s : Str) : Str := s.map fun c => if 65 ≤ c ∧ c ≤ 90 then c + 32 else c

/-- `isWatchRequest` (api/proxy.go:405-417). -/
def isWatch (path rawQuery : Str) : Bool :=
  (match lookup (lit "watch") (parseQuery rawQuery) with
   | some vs => [lit "1", lit "y", lit "true"].contains (asciiLower (vs.headD []))
   | none => false)
  || contains path (lit "/watch/")

/-- The query of a forwarded watch (api/proxy.go:420-427). -/
def watchQuery (rawQuery : Str) : Str :=
  let q := insertKV (lit "timeout") [lit "30m"] (parseQuery rawQuery)
  encodeQuery (if lookup (lit "labelSelector") q = some [lit "<none>"] then eraseKV (lit "labelSelector") q else q)

/-- The methods of `getRequest` (api/proxy.go:468-482); for others it returns nil, which is then dereferenced. -/
def knownMethod (m : Str) : Bool := [lit "GET", lit "POST", lit "DELETE", lit "PUT", lit "PATCH"].contains m

/-- `getRequest` (api/proxy.go:464-490) and the call (api/proxy.go:433, 512): a GET is sent without body. -/
def send (watch : Bool) (cluster : Str) (r : HReq) (rawQuery body : Str) : Answer :=
  if knownMethod r.method then
    .forward watch cluster r.method r.path rawQuery (if r.method = lit "GET" then [] else body)
  else .crash

/-- `proxyPass` (api/proxy.go:492-521). -/
def proxyPass (env : Env) (r : HReq) (cluster rawQuery body : Str) : Answer :=
  let c := if cluster = [] then env.defaultCluster else cluster
  if c ∉ env.clients then .noCluster c
  else if isWatch r.path rawQuery then send true c r (watchQuery rawQuery) body
  else send false c r rawQuery body

/-! ## Table output -/

/-- `json.Unmarshal` into a `map[string]string`, errors ignored (api/proxy.go:353-354). -/
def decodeStrMap (s : Str) : List (Str × Str) :=
  match Json.parse s with
  | some (.obj ms) => ms.foldl (fun m e => insertKV e.1 (strElem e.2) m) []
  | _ => []

/-- Column names (api/proxy.go:356-374). -/
def tableCols (indexes : List (Str × Str)) : List Str :=
  (match lookup (lit "namespace") indexes with
   | some _ => [lit "cluster", lit "namespace", lit "name"]
   | none => [lit "cluster", lit "name"])
  ++ sortBy strLe ((indexes.map Prod.fst).filter fun k =>
      k ≠ lit "cluster" && k ≠ lit "namespace" && k ≠ lit "name")

/-- Priority of a column (api/proxy.go:379-387). -/
def colPriority (c : Str) : Nat :=
  if c = lit "cluster" then 1
  else if c = lit "is_deleted" ∨ c = lit "labels" ∨ c = lit "created_at" then 2 else 0

/-- `indexMap[c] = j` for every column (api/proxy.go:375-390). -/
def colIndex (cols : List Str) : List (Str × Nat) :=
  cols.zipIdx.foldl (fun m e => insertKV e.1 e.2 m) []

/-- `cells[indexMap[k]] = v` for every index value, in the order of `indexes` (api/proxy.go:392-395); an
absent column gives 0. `none`: index out of range. -/
def fillCells (im : List (Str × Nat)) : List (Str × Str) → List (Option Str) → Option (List (Option Str))
  | [], cells => some cells
  | (k, v) :: es, cells =>
    let j := (lookup k im).getD 0
    if j < cells.length then fillCells im es (cells.set j (some v)) else none

/-- State of the loop of `serverPrint`. -/
structure Tab where
  columns : List Column := []
  im : List (Str × Nat) := []
  rows : List (List (Option Str)) := []

/-- One item of `serverPrint` (api/proxy.go:347-401); `ord` is the order in which the map is iterated. -/
def tabStep (ord : List (Str × Str) → List (Str × Str)) (t : Tab) (i : Nat) (o : Obj) : Option Tab :=
  match o.om with
  | none => some t
  | some m =>
    let text := (lookup indexAnno m.annos).getD []
    if text = [] then some t
    else
      let indexes := decodeStrMap text
      let t := if i = 0 then
          { t with columns := (tableCols indexes).map fun c => ⟨c, colPriority c⟩, im := colIndex (tableCols indexes) }
        else t
      (fillCells t.im (ord indexes) (List.replicate t.im.length none)).map fun cells =>
        { t with rows := t.rows ++ [cells] }

/-- The loop of `serverPrint` from item `i` on. -/
def tabLoop (ord : Nat → List (Str × Str) → List (Str × Str)) : Nat → Tab → List Obj → Option Tab
  | _, t, [] => some t
  | i, t, o :: os => (tabStep (ord i) t i o).bind fun t => tabLoop ord (i + 1) t os

/-- `serverPrint` (api/proxy.go:339-403). -/
def serverPrint (ord : Nat → List (Str × Str) → List (Str × Str)) (items : List Obj) : Answer :=
  match tabLoop ord 0 {} items with
  | some t => .table t.columns t.rows
  | none => .crash

/-! ## Proxy -/

/-- `ProxySingleResources` (api/proxy.go:72-84). -/
def proxySingle (st : StoreI) (r : HReq) (cluster : Str) : Answer :=
  match st.get r.gvr cluster r.ns r.resource with
  | none => .refused .notFound
  | some o => .object o

/-- Query keys that do not keep a request from the cache (api/proxy.go:199-203). -/
def cacheKeys : List Str := [lit "labelSelector", lit "timeoutSeconds", lit "timeout", lit "limit"]

/-- The search after defaulting the cluster (api/proxy.go:222-227). -/
def defaultSearch (env : Env) (search : Str) : Str :=
  if getClusters search = [] then (setClusters search [env.defaultCluster]).getD search else search

/-- `findLabels` (api/proxy.go:44-62): the labels of an object with `ObjectMeta`; without, reflection
panics. -/
def findLabels (o : Obj) : Option (List (Str × Str)) := o.om.map ObjMeta.labels

/-- Items that satisfy the selector (api/proxy.go:259-264); `none` when `findLabels` panics. -/
def labelFilter (sel : List Req) : List Obj → Option (List Obj)
  | [] => some []
  | o :: os => (findLabels o).bind fun l => (labelFilter sel os).map fun rest =>
      if selMatches sel l then o :: rest else rest

/-- The manual slice (api/proxy.go:267-283). -/
def labelSlice (p : Paginate) (items : List Obj) : Option (List Obj) :=
  if p.pageSize = 0 ∨ p.page = 0 then some items
  else slice items (bounds p.page p.pageSize items.length).1 (bounds p.page p.pageSize items.length).2

/-- What the two ways of listing give: items and total, a refusal, or a panic (`none`). -/
abbrev Listed := Option ((List Obj × Int) ⊕ Refusal)

/-- Listing with a label selector (api/proxy.go:232-284). -/
def listLabels (st : StoreI) (r : HReq) (p : Paginate) (labels : LabelSelector) : Listed :=
  match st.query r.gvr ⟨r.ns, { sort := p.sort, search := p.search }⟩ with
  | none => none
  | some res =>
    if res.error then some (.inr .query)
    else match asSelector labels with
      | none => some (.inr .selector)
      | some sel =>
        (labelFilter sel res.items).bind fun items =>
          (labelSlice p items).map fun page => .inl (page, items.length)

/-- Listing without a label selector (api/proxy.go:286-299). -/
def listPlain (st : StoreI) (r : HReq) (p : Paginate) : Listed :=
  match st.query r.gvr ⟨r.ns, p⟩ with
  | none => none
  | some res => if res.error then some (.inr .query) else some (.inl (res.items, res.total))

/-- The choice between the two (api/proxy.go:232). -/
def listItems (st : StoreI) (r : HReq) (p : Paginate) (labels : Option LabelSelector) : Listed :=
  match labels with
  | some ls => if ls.matchLabels.length ≠ 0 ∨ ls.matchExprs.length ≠ 0 then listLabels st r p ls else listPlain st r p
  | none => listPlain st r p

/-- `apiVersion` (api/proxy.go:301-306). -/
def apiVersionOf (g : GVR) : Str := if g.group = [] then g.version else g.group ++ [47] ++ g.version

/-- `remainCount` (api/proxy.go:307-324); `none`: out of page. `int64` arithmetic wraps. -/
def remainCount (p : Paginate) (total : Int) (items : Nat) : Option Int :=
  if p.page = 0 ∧ p.pageSize = 0 then some 0
  else
    let rc := wrap64 (total - wrap64 (p.pageSize * p.page))
    if rc < 0 ∧ items = 0 ∧ p.page ≠ 1 then none
    else if rc < 0 then some 0 else some rc

/-- The answer to a list request (api/proxy.go:307-336). -/
def listAnswer (env : Env) (tord : Nat → List (Str × Str) → List (Str × Str)) (r : HReq) (p : Paginate) : Listed → Answer
  | none => .crash
  | some (.inr why) => .refused why
  | some (.inl (items, total)) =>
    match remainCount p total items.length with
    | none => .refused .outOfPage
    | some rc =>
      if contains r.accept (lit "application/json;as=Table") then serverPrint tord items
      else .list (apiVersionOf r.gvr) (gvrKind env.proxies r.group r.version r.resourceType) r.path rc items

/-- A list request from the cache (api/proxy.go:222-336). -/
def proxyList (env : Env) (st : StoreI) (tord : Nat → List (Str × Str) → List (Str × Str)) (r : HReq) (p : Parsed) : Answer :=
  let pg := { p.paginate with search := defaultSearch env p.paginate.search }
  listAnswer env tord r pg (listItems st r pg p.labels)

/-- `Proxy` (api/proxy.go:186-337). `ord` is the order in which the query is iterated, a permutation of
`parseQuery r.rawQuery`; `tord` are the orders of the maps of `serverPrint`. -/
def proxy (env : Env) (st : StoreI) (tord : Nat → List (Str × Str) → List (Str × Str)) (ord : Values) (r : HReq) : Answer :=
  match parseClean env ord r with
  | .inr (cluster, body) => proxyPass env r cluster r.rawQuery body
  | .inl p =>
    if (parseQuery p.rawQuery).any (fun e => !cacheKeys.contains e.1) then proxyPass env r p.cluster p.rawQuery p.body
    else if !st.isStoreGVR r.gvr ∨ r.method ≠ lit "GET" then proxyPass env r p.cluster p.rawQuery p.body
    else if r.resource ≠ [] then proxySingle st r p.cluster
    else proxyList env st tord r p

end Ckube
