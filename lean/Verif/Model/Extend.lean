import Verif.Model.Proxy

/-! # Services of a deployment (api/extend/deploy2service.go, utils/subset.go) -/

namespace Ckube

/-- `IsSubsetOf` (utils/subset.go:3-10); the list order of `sub` is the iteration order of the map. -/
def isSubsetOf : List (Str × Str) → List (Str × Str) → Bool
  | [], _ => true
  | (k, v) :: rest, parent =>
    match lookup k parent with
    | none => false
    | some pv => if pv ≠ v then false else isSubsetOf rest parent

/-- `getDeploymentName` (api/extend/deploy2service.go:80-87). -/
def deploymentName (m : ObjMeta) : Str :=
  match m.owners with
  | [] => []
  | (kind, name) :: _ =>
    if kind ≠ lit "ReplicaSet" then [] else join (lit "-") (splitByte 45 name).dropLast

/-- `podGvr` and `svcGvr` (api/extend/deploy2service.go:24-33). -/
def podGvr : GVR := ⟨[], lit "v1", lit "pods"⟩
def svcGvr : GVR := ⟨[], lit "v1", lit "services"⟩

/-- What the handler returns: services, the error of a query, or a panic (which the server answers with 500). -/
inductive D2S where
  | services (l : List Obj)
  | error
  | crash
  deriving DecidableEq

/-- `p := page.Paginate{Search: search}; _ = p.Clusters([]string{cluster})`
(api/extend/deploy2service.go:37-38, 56-57): an error leaves the search as it was. -/
def clusterSearch (search cluster : Str) : Str := (setClusters search [cluster]).getD search

/-- The labels of the first pod that has a deployment (api/extend/deploy2service.go:46-55); a nil map reads like
an empty one. -/
def podLabels : List Obj → List (Str × Str)
  | [] => []
  | o :: os =>
    match o.om with
    | none => podLabels os
    | some m => if deploymentName m ≠ [] then m.labels else podLabels os

/-- The loop over the services (api/extend/deploy2service.go:65-76); `none`: an object that is neither `ObjType`
nor `Service`. The JSON round trip of an `ObjType` keeps the selector. -/
def pickServices (labels : List (Str × Str)) : List Obj → Option (List Obj)
  | [] => some []
  | o :: os =>
    match o.om with
    | none => none
    | some _ => (pickServices labels os).map fun r =>
      match o.selector with
      | some sel => if isSubsetOf sel labels then o :: r else r
      | none => r

/-- The second half of `Deploy2Service` (api/extend/deploy2service.go:56-78). -/
def servicesFor (st : StoreI) (cluster ns : Str) (labels : List (Str × Str)) : D2S :=
  match st.query svcGvr ⟨ns, { search := clusterSearch [] cluster }⟩ with
  | none => .crash
  | some res =>
    if res.error then .error
    else match pickServices labels res.items with
      | none => .crash
      | some l => .services l

/-- `Deploy2Service` (api/extend/deploy2service.go:19-78); `cluster`, `ns` and `dep` are the route variables, the
first one empty when absent. -/
def deploy2service (env : Env) (st : StoreI) (cluster ns dep : Str) : D2S :=
  let c := if cluster = [] then env.defaultCluster else cluster
  match st.query podGvr ⟨ns, { search := clusterSearch (lit "name=" ++ dep) c }⟩ with
  | none => .crash
  | some res => if res.error then .error else servicesFor st c ns (podLabels res.items)

end Ckube
