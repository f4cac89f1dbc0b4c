import Verif.Model.Server

/-! # The fake server of the client library (pkg/client/fake/fake_ckube.go)

Requests are handled one after the other. Not modelled: errors while the body is read. The routes, the discovery
documents and the bookkeeping of watchers by remote address are in `Verif.Model.FakeServer`. -/

namespace Ckube

/-- `EventAction` (pkg/client/fake/interface.go). -/
inductive FAct where
  | error | add | update | delete
deriving DecidableEq

/-- `Event` (pkg/client/fake/interface.go). -/
structure FEvent where
  action : FAct
  gvr : GVR
  cluster : Str
  ns : Str
  name : Str
  raw : Str
deriving DecidableEq

/-- What `json.Unmarshal` leaves in an `ObjType`. -/
structure FBody where
  om : ObjMeta
  selector : Option (List (Str × Str)) := none
  body : Str := []
deriving DecidableEq

def FBody.toObj (b : FBody) : Obj := ⟨some b.om, b.selector, b.body⟩

/-- The answer to a write. `done` carries the metadata that is written to the client (the rest of the object is not: `MarshalJSON`
has a pointer receiver and a value is passed) and the event for the watchers; `crash` is a panic. -/
inductive FReply where
  | watch
  | refused (code : Nat)
  | done (om : ObjMeta) (e : FEvent)
  | crash
deriving DecidableEq

/-- The cluster the query names (pkg/client/fake/fake_ckube.go:384-390), iterated in the order of `ord`. -/
def fakeCluster (dflt : Str) (ord : Values) : Str :=
  ord.foldl (fun c e =>
    if (e.1 = lit "fieldManager" ∨ e.1 = lit "resourceVersion") ∧ hasPrefix (e.2.headD []) clusterPrefix = true then
      (e.2.headD []).drop clusterPrefix.length
    else c) dflt

/-- Whether the request is a watch (pkg/client/fake/fake_ckube.go:391-395). -/
def fakeWatch (ord : Values) : Bool :=
  ord.any fun e => e.1 = lit "watch" && (asciiLower (e.2.headD []) = lit "true" || asciiLower (e.2.headD []) = lit "1")

/-- The cluster of a DELETE (pkg/client/fake/fake_ckube.go:436-440). -/
def fakeDelCluster (body cluster : Str) : Str :=
  match (decodeDelete body).dryRun with
  | [d] => if hasPrefix d clusterPrefix then d.drop clusterPrefix.length else cluster
  | _ => cluster

/-- The end of `proxy` (pkg/client/fake/fake_ckube.go:454-478); `s'` is the store after the write, `none` when the write panics. -/
def fakeDone (eval : Str → Obj → Str) (s : Store) (s' : Option Store) (g : GVR) (cluster : Str) (b : FBody) (e : FEvent) : FReply × Store :=
  match s' with
  | none => (.crash, s)
  | some s' => (.done (((build eval (s.confOf g) cluster b.toObj).2.2.obj.om).getD b.om) e, s')

/-- `proxy` (pkg/client/fake/fake_ckube.go:371-479). `dec` decodes the body into an `ObjType` (`none`: panics), `enc`
encodes a stored object. -/
def fakeProxy (eval : Str → Obj → Str) (dec : Str → Option FBody) (enc : Obj → Str) (dflt : Str) (s : Store) (ord : Values) (r : HReq) :
    FReply × Store :=
  if fakeWatch ord then (.watch, s)
  else match dec r.body with
    | none => (.crash, s)
    | some b0 =>
      let cluster := fakeCluster dflt ord
      let b : FBody := { b0 with om := { b0.om with ns := r.ns } }
      let name := if r.resource = [] then b.om.name else r.resource
      if r.method = lit "POST" then
        if (s.get r.gvr cluster r.ns name).isSome then (.refused 400, s)
        else fakeDone eval s (s.onAdded eval r.gvr cluster b.toObj) r.gvr cluster b ⟨.add, r.gvr, cluster, r.ns, name, r.body⟩
      else if r.method = lit "PUT" then
        if (s.get r.gvr cluster r.ns name).isNone then (.refused 404, s)
        else fakeDone eval s (s.onModified eval r.gvr cluster b.toObj) r.gvr cluster b ⟨.update, r.gvr, cluster, r.ns, name, r.body⟩
      else if r.method = lit "DELETE" then
        let cluster := fakeDelCluster r.body cluster
        match s.get r.gvr cluster r.ns name with
        | none => (.refused 404, s)
        | some o =>
          let b : FBody := { b with om := { b.om with name := name } }
          fakeDone eval s (s.onDeleted eval r.gvr cluster b.toObj) r.gvr cluster b ⟨.delete, r.gvr, cluster, r.ns, name, enc o⟩
      else (.done b.om ⟨.error, r.gvr, cluster, r.ns, name, r.body⟩, s)

/-! ## Watches -/

/-- How a watch begins (pkg/client/fake/fake_ckube.go:265-316). -/
inductive WStart where
  | crash
  | refused
  | stream (p : Paginate)
deriving DecidableEq

/-- The pagination request in the label selector (pkg/client/fake/fake_ckube.go:273-316). The error of
`ParseToLabelSelector` is ignored and the nil selector is used. -/
def watchStart (sel : Str) : WStart :=
  if sel = [] then .stream {}
  else match parseToLabelSelector sel with
    | none => .crash
    | some l => match takePaginate l with
      | none => .refused
      | some (_, ps) =>
        if ps = [] then .stream {}
        else match Base64.decode ps with
          | none => .refused
          | some rr => .stream (decodePaginate rr)

/-- Whether a watcher passes an event on (pkg/client/fake/fake_ckube.go:339-353). -/
def watchPasses (r : HReq) (p : Paginate) (e : FEvent) : Bool :=
  e.gvr.group = r.group && e.gvr.version = r.version && e.gvr.resource = r.resourceType && (e.ns = r.ns || r.ns = [])
    && !((getClusters p.search).length > 0 && !(getClusters p.search).any fun c => e.cluster = c)

/-- The type of the event (pkg/client/fake/fake_ckube.go:354-362). -/
def FAct.text : FAct → Str
  | .error => lit "ERROR"
  | .add => lit "ADDED"
  | .delete => lit "DELETED"
  | .update => lit "MODIFIED"

/-- The line that is written (pkg/client/fake/fake_ckube.go:363-364). -/
def watchLine (e : FEvent) : Str :=
  lit "{\"type\": " ++ [34] ++ e.action.text ++ [34] ++ lit ", \"object\": " ++ e.raw ++ lit "}" ++ [10]

/-- The loop of `watch` (pkg/client/fake/fake_ckube.go:327-368) together with the sends of `proxy`
(pkg/client/fake/fake_ckube.go:469-476): the events of all writes in order, with the information whether the watcher was waiting
for an event at that moment; a send does not block. -/
def watchLoop (r : HReq) (p : Paginate) : List (FEvent × Bool) → Str
  | [] => []
  | (e, ready) :: rest =>
    (if ready then if watchPasses r p e then watchLine e else [] else []) ++ watchLoop r p rest

end Ckube
