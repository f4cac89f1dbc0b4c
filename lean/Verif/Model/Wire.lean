import Verif.Model.Server
import Verif.Model.ObjType

/-! # Response bodies (server/server.go:124-129, 145-193; api/proxy.go:64-83, 314-403, 497-502)

`obj` gives the JSON value of a cached object, `texts` message and reason of a refusal where they contain texts of other packages. -/

namespace Ckube

/-- The label selector of the request selects by labels, so that the items are collected in a slice that is not nil (api/proxy.go:230-232). -/
def labelled (env : Env) (ord : Values) (r : HReq) : Bool :=
  match parseClean env ord r with
  | .inl p => match p.labels with
    | some ls => ls.matchLabels.length != 0 || ls.matchExprs.length != 0
    | none => false
  | .inr _ => false

/-- `json.Marshal` of a slice: nil is null. -/
def sliceJson (isNil : Bool) (xs : List JV) : JV := if isNil then .null else .arr xs

/-- `metav1.Status` as JSON: empty fields are omitted, the metadata never. -/
def statusJson (kind apiVersion status message reason : Str) (code : Int) : JV :=
  let f (k : String) (s : Str) : List (Str × JV) := if s = [] then [] else [(lit k, .str s)]
  .obj (f "kind" kind ++ f "apiVersion" apiVersion ++ [(lit "metadata", .obj [])] ++ f "status" status ++ f "message" message ++ f "reason" reason
    ++ (if code = 0 then [] else [(lit "code", .num (intDigits code))]))

/-- The status of a refusal, after `errorProxy` (api/proxy.go:64-70). -/
def refusalJson (mr : Str × Str) (code : Int) : JV := statusJson (lit "Status") (lit "v1") (lit "Failure") mr.1 mr.2 code

/-- Message and reason (api/proxy.go:75-81, 242-257, 291-296, 315-320). -/
def Refusal.text (texts : Answer → Str) : Refusal → Str × Str
  | .notFound => (texts (.refused .notFound), lit "NotFound")
  | .query => (lit "query error", texts (.refused .query))
  | .selector => (lit "label selector parse error", texts (.refused .selector))
  | .outOfPage => (lit "out of page", texts (.refused .outOfPage))

/-- `metav1.TableColumnDefinition` (api/proxy.go:376-388). -/
def columnJson (c : Column) : JV :=
  .obj [(lit "name", .str c.name), (lit "type", .str (lit "string")), (lit "format", .str []), (lit "description", .str []),
    (lit "priority", .num (natDigits c.priority))]

def cellJson : Option Str → JV
  | none => .null
  | some s => .str s

/-- `metav1.TableRow` (api/proxy.go:393-400): the object is a `RawExtension` without content. -/
def rowJson (cells : List (Option Str)) : JV := .obj [(lit "cells", .arr (cells.map cellJson)), (lit "object", .null)]

/-- What `json.Marshal` makes of what `Proxy` returns: the members of maps are sorted, those of structs are in the order of the fields. `lab`: the request selects
by labels. A list that is collected by the store is nil when it is empty (store/memory/memory.go:333-335), and so are columns and rows of an empty table. -/
def Answer.json (obj : Obj → JV) (texts : Answer → Str) (lab : Bool) : Answer → JV
  | .object o => obj o
  | .list v k l rc items => .obj [(lit "apiVersion", .str v), (lit "items", sliceJson (!lab && items.isEmpty) (items.map obj)), (lit "kind", .str k),
      (lit "metadata", .obj [(lit "remainingItemCount", .num (intDigits rc)), (lit "selfLink", .str l)])]
  | .table cs rows => .obj [(lit "kind", .str (lit "Table")), (lit "apiVersion", .str (lit "meta.k8s.io/v1")), (lit "metadata", .obj []),
      (lit "columnDefinitions", sliceJson cs.isEmpty (cs.map columnJson)), (lit "rows", sliceJson rows.isEmpty (rows.map rowJson))]
  | .refused why => refusalJson (why.text texts) why.code
  | .noCluster c => refusalJson (lit "cluster not found", lit "request cluster not found: " ++ c) 404
  | .forward .. => .null
  | .crash => .null

/-- The bytes of a piece of a response; a recovered panic is written as `failure` says. -/
def Part.text (obj : Obj → JV) (texts : Answer → Str) (lab : Bool) (failure : Str) : Part Answer → Str
  | .bytes s => s
  | .unauthorized => Json.enc (statusJson [] [] (lit "Unauthorized") (lit "token missing or error") (lit "token missing or error") 401)
  | .failure => failure
  | .json a => Json.enc (a.json obj texts lab)

/-- The body of a response. -/
def Wr.text (obj : Obj → JV) (texts : Answer → Str) (lab : Bool) (failure : Str) (w : Wr Answer) : Str :=
  w.body.flatMap (Part.text obj texts lab failure)

end Ckube
