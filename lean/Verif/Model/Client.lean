import Verif.Model.Wire

/-! # Programs that list through ckube (examples/paginate/main.go, examples/search/main.go)

Both programs make list options with `page.QueryListOptions`, list with the typed client of client-go, stop on an error and print what
`page.MakeupResPaginate` and the number of items say. client-go is modelled from memory of its source: the URL of the request, the statuses that are
errors, and the decoding of the list as far as `MakeupResPaginate` looks at it; the items stay JSON values. Redirects are not followed. -/

namespace Ckube

/-- The request of `client.….List(ctx, options)` with a label selector as the only option (examples/paginate/main.go:22-25). -/
def listReq (path text : Str) : HReq :=
  { method := lit "GET", path := path, rawQuery := if text = [] then [] else encodeQuery [(lit "labelSelector", [text])],
    accept := lit "application/json, */*" }

/-- The last member of a JSON object under a name. -/
def lastMember (k : Str) (ms : List (Str × JV)) : Option JV := lookup k ms.reverse

/-- `metadata.remainingItemCount` of a list: a pointer to an `int64`; the outer `none` is a decoding error. -/
def readRemaining (ms : List (Str × JV)) : Option (Option Int) :=
  match lastMember (lit "metadata") ms with
  | none | some .null => some none
  | some (.obj md) => match lastMember (lit "remainingItemCount") md with
    | none | some .null => some none
    | some (.num raw) => (parseInt64 raw).map some
    | some _ => none
  | some _ => none

/-- `items` of a list; null is the empty list. -/
def readItems (ms : List (Str × JV)) : Option (List JV) :=
  match lastMember (lit "items") ms with
  | none | some .null => some []
  | some (.arr xs) => some xs
  | some _ => none

/-- The list in a response body. -/
def readList (body : Str) : Option (Option Int × List JV) :=
  match Json.parse body with
  | some (.obj ms) => (readRemaining ms).bind fun n => (readItems ms).map fun xs => (n, xs)
  | _ => none

/-- What client-go makes of a response: statuses other than 200 to 206 are errors. -/
def clientReads (body : Wr Answer → Str) : Served Answer → Option (Option Int × List JV)
  | .answered (some w) _ => if 200 ≤ w.status.getD 200 ∧ w.status.getD 200 ≤ 206 then readList (body w) else none
  | _ => none

/-- The program: options, list, total (examples/paginate/main.go:16-28, examples/search/main.go:16-29, 30-43); total and items, `none` when it
stops with an error. The examples ignore the error of `QueryListOptions`, which does not occur for the requests they make. -/
def listProgram (serve : HReq → Served Answer) (body : HReq → Wr Answer → Str) (path sel : Str) (page : Paginate) : Option (Int × List JV) :=
  (queryListOptions sel page).bind fun text =>
    (clientReads (body (listReq path text)) (serve (listReq path text))).map fun l => (makeupTotal l.1 l.2.length page, l.2)

end Ckube
