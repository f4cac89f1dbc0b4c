import Verif.Model.Page

/-! # The label-selector part of `parsePaginateAndLabelsAndClean` (api/proxy.go:134-175) -/

namespace Ckube

/-- Values of the last expression on the pagination key that has values
(api/proxy.go:149-160): `paginateStr` after the loop, `none` on a merge error. -/
def paginateLoop : List LReq → Str → Option Str
  | [], acc => some acc
  | m :: ms, acc =>
    if m.key = paginateKey then
      if m.vals.length > 0 then
        match mergeValues m.vals with
        | none => none
        | some s => paginateLoop ms s
      else paginateLoop ms acc
    else paginateLoop ms acc

/-- What the server learns from a label selector. -/
structure SelInfo where
  /-- the pagination request -/
  paginate : Paginate
  /-- the label selector left after removing the pagination key; `none` is Go's nil -/
  labels : Option LabelSelector
  /-- the label selector the request carries when it is forwarded (`none`: not rewritten) -/
  rewritten : Option Str
deriving DecidableEq, Repr

/-- `labels.MatchLabels`/`MatchExpressions` without the pagination key and `paginateStr`
(api/proxy.go:140-162). -/
def takePaginate (labels : LabelSelector) : Option (LabelSelector × Str) :=
  match lookup paginateKey labels.matchLabels with
  | some ps => some ({ labels with matchLabels := eraseKV paginateKey labels.matchLabels }, ps)
  | none =>
    (paginateLoop labels.matchExprs []).map fun s =>
      ({ labels with matchExprs := labels.matchExprs.filter (fun m => m.key ≠ paginateKey) }, s)

/-- The pagination request, the remaining labels and the selector written back into the query
(api/proxy.go:171-174). -/
def selInfo (p : Paginate) (labels : LabelSelector) : SelInfo :=
  ⟨p, some labels,
    if labels.matchLabels.length ≠ 0 ∨ labels.matchExprs.length ≠ 0
    then some ((formatSelector labels).getD (lit "<error>")) else none⟩

/-- The block `if labelSelectorStr != ""` (api/proxy.go:134-175); `none` is an error return. -/
def parseSelector (s : Str) : Option SelInfo :=
  if s = [] then some ⟨{}, none, none⟩
  else
    (parseToLabelSelector s).bind fun labels =>
      (takePaginate labels).bind fun (labels, ps) =>
        if ps = [] then some (selInfo {} labels)
        else (Base64.decode ps).map fun rr =>
          selInfo (decodePaginate rr)
            { labels with matchLabels := eraseKV paginateKey labels.matchLabels }

end Ckube
