import Verif.Model.Wire
import Verif.Spec.Template
import Verif.Props.Http
import Verif.Lemmas.TemplateRun
import Verif.Lemmas.DeleteOpts

/-! # What clients read in the bodies of responses: C89 and C90 -/

namespace Ckube
open Spec Json

variable {env : Env} {st : StoreI} {tord : Nat → List (Str × Str) → List (Str × Str)} {ord : Values} {up : Answer → UpRes}
  {obj : Obj → JV} {texts : Answer → Str} {failure : Str}

theorem goodElems_iff {xs : List JV} : GoodElems xs ↔ ∀ x ∈ xs, Good x := by
  induction xs with
  | nil => simp [GoodElems]
  | cons x xs ih => simp [GoodElems, ih]

theorem hasAt_field {k : Str} {ms : List (Str × JV)} {v : JV} (h : lastOf k ms = some v) : HasAt [k] (.obj ms) v := .step h (.nil _)

theorem labelled_reads {r : HReq} (hord : ord.Perm (parseQuery r.rawQuery)) {i : SelInfo} (hi : Reads r i) :
    labelled env ord r = true ↔ ∃ ls, i.labels = some ls ∧ (ls.matchLabels ≠ [] ∨ ls.matchExprs ≠ []) := by
  have h := (reads_scan hord i).mp hi
  simp only [labelled, parseClean, h]
  cases i.labels with
  | none => simp
  | some ls =>
    simp only [Bool.or_eq_true, bne_iff_ne, ne_eq, List.length_eq_zero_iff, Option.some.injEq, exists_eq_left']

/-- The constant texts of answers. -/
theorem wire_lits : ∀ k ∈ [lit "apiVersion", lit "items", lit "kind", lit "metadata", lit "remainingItemCount", lit "selfLink", lit "Table", lit "meta.k8s.io/v1",
    lit "columnDefinitions", lit "rows", lit "name", lit "type", lit "string", lit "format", lit "description", lit "priority", lit "cells", lit "object",
    lit "status", lit "message", lit "reason", lit "code", lit "Status", lit "v1", lit "Failure", lit "Unauthorized", lit "token missing or error", lit "NotFound",
    lit "query error", lit "label selector parse error", lit "out of page", lit "cluster not found", []], validUtf8 k = true := by
  decide +kernel

/-- The JSON of a list answer can be read. -/
theorem list_good {v k l : Str} {rc : Int} {items : List Obj} (hv : validUtf8 v = true) (hk : validUtf8 k = true) (hl : validUtf8 l = true)
    (hobj : ∀ o ∈ items, Good (obj o)) (lab : Bool) : Good ((Answer.list v k l rc items).json obj texts lab) := by
  simp only [Answer.json, Good, GoodMembers, hv, hk, hl, okNum_intDigits, true_and, and_true]
  refine ⟨wire_lits _ (by simp), wire_lits _ (by simp), ?_, wire_lits _ (by simp), wire_lits _ (by simp), wire_lits _ (by simp), wire_lits _ (by simp)⟩
  unfold sliceJson
  split
  · trivial
  · simp only [Good, goodElems_iff, List.mem_map]
    rintro x ⟨o, ho, rfl⟩
    exact hobj o ho

theorem body_parses {a : Answer} {lab : Bool} (h : Good (a.json obj texts lab)) (code : Int) :
    parse (Wr.text obj texts lab failure ⟨some code, [.json a]⟩) = some (a.json obj texts lab) := by
  simp only [Wr.text, List.flatMap_cons, List.flatMap_nil, List.append_nil, Part.text]
  exact parse_enc h

/-- **C89**, lists: the body of a list answered from the cache, read as JSON, has the group and version, the kind, the path and the number of remaining items,
and under `items` the array of the listed objects. Missing for the full claim: an empty list that is not selected by labels has null in the place of the
array (`C89_false_empty`). -/
theorem C89_list_partial {r : HReq} {rest : Handlers Answer} {token authz : Str} (hauth : token = [] ∨ token <:+: authz)
    {t : Target} (hv : t.Valid) (hs : t.sub = []) (hm : r.method = lit "GET") (hp : r.path = t.path) (hord : ord.Perm (parseQuery r.rawQuery))
    {i : SelInfo} (hi : Reads (t.aim r) i) {v k l : Str} {rc : Int} {items : List Obj}
    (ha : proxy env st tord ord (t.aim r) = .list v k l rc items) (hu : validUtf8 v = true ∧ validUtf8 k = true ∧ validUtf8 l = true)
    (hobj : ∀ o ∈ items, Good (obj o)) (hne : items ≠ [] ∨ ∃ ls, i.labels = some ls ∧ (ls.matchLabels ≠ [] ∨ ls.matchExprs ≠ [])) :
    ∃ w vs doc, serveReq token (ckubeHandlers env st tord ord up r rest) r.method r.path authz = .answered (some w) (some (.proxy, vs))
      ∧ w.status = some 200 ∧ parse (w.text obj texts (labelled env ord (t.aim r)) failure) = some doc
      ∧ HasAt [lit "apiVersion"] doc (.str v) ∧ HasAt [lit "kind"] doc (.str k) ∧ HasAt [lit "metadata", lit "selfLink"] doc (.str l)
      ∧ HasAt [lit "metadata", lit "remainingItemCount"] doc (.num (intDigits rc))
      ∧ HasAt [lit "items"] doc (.arr (items.map obj)) := by
  obtain ⟨vs, hserve⟩ := C85_proxy (env := env) (st := st) (tord := tord) (ord := ord) (up := up) (rest := rest) hauth hv hs hm hp
  have hlab := labelled_reads (env := env) (r := t.aim r) hord hi
  have hnil : (!labelled env ord (t.aim r) && items.isEmpty) = false := by
    rcases hne with h | h
    · cases items with
      | nil => exact absurd rfl h
      | cons o os => simp
    · rw [hlab.mpr h]; rfl
  rw [ha] at hserve
  refine ⟨⟨some 200, [.json (.list v k l rc items)]⟩, vs, _, hserve, rfl, body_parses (list_good hu.1 hu.2.1 hu.2.2 hobj _) 200, ?_⟩
  simp only [Answer.json, hnil, sliceJson, Bool.false_eq_true, if_false]
  exact ⟨hasAt_field rfl, hasAt_field rfl, .step rfl (hasAt_field rfl), .step rfl (hasAt_field rfl), hasAt_field rfl⟩

/-- **C89 is false** for every empty list that is not selected by labels: `items` is null. -/
theorem C89_false_empty {r : HReq} {rest : Handlers Answer} {token authz : Str} (hauth : token = [] ∨ token <:+: authz)
    {t : Target} (hv : t.Valid) (hs : t.sub = []) (hm : r.method = lit "GET") (hp : r.path = t.path) (hord : ord.Perm (parseQuery r.rawQuery))
    {i : SelInfo} (hi : Reads (t.aim r) i) (hl : ∀ ls, i.labels = some ls → ls.matchLabels = [] ∧ ls.matchExprs = []) {v k l : Str} {rc : Int}
    (ha : proxy env st tord ord (t.aim r) = .list v k l rc []) (hu : validUtf8 v = true ∧ validUtf8 k = true ∧ validUtf8 l = true) :
    ∃ w vs doc, serveReq token (ckubeHandlers env st tord ord up r rest) r.method r.path authz = .answered (some w) (some (.proxy, vs))
      ∧ w.status = some 200 ∧ parse (w.text obj texts (labelled env ord (t.aim r)) failure) = some doc
      ∧ HasAt [lit "items"] doc .null := by
  obtain ⟨vs, hserve⟩ := C85_proxy (env := env) (st := st) (tord := tord) (ord := ord) (up := up) (rest := rest) hauth hv hs hm hp
  have hlab : labelled env ord (t.aim r) = false := by
    rw [← Bool.not_eq_true, labelled_reads (env := env) (r := t.aim r) hord hi]
    rintro ⟨ls, h1, h2⟩
    have := hl ls h1
    rcases h2 with h2 | h2
    · exact h2 this.1
    · exact h2 this.2
  rw [ha] at hserve
  refine ⟨⟨some 200, [.json (.list v k l rc [])]⟩, vs, _, hserve, rfl, body_parses (list_good hu.1 hu.2.1 hu.2.2 (by simp) _) 200, ?_⟩
  simp only [Answer.json, hlab, sliceJson, List.isEmpty_nil, Bool.not_false, Bool.and_self, if_true]
  exact hasAt_field rfl

/-- **C89**, single objects: the body is the JSON of the object. -/
theorem C89_object (o : Obj) (lab : Bool) (h : Good (obj o)) :
    ∃ w, respond up (.object o) = some w ∧ w.status = some 200 ∧ parse (w.text obj texts lab failure) = some (obj o) :=
  ⟨⟨some 200, [.json (.object o)]⟩, rfl, rfl, body_parses (a := .object o) h 200⟩

/-- The cell of a table as JSON. -/
def Spec.CellIs : Option Str → JV → Prop
  | none, j => j = .null
  | some s, j => j = .str s

theorem table_good {cs : List Column} {rows : List (List (Option Str))} (hc : ∀ c ∈ cs, validUtf8 c.name = true)
    (hr : ∀ row ∈ rows, ∀ s, some s ∈ row → validUtf8 s = true) (lab : Bool) : Good ((Answer.table cs rows).json obj texts lab) := by
  simp only [Answer.json, Good, GoodMembers, true_and, and_true]
  refine ⟨wire_lits _ (by simp), wire_lits _ (by simp), wire_lits _ (by simp), wire_lits _ (by simp), wire_lits _ (by simp), wire_lits _ (by simp), ?_,
    wire_lits _ (by simp), ?_⟩
  · unfold sliceJson
    split
    · trivial
    · simp only [Good, goodElems_iff, List.mem_map]
      rintro x ⟨c, hcm, rfl⟩
      have hn : okNum (natDigits c.priority) := by
        have := okNum_intDigits (c.priority : Int)
        rw [intDigits, if_neg (by omega)] at this
        simpa using this
      simp only [columnJson, Good, GoodMembers, hc c hcm, hn, true_and, and_true]
      exact ⟨wire_lits _ (by simp), wire_lits _ (by simp), wire_lits _ (by simp), wire_lits _ (by simp), wire_lits _ (by simp), wire_lits _ (by simp),
        wire_lits _ (by simp), wire_lits _ (by simp)⟩
  · unfold sliceJson
    split
    · trivial
    · simp only [Good, goodElems_iff, List.mem_map]
      rintro x ⟨row, hrow, rfl⟩
      simp only [rowJson, Good, GoodMembers, goodElems_iff, List.mem_map, and_true]
      refine ⟨wire_lits _ (by simp), ?_, wire_lits _ (by simp)⟩
      rintro y ⟨c, hcm, rfl⟩
      cases c with
      | none => trivial
      | some s => exact hr row hrow s hcm

/-- **C89**, tables: the body of a table is a `Table` with the columns and the rows, if there are any. -/
theorem C89_table (cs : List Column) (rows : List (List (Option Str))) (hc : ∀ c ∈ cs, validUtf8 c.name = true)
    (hr : ∀ row ∈ rows, ∀ s, some s ∈ row → validUtf8 s = true) (lab : Bool) :
    ∃ w doc, respond up (.table cs rows) = some w ∧ w.status = some 200 ∧ parse (w.text obj texts lab failure) = some doc
      ∧ HasAt [lit "kind"] doc (.str (lit "Table")) ∧ HasAt [lit "apiVersion"] doc (.str (lit "meta.k8s.io/v1"))
      ∧ (cs ≠ [] → ∃ js, HasAt [lit "columnDefinitions"] doc (.arr js) ∧ List.Forall₂ (fun c j => HasAt [lit "name"] j (.str c.name)
          ∧ HasAt [lit "type"] j (.str (lit "string")) ∧ HasAt [lit "priority"] j (.num (natDigits c.priority))) cs js)
      ∧ (rows ≠ [] → ∃ js, HasAt [lit "rows"] doc (.arr js)
          ∧ List.Forall₂ (fun row j => ∃ xs, HasAt [lit "cells"] j (.arr xs) ∧ List.Forall₂ Spec.CellIs row xs) rows js) := by
  refine ⟨⟨some 200, [.json (.table cs rows)]⟩, _, rfl, rfl, body_parses (table_good hc hr lab) 200, ?_⟩
  simp only [Answer.json]
  refine ⟨hasAt_field rfl, hasAt_field rfl, fun h => ⟨cs.map columnJson, ?_, ?_⟩, fun h => ⟨rows.map rowJson, ?_, ?_⟩⟩
  · refine hasAt_field ?_
    cases cs with
    | nil => exact absurd rfl h
    | cons c cs => rfl
  · rw [List.forall₂_map_right_iff]
    exact List.forall₂_same.mpr fun c _ => ⟨hasAt_field rfl, hasAt_field rfl, hasAt_field rfl⟩
  · refine hasAt_field ?_
    cases rows with
    | nil => exact absurd rfl h
    | cons c cs => rfl
  · rw [List.forall₂_map_right_iff]
    refine List.forall₂_same.mpr fun row _ => ⟨row.map cellJson, hasAt_field rfl, ?_⟩
    rw [List.forall₂_map_right_iff]
    refine List.forall₂_same.mpr fun c _ => ?_
    cases c <;> rfl

/-! ## C90 -/

theorem status_good {kind apiVersion status message reason : Str} (h : ∀ s ∈ [kind, apiVersion, status, message, reason], validUtf8 s = true) (code : Int) :
    Good (statusJson kind apiVersion status message reason code) := by
  have key : ∀ ms : List (Str × JV), (∀ m ∈ ms, validUtf8 m.1 = true ∧ Good m.2) → GoodMembers ms := by
    intro ms
    induction ms with
    | nil => intro _; trivial
    | cons m ms ih =>
      intro hm
      exact ⟨(hm m (by simp)).1, (hm m (by simp)).2, ih fun x hx => hm x (by simp [hx])⟩
  rw [statusJson, Good]
  refine key _ fun m hm => ?_
  simp only [List.mem_append] at hm
  have field : ∀ (k s : Str), validUtf8 k = true → validUtf8 s = true → m ∈ (if s = [] then [] else [(k, JV.str s)]) → validUtf8 m.1 = true ∧ Good m.2 := by
    intro k s hk hs hm
    split at hm
    · simp at hm
    · rw [List.mem_singleton] at hm; subst hm; exact ⟨hk, hs⟩
  rcases hm with (((((hm | hm) | hm) | hm) | hm) | hm) | hm
  · exact field _ _ (wire_lits _ (by simp)) (h kind (by simp)) hm
  · exact field _ _ (wire_lits _ (by simp)) (h apiVersion (by simp)) hm
  · rw [List.mem_singleton] at hm; subst hm; exact ⟨wire_lits _ (by simp), trivial⟩
  · exact field _ _ (wire_lits _ (by simp)) (h status (by simp)) hm
  · exact field _ _ (wire_lits _ (by simp)) (h message (by simp)) hm
  · exact field _ _ (wire_lits _ (by simp)) (h reason (by simp)) hm
  · split at hm
    · simp at hm
    · rw [List.mem_singleton] at hm; subst hm; exact ⟨wire_lits _ (by simp), okNum_intDigits code⟩

theorem status_fields {message reason : Str} {code : Int} (hc : code ≠ 0) :
    HasAt [lit "kind"] (refusalJson (message, reason) code) (.str (lit "Status"))
    ∧ HasAt [lit "apiVersion"] (refusalJson (message, reason) code) (.str (lit "v1"))
    ∧ HasAt [lit "status"] (refusalJson (message, reason) code) (.str (lit "Failure"))
    ∧ HasAt [lit "code"] (refusalJson (message, reason) code) (.num (intDigits code))
    ∧ (reason ≠ [] → HasAt [lit "reason"] (refusalJson (message, reason) code) (.str reason)) := by
  have e1 : lit "Status" ≠ [] := by decide
  have e2 : lit "v1" ≠ [] := by decide
  have e3 : lit "Failure" ≠ [] := by decide
  simp only [refusalJson, statusJson, e1, e2, e3, hc, if_false]
  refine ⟨?_, ?_, ?_, ?_, fun hr => ?_⟩
  all_goals
    refine hasAt_field ?_
    by_cases hm : message = []
    · by_cases hr : reason = [] <;> simp only [hm, hr, if_true, if_false] <;> first | rfl | contradiction
    · by_cases hr : reason = [] <;> simp only [hm, hr, if_true, if_false] <;> first | rfl | contradiction

/-- **C90**: a refusal by the proxy is a `Status` object: a failure whose code is the status of the response; for an object that is not
cached its reason is `NotFound`. Missing for the full claim: an unknown cluster has a reason that clients do not know (`C90_false_cluster`), and a
refusal because of the token is no `Status` object (`C90_false_token`). -/
theorem C90_status_partial (a : Answer) (lab : Bool) (ht : ∀ b, validUtf8 (texts b) = true)
    (h : (∃ why, a = .refused why) ∨ ∃ c, validUtf8 (lit "request cluster not found: " ++ c) = true ∧ a = .noCluster c) :
    ∃ w doc code, respond up a = some w ∧ w.status = some code ∧ 400 ≤ code ∧ parse (w.text obj texts lab failure) = some doc
      ∧ HasAt [lit "kind"] doc (.str (lit "Status")) ∧ HasAt [lit "apiVersion"] doc (.str (lit "v1")) ∧ HasAt [lit "status"] doc (.str (lit "Failure"))
      ∧ HasAt [lit "code"] doc (.num (intDigits code)) ∧ (a = .refused .notFound → HasAt [lit "reason"] doc (.str (lit "NotFound"))) := by
  rcases h with ⟨why, rfl⟩ | ⟨c, hc, rfl⟩
  · have hcode : why.code ≠ 0 ∧ 400 ≤ why.code := by cases why <;> decide
    have hresp : respond up (.refused why) = some ⟨some why.code, [.json (.refused why)]⟩ := by cases why <;> rfl
    have hg : Good ((Answer.refused why).json obj texts lab) := by
      refine status_good ?_ _
      intro s hs
      have hx : ∀ t, t ∈ [(why.text texts).1, (why.text texts).2] → validUtf8 t = true := by
        intro t htm
        simp only [List.mem_cons, List.not_mem_nil, or_false] at htm
        cases why <;> simp only [Refusal.text] at htm <;> rcases htm with rfl | rfl <;> first | exact ht _ | exact wire_lits _ (by simp)
      simp only [List.mem_cons, List.not_mem_nil, or_false] at hs
      rcases hs with rfl | rfl | rfl | rfl | rfl
      · exact wire_lits _ (by simp)
      · exact wire_lits _ (by simp)
      · exact wire_lits _ (by simp)
      · exact hx _ (by simp)
      · exact hx _ (by simp)
    obtain ⟨f1, f2, f3, f4, f5⟩ := status_fields (message := (why.text texts).1) (reason := (why.text texts).2) hcode.1
    refine ⟨_, _, why.code, hresp, rfl, hcode.2, body_parses hg _, f1, f2, f3, f4, ?_⟩
    intro e
    simp only [Answer.refused.injEq] at e
    subst e
    exact f5 (show lit "NotFound" ≠ [] by decide)
  · have hg : Good ((Answer.noCluster c).json obj texts lab) := by
      refine status_good ?_ _
      intro s hs
      simp only [List.mem_cons, List.not_mem_nil, or_false] at hs
      rcases hs with rfl | rfl | rfl | rfl | rfl
      · exact wire_lits _ (by simp)
      · exact wire_lits _ (by simp)
      · exact wire_lits _ (by simp)
      · exact wire_lits _ (by simp)
      · exact hc
    obtain ⟨f1, f2, f3, f4, _⟩ := status_fields (message := lit "cluster not found") (reason := lit "request cluster not found: " ++ c) (code := 404) (by decide)
    exact ⟨⟨some 404, [.json (.noCluster c)]⟩, _, 404, rfl, rfl, by decide, body_parses hg 404, f1, f2, f3, f4, by simp⟩

/-- **C90 is false** for an unknown cluster: the status is 404, but the reason is a sentence and not `NotFound`, whatever the cluster. -/
theorem C90_false_cluster (c : Str) (hc : validUtf8 (lit "request cluster not found: " ++ c) = true) (lab : Bool) :
    ∃ w doc, respond up (.noCluster c) = some w ∧ w.status = some 404 ∧ parse (w.text obj texts lab failure) = some doc
      ∧ HasAt [lit "reason"] doc (.str (lit "request cluster not found: " ++ c)) ∧ ¬ HasAt [lit "reason"] doc (.str (lit "NotFound")) := by
  have hg : Good ((Answer.noCluster c).json obj texts lab) := by
    refine status_good ?_ _
    intro s hs
    simp only [List.mem_cons, List.not_mem_nil, or_false] at hs
    rcases hs with rfl | rfl | rfl | rfl | rfl
    · exact wire_lits _ (by simp)
    · exact wire_lits _ (by simp)
    · exact wire_lits _ (by simp)
    · exact wire_lits _ (by simp)
    · exact hc
  obtain ⟨_, _, _, _, f5⟩ := status_fields (message := lit "cluster not found") (reason := lit "request cluster not found: " ++ c) (code := 404) (by decide)
  have hr := f5 (by simp [lit])
  refine ⟨⟨some 404, [.json (.noCluster c)]⟩, _, rfl, rfl, body_parses hg 404, hr, fun h => ?_⟩
  have e1 := tField_has (num := some) hr
  have e2 := tField_has (num := some) h
  show False
  have e3 : (Answer.noCluster c).json obj texts lab = refusalJson (lit "cluster not found", lit "request cluster not found: " ++ c) 404 := rfl
  rw [e3, e1] at e2
  simp [toGo, lit] at e2

/-- **C90 is false** for a wrong token: the body of the 401 has no `kind`, and its `status` is not `Failure`. -/
theorem C90_false_token (hs : Handlers Answer) {token m p authz : Str} {lab : Bool} (hp : cleanPath p = p) {rt : Route} {vs : Vars}
    (hr : routeOf m p routeTable = some (rt, vs)) (ha : rt.auth = true) (ht : token ≠ []) (hn : ¬ token <:+: authz) :
    ∃ w doc, serveReq token hs m p authz = .answered (some w) none ∧ w.status = some 401 ∧ parse (w.text obj texts lab failure) = some doc
      ∧ LacksAt [lit "kind"] doc ∧ HasAt [lit "status"] doc (.str (lit "Unauthorized")) := by
  have hc : contains authz token = false := by rw [← Bool.not_eq_true, contains_iff]; exact hn
  refine ⟨⟨some 401, [.unauthorized]⟩, statusJson [] [] (lit "Unauthorized") (lit "token missing or error") (lit "token missing or error") 401, ?_, rfl, ?_, ?_, ?_⟩
  · simp only [serveReq, hp, ne_eq, not_true_eq_false, if_false, hr, answerRoute, ha, ht, hc, not_false_eq_true, and_self, if_true]
    rfl
  · simp only [Wr.text, List.flatMap_cons, List.flatMap_nil, List.append_nil, Part.text]
    refine parse_enc (status_good ?_ _)
    intro s hs
    simp only [List.mem_cons, List.not_mem_nil, or_false] at hs
    rcases hs with rfl | rfl | rfl | rfl | rfl <;> exact wire_lits _ (by simp)
  · exact .here rfl
  · exact hasAt_field rfl

/-- The pods of a namespace. -/
def exPodsOf (ns : String) : Target := ⟨[], lit "v1", lit ns, lit "pods", [], []⟩

/-- A list of the pods of a namespace without pods, without a label selector. -/
def exNone : HReq := { method := lit "GET", path := lit "/api/v1/namespaces/none/pods", rawQuery := lit "limit=500" }

/-- The hypotheses of `C89_list_partial` hold for the list of `exList`. -/
example : ∃ (v k l : Str) (rc : Int) (items : List Obj) (i : SelInfo), Reads ((exPodsOf "prod").aim exList) i ∧ items ≠ []
    ∧ exList.path = (exPodsOf "prod").path
    ∧ proxy exEnv exStore (fun _ m => m) (parseQuery exList.rawQuery) ((exPodsOf "prod").aim exList) = .list v k l rc items
    ∧ validUtf8 v = true ∧ validUtf8 k = true ∧ validUtf8 l = true := by
  refine ⟨lit "v1", [], lit "/api/v1/namespaces/prod/pods", 0, (exStore.get exPods (lit "c1") (lit "prod") (lit "web")).toList,
    (parseSelector (scanQuery (parseQuery exList.rawQuery)).selector).getD ⟨{}, none, none⟩, ?_, ?_, ?_, ?_, ?_, ?_, ?_⟩
  · exact (reads_scan (r := (exPodsOf "prod").aim exList) (List.Perm.refl _) _).mpr (by decide +kernel)
  all_goals decide +kernel

/-- `C89_false_empty` applies to a namespace without pods. -/
example : ∃ w vs doc, serveReq [] (ckubeHandlers exEnv exStore (fun _ m => m) (parseQuery exNone.rawQuery) (fun _ => .fails) exNone
        (fun _ _ w => (w, .crash))) exNone.method exNone.path [] = .answered (some w) (some (.proxy, vs))
      ∧ w.status = some 200
      ∧ parse (w.text (fun _ => .null) (fun _ => []) (labelled exEnv (parseQuery exNone.rawQuery) ((exPodsOf "none").aim exNone)) []) = some doc
      ∧ HasAt [lit "items"] doc .null := by
  have h : ∀ s ∈ (exPodsOf "none").pieces, s ≠ [] ∧ (47 : UInt8) ∉ s ∧ s ≠ lit "." ∧ s ≠ lit ".." := by decide
  exact C89_false_empty (Or.inl rfl) (t := exPodsOf "none") ⟨h, by decide, by decide, by decide, by decide⟩ rfl rfl (by decide +kernel) (List.Perm.refl _)
    (i := ⟨{}, none, none⟩) ((reads_scan (r := (exPodsOf "none").aim exNone) (List.Perm.refl _) _).mpr (by decide +kernel)) (by simp)
    (v := lit "v1") (k := []) (l := lit "/api/v1/namespaces/none/pods") (rc := 0) (by decide +kernel) (by decide +kernel)

/-- The hypotheses of `C89_table`. -/
example : (∀ c ∈ [(⟨lit "NAME", 0⟩ : Column)], validUtf8 c.name = true)
    ∧ ∀ row ∈ [[some (lit "web"), none]], ∀ s, some s ∈ row → validUtf8 s = true := by
  refine ⟨by decide +kernel, ?_⟩
  intro row hr s hs
  simp only [List.mem_singleton] at hr
  subst hr
  simp only [List.mem_cons, Option.some.injEq, List.not_mem_nil, or_false, reduceCtorEq] at hs
  subst hs
  decide +kernel

/-- The body of a refusal. -/
example : Wr.text (fun _ => .null) (fun _ => lit "pods web not found") false [] ⟨some 404, [.json (.refused .notFound)]⟩
    = lit "{\"kind\":\"Status\",\"apiVersion\":\"v1\",\"metadata\":{},\"status\":\"Failure\",\"message\":\"pods web not found\",\"reason\":\"NotFound\",\"code\":404}" := by
  decide +kernel

/-- The hypotheses of `C90_false_token`, and the body. -/
example : cleanPath (lit "/api/v1/pods") = lit "/api/v1/pods" ∧ (∃ rt vs, routeOf (lit "GET") (lit "/api/v1/pods") routeTable = some (rt, vs) ∧ rt.auth = true)
    ∧ ¬ lit "secret" <:+: lit "Bearer guess"
    ∧ Wr.text (fun _ => .null) (fun _ => []) false [] ⟨some 401, [.unauthorized]⟩
      = lit "{\"metadata\":{},\"status\":\"Unauthorized\",\"message\":\"token missing or error\",\"reason\":\"token missing or error\",\"code\":401}" := by
  refine ⟨by decide +kernel, ⟨_, _, Option.eq_some_of_isSome (by decide +kernel), by decide +kernel⟩, ?_, by decide +kernel⟩
  rw [← contains_iff]; decide

end Ckube
