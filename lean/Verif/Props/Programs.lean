import Verif.Model.Client
import Verif.Props.Wire
import Verif.Props.Envelope
import Verif.Props.Federation
import Verif.Props.ListOptions

/-! # C105: programs that list through ckube -/

namespace Ckube
open Spec Json

variable {env : Env} {st : StoreI} {tord : Nat → List (Str × Str) → List (Str × Str)} {ord : HReq → Values} {up : Answer → UpRes}
  {obj : Obj → JV} {texts : Answer → Str} {failure : Str}
  {isPrint : Nat → Bool} {alg : SliceSort} {pf : Str → Option GoFloat} {eval : Str → Obj → Str}
  {conf : List (GVR × List (Str × Str))} {h : List Notice} {s : Store}

/-- The server: what it answers to a request. -/
def ckubeServe (env : Env) (st : StoreI) (tord : Nat → List (Str × Str) → List (Str × Str)) (ord : HReq → Values) (up : Answer → UpRes)
    (rest : Handlers Answer) (token authz : Str) (r : HReq) : Served Answer :=
  serveReq token (ckubeHandlers env st tord (ord r) up r rest) r.method r.path authz

/-- The bytes of its response to a request for the target. -/
def ckubeBody (env : Env) (ord : HReq → Values) (obj : Obj → JV) (texts : Answer → Str) (failure : Str) (t : Target) (r : HReq) (w : Wr Answer) : Str :=
  w.text obj texts (labelled env (ord r) (t.aim r)) failure

theorem listReq_query (path text : Str) :
    parseQuery (listReq path text).rawQuery = if text = [] then [] else [(lit "labelSelector", [text])] := by
  unfold listReq
  simp only
  split
  · rfl
  · rw [parseQuery_encode (by simp [IsMap]) (by simp)]
    rfl

theorem listReq_first {path text k v : Str} (h : First (listReq path text).rawQuery k v) : k = lit "labelSelector" ∧ v = text ∧ text ≠ [] := by
  obtain ⟨vs, h⟩ := h
  rw [listReq_query] at h
  split at h
  · simp [lookup] at h
  · rename_i hne
    simp only [lookup] at h
    split at h
    · rename_i hk
      simp only [Option.some.injEq, List.cons.injEq] at h
      exact ⟨hk.symm, h.1.symm, hne⟩
    · simp at h

theorem listReq_reads {path text : Str} {i : SelInfo} (hi : parseSelector text = some i) : Reads (listReq path text) i := by
  by_cases h0 : text = []
  · subst h0
    rw [parseSelector_nil, Option.some.injEq] at hi
    exact Or.inr ⟨fun v hv => (listReq_first hv).2.2 rfl, hi.symm⟩
  · exact Or.inl ⟨text, ⟨[], by rw [listReq_query, if_neg h0]; rfl⟩, hi⟩

theorem listReq_cacheable {t : Target} {path text : Str} {i : SelInfo} (hi : parseSelector text = some i)
    (ht : st.isStoreGVR ⟨t.group, t.version, t.resource⟩ = true) : Cacheable st (t.aim (listReq path text)) where
  get := rfl
  configured := ht
  readable := by
    intro v hv
    obtain ⟨-, rfl, -⟩ := listReq_first (path := path) (text := text) hv
    rw [hi]; rfl
  params := by
    intro k v hv
    left
    have hk : k = lit "labelSelector" := (listReq_first (path := path) (text := text) hv).1
    rw [hk]
    simp

/-- The number of remaining items is an `int64`. -/
theorem list_remaining_range {tord : Nat → List (Str × Str) → List (Str × Str)} {ord : Values} {r : HReq} {v k l : Str} {rc : Int} {its : List Obj}
    (ha : proxy env st tord ord r = .list v k l rc its) : -9223372036854775808 ≤ rc ∧ rc < 9223372036854775808 := by
  have hrem : ∀ (p : Paginate) total n, remainCount p total n = some rc → -9223372036854775808 ≤ rc ∧ rc < 9223372036854775808 := by
    intro p total n hh
    unfold remainCount at hh
    split at hh
    · simp only [Option.some.injEq] at hh; omega
    · simp only at hh
      have hb : ∀ x, -9223372036854775808 ≤ wrap64 x ∧ wrap64 x < 9223372036854775808 := by
        intro x; unfold wrap64; omega
      have hb := hb (total - wrap64 (p.pageSize * p.page))
      split at hh
      · simp at hh
      · split at hh
        · simp only [Option.some.injEq] at hh; omega
        · simp only [Option.some.injEq] at hh; omega
  have hpass : ∀ c q b, proxyPass env r c q b ≠ .list v k l rc its := by
    intro c q b
    unfold proxyPass
    simp only
    generalize (if c = [] then env.defaultCluster else c) = c'
    by_cases h1 : c' ∉ env.clients
    · rw [if_pos h1]; simp
    · rw [if_neg h1]
      split <;> (unfold send; split <;> simp)
  unfold proxy at ha
  split at ha
  · exact absurd ha (hpass _ _ _)
  · split at ha
    · exact absurd ha (hpass _ _ _)
    · split at ha
      · exact absurd ha (hpass _ _ _)
      · split at ha
        · unfold proxySingle at ha; split at ha <;> simp at ha
        · unfold proxyList listAnswer at ha
          simp only at ha
          split at ha
          · simp at ha
          · simp at ha
          · split at ha
            · simp at ha
            · rename_i hrc
              split at ha
              · unfold serverPrint at ha; split at ha <;> simp at ha
              · simp only [Answer.list.injEq] at ha
                obtain ⟨-, -, -, rfl, -⟩ := ha
                exact hrem _ _ _ hrc

/-- The client reads a list answer as it was meant. -/
theorem readList_list {v k l : Str} {rc : Int} {items : List Obj} (hv : validUtf8 v = true) (hk : validUtf8 k = true) (hl : validUtf8 l = true)
    (hobj : ∀ o ∈ items, Good (obj o)) (hrc : -9223372036854775808 ≤ rc ∧ rc < 9223372036854775808) (lab : Bool) (code : Int) :
    readList (Wr.text obj texts lab failure ⟨some code, [.json (.list v k l rc items)]⟩) = some (some rc, items.map obj) := by
  unfold readList
  rw [body_parses (list_good hv hk hl hobj lab) code]
  have hn := parseInt64_intDigits (i := rc) (by simp only [minInt64, maxInt64]; omega)
  simp only [Answer.json]
  have h1 : readRemaining [(lit "apiVersion", .str v), (lit "items", sliceJson (!lab && items.isEmpty) (items.map obj)), (lit "kind", .str k),
      (lit "metadata", .obj [(lit "remainingItemCount", .num (intDigits rc)), (lit "selfLink", .str l)])] = some (some rc) := by
    have e1 : ∀ x, lastMember (lit "metadata") [(lit "apiVersion", .str v), (lit "items", x), (lit "kind", .str k),
      (lit "metadata", .obj [(lit "remainingItemCount", .num (intDigits rc)), (lit "selfLink", .str l)])]
        = some (.obj [(lit "remainingItemCount", .num (intDigits rc)), (lit "selfLink", .str l)]) := fun x => rfl
    have e2 : lastMember (lit "remainingItemCount") [(lit "remainingItemCount", .num (intDigits rc)), (lit "selfLink", .str l)]
        = some (.num (intDigits rc)) := rfl
    unfold readRemaining
    simp only [e1, e2, hn, Option.map_some]
  have h2 : readItems [(lit "apiVersion", .str v), (lit "items", sliceJson (!lab && items.isEmpty) (items.map obj)), (lit "kind", .str k),
      (lit "metadata", .obj [(lit "remainingItemCount", .num (intDigits rc)), (lit "selfLink", .str l)])] = some (items.map obj) := by
    have e1 : ∀ x, lastMember (lit "items") [(lit "apiVersion", .str v), (lit "items", x), (lit "kind", .str k),
      (lit "metadata", .obj [(lit "remainingItemCount", .num (intDigits rc)), (lit "selfLink", .str l)])] = some x := fun x => rfl
    unfold readItems
    simp only [e1]
    cases items with
    | nil => cases lab <;> rfl
    | cons o os => simp [sliceJson]
  rw [h1, h2]
  rfl

/-- What the program sees of an answer. -/
theorem program_sees {rest : Handlers Answer} {token authz : Str} (hauth : token = [] ∨ token <:+: authz)
    {t : Target} (hv : t.Valid) (hs : t.sub = []) {sel text : Str} {page : Paginate} (hq : queryListOptions sel page = some text)
    (hu : validUtf8 (apiVersionOf ⟨t.group, t.version, t.resource⟩) = true
      ∧ validUtf8 (gvrKind env.proxies t.group t.version t.resource) = true ∧ validUtf8 t.path = true) :
    let a := proxy env st tord (ord (listReq t.path text)) (t.aim (listReq t.path text))
    let out := listProgram (ckubeServe env st tord ord up rest token authz) (ckubeBody env ord obj texts failure t) t.path sel page
    (∀ why, a = .refused why → out = none)
    ∧ ∀ v k l rc items, a = .list v k l rc items → (∀ o ∈ items, Good (obj o)) →
        out = some (makeupTotal (some rc) items.length page, items.map obj) := by
  intro a out
  obtain ⟨vs, hserve⟩ := C85_proxy (env := env) (st := st) (tord := tord) (ord := ord (listReq t.path text)) (up := up) (rest := rest)
    (r := listReq t.path text) hauth hv hs rfl rfl
  have hout : out = (clientReads (ckubeBody env ord obj texts failure t (listReq t.path text))
      (.answered (respond up a) (some (.proxy, vs)))).map fun l => (makeupTotal l.1 l.2.length page, l.2) := by
    show listProgram _ _ _ _ _ = _
    unfold listProgram ckubeServe
    rw [hq, Option.bind_some, hserve]
  refine ⟨?_, ?_⟩
  · intro why hw
    have hst := C85_status (up := up) (.refused why)
    rw [hout, hw]
    by_cases hn : why = .notFound
    · subst hn
      rw [hst.2.2.2.1 rfl]
      rfl
    · rw [hst.2.2.2.2.2.1 why rfl hn]
      rfl
  · intro v k l rc items ha hobj
    obtain ⟨e1, e2, e3, -⟩ := proxy_list_head ha
    rw [hout, ha, (C85_status (up := up) (.list v k l rc items)).2.1 v k l rc items rfl]
    have hread := readList_list (obj := obj) (texts := texts) (failure := failure) (v := v) (k := k) (l := l) (rc := rc) (items := items)
      (by rw [e1]; exact hu.1) (by rw [e2]; exact hu.2.1) (by rw [e3]; exact hu.2.2) hobj (list_remaining_range ha)
      (labelled env (ord (listReq t.path text)) (t.aim (listReq t.path text))) 200
    simp only [clientReads, ckubeBody, Option.getD_some]
    rw [if_pos (by decide), hread]
    simp

/-- **C105**: a program that makes its options with `QueryListOptions`, lists through ckube and applies `MakeupResPaginate` learns the number of
objects it asks for and gets the objects of its page: those that the API servers of the clusters have in the namespace, that satisfy the
selector and the search, ordered by the keys, without ckube's marks; it stops with an error exactly if its page is not the first and lies past the end.
The statement goes from the options of the program through the bytes of URL and response body to the numbers the program prints. -/
theorem C105_program_partial (hconf : ConfOK conf) (hrun : (newStore conf).run eval h = some s) (hapi : ApiObjects h)
    (hst : Serves isPrint alg pf s st) (hord : ∀ r, (ord r).Perm (parseQuery r.rawQuery))
    {rest : Handlers Answer} {token authz : Str} (hauth : token = [] ∨ token <:+: authz)
    {t : Target} (hv : t.Valid) (hsub : t.sub = []) (hname : t.name = []) (hst' : st.isStoreGVR ⟨t.group, t.version, t.resource⟩ = true)
    (hu : validUtf8 (apiVersionOf ⟨t.group, t.version, t.resource⟩) = true
      ∧ validUtf8 (gvrKind env.proxies t.group t.version t.resource) = true ∧ validUtf8 t.path = true)
    (hobj : ∀ o, Good (obj o))
    -- the options
    {sel text : Str} {reqs : List Req} {page : Paginate} (hc : CallerSelector sel reqs)
    (hpage : -2^63 ≤ page.page ∧ page.page < 2^63) (hsize : -2^63 ≤ page.pageSize ∧ page.pageSize < 2^63)
    (htotal : -2^63 ≤ page.total ∧ page.total < 2^63)
    (hsort : validUtf8 page.sort = true) (hsearch : validUtf8 page.search = true)
    (hlen : (Base64.encode page.toJson).length ≤ 10024) (hq : queryListOptions sel page = some text)
    (hpaging : (page.page = 0 ∧ page.pageSize = 0) ∨ (1 ≤ page.page ∧ 1 ≤ page.pageSize ∧ page.page * page.pageSize < 9223372036854775808))
    -- the search and the order
    {search : Str} {cs : List Str} {qs : List Req} (hset : Restricted env search qs cs page.search) (hadv : FirstReqs search qs)
    (hplain : Separable (lit "cluster") search qs) {ks : List SortKey} (hks : SortMeans page.sort ks) (htot : TotalKeys ks)
    -- the clusters
    {objs : Str → List ((Str × Str) × Obj)} (hup : ∀ c ∈ cs, CaughtUp ⟨t.group, t.version, t.resource⟩ c h (objs c)) (he : EmptyNoNaN pf)
    (hnan : ∀ c ∈ cs, ∀ e ∈ objs c, ∀ k ∈ ks, k.num = true →
      pf (valueUnder eval (confAt conf ⟨t.group, t.version, t.resource⟩) ((c, e.1.1, e.1.2), e.2) k.key) ≠ some .nan)
    -- search and order make sense for all objects
    (hev : ∀ id o idx, Latest eval (confAt conf) h id o → id.gvr = ⟨t.group, t.version, t.resource⟩ → (t.ns = [] ∨ t.ns = id.ns) →
      IsIndex eval (confAt conf ⟨t.group, t.version, t.resource⟩) id.cluster o idx →
      ∀ p ∈ searchParts search, ¬ advPrefix <+: p → matchParts isPrint idx [p] ≠ none)
    (hknown : ∀ k ∈ ks, k.key ∈ (confAt conf ⟨t.group, t.version, t.resource⟩).map Prod.fst
      ∨ k.key ∈ [lit "cluster", lit "is_deleted", lit "namespace", lit "name"])
    (hnum : ∀ c ∈ cs, ∀ e ∈ objs c, ∀ k ∈ ks, k.num = true →
      ∃ v, indexValueOf eval (confAt conf ⟨t.group, t.version, t.resource⟩) c e.2 k.key = some v ∧ (number pf v).isSome = true) :
    ∃ (all : List ((Str × Str × Str) × Obj)) (items : List Obj),
      (∀ e, e ∈ all ↔ e.1.1 ∈ cs ∧ (e.1.2, e.2) ∈ objs e.1.1 ∧ (t.ns = [] ∨ t.ns = e.1.2.1)
        ∧ (∀ q ∈ lastEqualities reqs, ReqHolds q (labelsOf e.2))
        ∧ ∃ idx, IsIndex eval (confAt conf ⟨t.group, t.version, t.resource⟩) e.1.1 e.2 idx ∧ KeptConstraints isPrint (lit "cluster") search qs idx)
      ∧ all.Pairwise (KeysLt pf (valueUnder eval (confAt conf ⟨t.group, t.version, t.resource⟩)) ks)
      ∧ List.Forall₂ (fun e o => SameButMarks e.2 o) all items
      ∧ ((all.length : Int) < 9223372036854775808 →
        listProgram (ckubeServe env st tord ord up rest token authz) (ckubeBody env ord obj texts failure t) t.path sel page
          = if page.page ≠ 0 ∧ page.page ≠ 1 ∧ (all.length : Int) ≤ (page.page - 1) * page.pageSize then none
            else some ((all.length : Int), (pageOf page.page page.pageSize items).map obj)) := by
  obtain ⟨info, hi, hsat, -⟩ := C06_kept_last sel text reqs page hc hpage hsize htotal hsort hsearch hlen hq
  have hpg : info.paginate = page := by
    obtain ⟨info', hi', hp'⟩ := C05_delivered_partial sel text reqs page hc hpage hsize htotal hsort hsearch hlen hq
    rw [hi, Option.some.injEq] at hi'
    rw [hi']; exact hp'
  have hvp : ValidPaging info.paginate := by
    rw [hpg]
    rcases hpaging with hp | ⟨h1, h2, h3⟩
    · exact Or.inl hp.2
    · exact Or.inr ⟨h1, h2, by omega⟩
  have hmir := mirror_search (env := env) (tord := tord) (r := t.aim (listReq t.path text)) hconf hrun hapi hst
    (hord (listReq t.path text)) (listReq_cacheable (path := t.path) hi hst') hname (listReq_reads (path := t.path) hi)
    (by rw [hpg]; exact restricted_default hset hadv hplain) hadv hplain (by rw [hpg]; exact hks) htot hvp
    (fun c hc' => CaughtUp.mirrors (hup c hc')) he hnan
  obtain ⟨hno, hmir⟩ := hmir
  rcases hmir with hbad | ⟨all, items, a1, a2, a3, a4, a5, a6, a7⟩
  · exact absurd hbad (hno hev hknown hnum)
  refine ⟨all, items, ?_, a2, a3, ?_⟩
  · intro e
    rw [a1 e]
    have : Satisfies info.labels e.2 ↔ ∀ q ∈ lastEqualities reqs, ReqHolds q (labelsOf e.2) := hsat (labelsOf e.2)
    rw [this]
    rfl
  · intro hn
    obtain ⟨hsees1, hsees2⟩ := program_sees (env := env) (st := st) (tord := tord) (ord := ord) (up := up) (obj := obj) (texts := texts)
      (failure := failure) (rest := rest) hauth hv hsub hq hu
    rw [hpg] at a5 a6 a7
    have hacc : contains (t.aim (listReq t.path text)).accept (lit "application/json;as=Table") = false := by
      show contains (lit "application/json, */*") _ = false
      decide +kernel
    rcases hpaging with ⟨p1, p2⟩ | ⟨p1, p2, p3⟩
    · obtain ⟨b1, b2⟩ := a6 p1 p2 hn
      obtain ⟨v, k, l, rc, hl⟩ := a7 hacc b1
      rw [if_neg (by simp [p1]), hsees2 v k l rc _ hl (fun o _ => hobj o), b2 v k l rc _ hl]
    · obtain ⟨b1, b2⟩ := a5 p1 p2 p3 hn
      split
      · rename_i hx
        exact hsees1 _ (b1.mpr hx.2)
      · rename_i hx
        have hx' : proxy env st tord (ord (listReq t.path text)) (t.aim (listReq t.path text)) ≠ .refused .outOfPage :=
          fun hr => hx ⟨by omega, b1.mp hr⟩
        obtain ⟨v, k, l, rc, hl⟩ := a7 hacc hx'
        rw [hsees2 v k l rc _ hl (fun o _ => hobj o), b2 v k l rc _ hl]

/-- What the program learns about the default cluster when it asks for no labels, no order and a search with plain parts only. -/
theorem program_default (hconf : ConfOK conf) (hrun : (newStore conf).run eval h = some s) (hapi : ApiObjects h)
    (hst : Serves isPrint alg pf s st) (hord : ∀ r, (ord r).Perm (parseQuery r.rawQuery))
    {rest : Handlers Answer} {token authz : Str} (hauth : token = [] ∨ token <:+: authz)
    {t : Target} (hv : t.Valid) (hsub : t.sub = []) (hname : t.name = []) (hns : t.ns = [])
    (hst' : st.isStoreGVR ⟨t.group, t.version, t.resource⟩ = true)
    (hu : validUtf8 (apiVersionOf ⟨t.group, t.version, t.resource⟩) = true
      ∧ validUtf8 (gvrKind env.proxies t.group t.version t.resource) = true ∧ validUtf8 t.path = true)
    (hobj : ∀ o, Good (obj o)) {text : Str} {page : Paginate}
    (hpage : -2^63 ≤ page.page ∧ page.page < 2^63) (hsize : -2^63 ≤ page.pageSize ∧ page.pageSize < 2^63)
    (htotal : -2^63 ≤ page.total ∧ page.total < 2^63) (hsort : page.sort = []) (hsearch : validUtf8 page.search = true)
    (hlen : (Base64.encode page.toJson).length ≤ 10024) (hq : queryListOptions [] page = some text)
    (hpaging : (page.page = 0 ∧ page.pageSize = 0) ∨ (1 ≤ page.page ∧ 1 ≤ page.pageSize ∧ page.page * page.pageSize < 9223372036854775808))
    (hparts : ∀ p ∈ searchParts page.search, ¬ advPrefix <+: p ∧ ∀ r, p ≠ lit ";" ++ r) (hno : getClusters page.search = [])
    (hd : env.defaultCluster ≠ []) (hl : validLabelValue env.defaultCluster = true)
    {objs : List ((Str × Str) × Obj)} (hup : CaughtUp ⟨t.group, t.version, t.resource⟩ env.defaultCluster h objs) (he : EmptyNoNaN pf)
    (hev : ∀ id o idx, Latest eval (confAt conf) h id o → id.gvr = ⟨t.group, t.version, t.resource⟩ →
      IsIndex eval (confAt conf ⟨t.group, t.version, t.resource⟩) id.cluster o idx →
      ∀ p ∈ searchParts page.search, matchParts isPrint idx [p] ≠ none)
    (P : (Str × Str) × Obj → Bool)
    (hP : ∀ e ∈ objs, e.2.om.isSome = true → ∀ idx, IsIndex eval (confAt conf ⟨t.group, t.version, t.resource⟩) env.defaultCluster e.2 idx →
      ((∀ p ∈ searchParts page.search, matchParts isPrint idx [p] = some true) ↔ P e = true))
    (hn : (objs.length : Int) < 9223372036854775808) :
    ∃ (all : List ((Str × Str) × Obj)) (items : List Obj), all.Perm (objs.filter P)
      ∧ (all.map Prod.fst).Pairwise NsNameLe
      ∧ List.Forall₂ (fun e o => SameButMarks e.2 o) all items
      ∧ listProgram (ckubeServe env st tord ord up rest token authz) (ckubeBody env ord obj texts failure t) t.path [] page
          = if page.page ≠ 0 ∧ page.page ≠ 1 ∧ ((objs.filter P).length : Int) ≤ (page.page - 1) * page.pageSize then none
            else some (((objs.filter P).length : Int), (pageOf page.page page.pageSize items).map obj) := by
  have hmir := CaughtUp.mirrors (eval := eval) (conf := conf) hup
  have hc : CallerSelector [] [] := ⟨parseReqs_nil, by simp, by simp, by simp⟩
  have hadv : FirstReqs page.search [] := Or.inl ⟨fun p hp => (hparts p hp).1, rfl⟩
  have hplain : Separable (lit "cluster") page.search [] := ⟨fun p hp _ r => (hparts p hp).2 r, by simp⟩
  have hks : SortMeans page.sort defaultKeys := Or.inl ⟨hsort, rfl⟩
  have htext : ∀ k ∈ defaultKeys, k.num = false := by decide
  obtain ⟨all, items, a1, a2, a3, a4⟩ := C105_program_partial (env := env) (st := st) (tord := tord) (ord := ord) (up := up) (obj := obj)
    (texts := texts) (failure := failure) (rest := rest) (cs := [env.defaultCluster]) (objs := fun _ => objs)
    hconf hrun hapi hst hord hauth hv hsub hname hst' hu hobj hc hpage hsize htotal (by rw [hsort]; rfl) hsearch hlen hq hpaging
    (Or.inr ⟨rfl, rfl, hno, hd, hl, by simp⟩) hadv hplain hks (by unfold TotalKeys; decide)
    (by intro c hc'; rw [List.mem_singleton] at hc'; subst hc'; exact hup) he
    (by intro c _ e _ k hk hn; rw [htext k hk] at hn; simp at hn)
    (fun id o idx h1 h2 _ h3 p hp _ => hev id o idx h1 h2 h3 p hp)
    (by intro k hk; right; revert k; decide)
    (by intro c _ e _ k hk hn; rw [htext k hk] at hn; simp at hn)
  have hom : ∀ e ∈ objs, e.2.om.isSome = true := by
    intro e hee
    have := (hmir.1 e.1.1 e.1.2 e.2).mpr (lookup_eq_some_of_mem hmir.2.1 hee)
    obtain ⟨m, hm⟩ := latest_api hapi this
    rw [hm]; rfl
  have hmem : ∀ e, e ∈ all ↔ e.1.1 = env.defaultCluster ∧ (e.1.2, e.2) ∈ objs.filter P := by
    intro e
    rw [a1 e, List.mem_filter]
    simp only [List.mem_singleton, hns, true_or, true_and, lastEqualities, List.not_mem_nil, false_implies, implies_true]
    constructor
    · rintro ⟨h1, h2, idx, h3, h4⟩
      refine ⟨h1, h2, (hP _ h2 (hom _ h2) idx (by rw [← h1]; exact h3)).mp ?_⟩
      exact fun p hp => h4.1 p hp (hparts p hp).1
    · rintro ⟨h1, h2, h3⟩
      refine ⟨h1, h2, _, build_index eval (confAt_isMap hconf _) _ _, ?_, ?_⟩
      · intro p hp _
        exact (hP _ h2 (hom _ h2) _ (by rw [← h1]; exact build_index eval (confAt_isMap hconf _) _ _)).mpr h3 p hp
      · simp [lastEqualities]
  have hnd : all.Nodup := a2.imp (fun {a b} hab => by rintro rfl; exact keysLt_irrefl hab)
  have hobjs : objs.Nodup := (List.Nodup.of_map _ hmir.2.1)
  have hperm : (all.map fun e => (e.1.2, e.2)).Perm (objs.filter P) := by
    refine (List.perm_ext_iff_of_nodup ?_ (hobjs.filter _)).mpr ?_
    · refine hnd.map_on ?_
      rintro ⟨⟨c, k⟩, o⟩ hx ⟨⟨c', k'⟩, o'⟩ hy hxy
      have e1 := ((hmem _).mp hx).1
      have e2 := ((hmem _).mp hy).1
      simp only [Prod.mk.injEq] at hxy e1 e2 ⊢
      exact ⟨⟨e1.trans e2.symm, hxy.1⟩, hxy.2⟩
    · rintro ⟨k, o⟩
      rw [List.mem_map]
      constructor
      · rintro ⟨e, hee, heq⟩
        rw [← heq]
        exact ((hmem e).mp hee).2
      · intro hk
        exact ⟨((env.defaultCluster, k), o), (hmem _).mpr ⟨rfl, hk⟩, rfl⟩
  have hlenall : all.length = (objs.filter P).length := by rw [← hperm.length_eq, List.length_map]
  have hle : (objs.filter P).length ≤ objs.length := List.length_filter_le _ _
  refine ⟨all.map fun e => (e.1.2, e.2), items, hperm, ?_, ?_, ?_⟩
  · rw [List.map_map, List.pairwise_map]
    refine a2.imp_of_mem ?_
    intro a b ha hb hab
    have hat : ∀ e ∈ all, valueUnder eval (confAt conf ⟨t.group, t.version, t.resource⟩) e (lit "cluster") = env.defaultCluster
        ∧ valueUnder eval (confAt conf ⟨t.group, t.version, t.resource⟩) e (lit "namespace") = e.1.2.1
        ∧ valueUnder eval (confAt conf ⟨t.group, t.version, t.resource⟩) e (lit "name") = e.1.2.2 := by
      intro e hee
      obtain ⟨e1, e2⟩ := (hmem e).mp hee
      have e3 := List.mem_of_mem_filter e2
      obtain ⟨m, hm⟩ := Option.isSome_iff_exists.mp (hom _ e3)
      simp only at hm
      have hk := hmir.2.2 _ e3
      simp only [objKey, hm] at hk
      unfold valueUnder
      refine ⟨?_, ?_, ?_⟩
      · simp [indexValueOf, e1]
      · rw [indexValueOf, hm, if_neg (by decide), ← hk]
        simp only
        rw [if_neg (by decide), if_pos trivial]; rfl
      · rw [indexValueOf, hm, if_neg (by decide), ← hk]
        simp only
        rw [if_neg (by decide), if_neg (by decide), if_pos trivial]; rfl
    obtain ⟨x1, x2, x3⟩ := hat a ha
    obtain ⟨y1, y2, y3⟩ := hat b hb
    simp only [defaultKeys, KeysLt, x1, x2, x3, y1, y2, y3] at hab
    simp only [NsNameLe, Function.comp]
    rcases hab with hab | ⟨-, hab | ⟨h1, hab | ⟨-, hab⟩⟩⟩
    · rw [strLt_irrefl] at hab; simp at hab
    · exact Or.inl hab
    · exact Or.inr ⟨h1, Or.inl hab⟩
    · exact absurd hab id
  · rw [List.forall₂_map_left_iff]
    exact a3
  · rw [a4 (by omega), hlenall]

/-! ## The two programs of examples/ -/

/-- ckube runs with an empty or known token and serves the cluster wide lists of type `g` from a cache that has caught up with the
default cluster, whose API server has the objects `objs`. -/
structure Spec.Running (env : Env) (st : StoreI) (ord : HReq → Values) (obj : Obj → JV) (isPrint : Nat → Bool) (alg : SliceSort)
    (pf : Str → Option GoFloat) (eval : Str → Obj → Str) (conf : List (GVR × List (Str × Str))) (h : List Notice) (s : Store)
    (token authz : Str) (g : GVR) (objs : List ((Str × Str) × Obj)) : Prop where
  config : ConfOK conf
  run : (newStore conf).run eval h = some s
  api : ApiObjects h
  serves : Serves isPrint alg pf s st
  order : ∀ r, (ord r).Perm (parseQuery r.rawQuery)
  auth : token = [] ∨ token <:+: authz
  stored : st.isStoreGVR g = true
  kind : validUtf8 (gvrKind env.proxies g.group g.version g.resource) = true
  json : ∀ o, Good (obj o)
  cluster : env.defaultCluster ≠ [] ∧ validLabelValue env.defaultCluster = true
  caught : CaughtUp g env.defaultCluster h objs
  empty : EmptyNoNaN pf
  size : (objs.length : Int) < 9223372036854775808

variable {token authz : Str} {rest : Handlers Answer} {objs : List ((Str × Str) × Obj)}

/-- `/api/v1/…` -/
def coreList (resource : String) : Target := { version := lit "v1", resource := lit resource }

def nsGVR : GVR := ⟨[], lit "v1", lit "namespaces"⟩
def podGVR : GVR := ⟨[], lit "v1", lit "pods"⟩

theorem coreList_valid {resource : String} (h : resource = "pods" ∨ resource = "namespaces") :
    (coreList resource).Valid ∧ validUtf8 (coreList resource).path = true := by
  rcases h with rfl | rfl
  · exact ⟨⟨by unfold IsPiece; decide +kernel, by decide +kernel, by decide +kernel, by decide +kernel, by decide +kernel⟩, by decide +kernel⟩
  · exact ⟨⟨by unfold IsPiece; decide +kernel, by decide +kernel, by decide +kernel, by decide +kernel, by decide +kernel⟩, by decide +kernel⟩

/-- **C105**, examples/paginate/main.go: with more than 50 pods in the default cluster it prints their number and the size of the second page; with
50 or less it stops with an error. -/
theorem C105_paginate_example (hr : Running env st ord obj isPrint alg pf eval conf h s token authz podGVR objs) :
    let out := listProgram (ckubeServe env st tord ord up rest token authz) (ckubeBody env ord obj texts failure (coreList "pods"))
      (lit "/api/v1/pods") [] { page := 2, pageSize := 50 }
    (objs.length ≤ 50 → out = none)
    ∧ (50 < objs.length → ∃ pods, out = some ((objs.length : Int), pods) ∧ pods.length = min 50 (objs.length - 50)) := by
  intro out
  obtain ⟨hv, hp⟩ := coreList_valid (Or.inl rfl : "pods" = "pods" ∨ "pods" = "namespaces")
  obtain ⟨all, items, h1, h2, h3, h4⟩ := program_default (env := env) (st := st) (tord := tord) (ord := ord) (up := up) (obj := obj)
    (texts := texts) (failure := failure) (rest := rest) (t := coreList "pods") (page := { page := 2, pageSize := 50 })
    (text := lit "ckube.daocloud.io/query notin (eyJwYWdlIjoyLCJwYWdlX3NpemUiOjUwfQ)")
    hr.config hr.run hr.api hr.serves hr.order hr.auth hv rfl rfl rfl hr.stored ⟨by decide +kernel, hr.kind, hp⟩ hr.json
    (by decide) (by decide) (by decide) rfl (by decide +kernel) (by decide +kernel) (by decide +kernel) (Or.inr (by decide))
    (by intro p hp'; have : searchParts [] = [] := by decide +kernel
        simp [this] at hp')
    (by decide +kernel) hr.cluster.1 hr.cluster.2 hr.caught hr.empty
    (by intro id o idx _ _ _ p hp'; have : searchParts [] = [] := by decide +kernel
        simp [this] at hp')
    (fun _ => true)
    (by intro e _ _ idx _; have : searchParts [] = [] := by decide +kernel
        simp [this])
    hr.size
  have hpath : (coreList "pods").path = lit "/api/v1/pods" := by decide +kernel
  rw [hpath] at h4
  have hf : objs.filter (fun _ => true) = objs := List.filter_eq_self.mpr (by simp)
  rw [hf] at h1 h4
  have hli : items.length = objs.length := by rw [← h3.length_eq, h1.length_eq]
  constructor
  · intro hle
    show listProgram _ _ _ _ _ = none
    rw [h4, if_pos ⟨by decide, by decide, by simp only; omega⟩]
  · intro hgt
    refine ⟨(pageOf 2 50 items).map obj, ?_, ?_⟩
    · show listProgram _ _ _ _ _ = _
      rw [h4, if_neg (by simp only; omega)]
    · rw [List.length_map, length_pageOf items (by decide), hli]
      omega

/-- The name index of an API object. -/
theorem index_name {c : Str} {o : Obj} {idx : List (Str × Str)} {cf : List (Str × Str)} {m : ObjMeta} (hm : o.om = some m)
    (hi : IsIndex eval cf c o idx) : lookup (lit "name") idx = some m.name := by
  rw [hi.2, indexValueOf, hm, if_neg (by decide)]
  simp only
  rw [if_neg (by decide), if_neg (by decide), if_pos trivial]

/-- **C105**, the first list of examples/search/main.go: it prints how many namespaces of the default cluster are called `default` (one or none), and that
it got as many. Names do not contain quotes. -/
theorem C105_search_example (hr : Running env st ord obj isPrint alg pf eval conf h s token authz nsGVR objs)
    (hq : ∀ e ∈ objs, (34 : UInt8) ∉ e.1.2) :
    ∃ found, listProgram (ckubeServe env st tord ord up rest token authz) (ckubeBody env ord obj texts failure (coreList "namespaces"))
        (lit "/api/v1/namespaces") [] { search := lit "name=\"default\"" }
      = some (((objs.filter fun e => e.1.2 = lit "default").length : Int), found)
      ∧ found.length = (objs.filter fun e => e.1.2 = lit "default").length := by
  obtain ⟨hv, hp⟩ := coreList_valid (Or.inr rfl : "namespaces" = "pods" ∨ "namespaces" = "namespaces")
  have hparts : searchParts (lit "name=\"default\"") = [lit "name=\"default\""] := by decide +kernel
  have hmir := CaughtUp.mirrors (eval := eval) (conf := conf) hr.caught
  have hpart : ∀ (idx : List (Str × Str)) (v : Str), lookup (lit "name") idx = some v →
      matchParts isPrint idx [lit "name=\"default\""] ≠ none
      ∧ ((34 : UInt8) ∉ v → (matchParts isPrint idx [lit "name=\"default\""] = some true ↔ v = lit "default")) := by
    intro idx v hl
    have e1 : trimSpace (lit "name=\"default\"") = lit "name" ++ lit "=" ++ (lit "\"" ++ lit "default" ++ lit "\"") := by decide +kernel
    have e2 : ¬ advPrefix <+: lit "name" ++ lit "=" ++ (lit "\"" ++ lit "default" ++ lit "\"") := by decide +kernel
    constructor
    · rw [Ne, (C11_key_value isPrint idx _ _ _ e1 (by decide) (by decide) e2 (by intro r; simp [lit])).1, hl]
      simp
    · intro hno
      rw [C14_quoted_partial isPrint idx _ _ _ v e1 (by decide) (by decide) e2 ⟨by rfl, by decide, by decide⟩ hl]
      constructor
      · rintro (rfl | ⟨pre, rfl⟩)
        · rfl
        · simp [lit] at hno
      · exact Or.inl
  obtain ⟨all, items, h1, h2, h3, h4⟩ := program_default (env := env) (st := st) (tord := tord) (ord := ord) (up := up) (obj := obj)
    (texts := texts) (failure := failure) (rest := rest) (t := coreList "namespaces") (page := { search := lit "name=\"default\"" })
    (text := lit "ckube.daocloud.io/query notin (eyJzZWFyY2giOiJuYW1lPVwiZGVmYXVsdFwiIn0)")
    hr.config hr.run hr.api hr.serves hr.order hr.auth hv rfl rfl rfl hr.stored ⟨by decide +kernel, hr.kind, hp⟩ hr.json
    (by decide) (by decide) (by decide) rfl (by decide +kernel) (by decide +kernel) (by decide +kernel) (Or.inl (by decide))
    (by
      intro p hp'
      simp only [hparts, List.mem_singleton] at hp'
      subst hp'
      exact ⟨by decide +kernel, by intro r; simp [lit]⟩)
    (by decide +kernel) hr.cluster.1 hr.cluster.2 hr.caught hr.empty
    (by
      intro id o idx hl _ hi p hp'
      simp only [hparts, List.mem_singleton] at hp'
      subst hp'
      obtain ⟨m, hm⟩ := latest_api hr.api hl
      exact (hpart idx _ (index_name hm hi)).1)
    (fun e => e.1.2 = lit "default")
    (by
      intro e hee hom idx hi
      simp only [hparts, List.mem_singleton, forall_eq, decide_eq_true_eq]
      obtain ⟨m, hm⟩ := Option.isSome_iff_exists.mp hom
      have hk := hmir.2.2 _ hee
      simp only [objKey, hm] at hk
      have hn : m.name = e.1.2 := by rw [← hk]
      rw [(hpart idx _ (index_name hm hi)).2 (by rw [hn]; exact hq e hee), hn])
    hr.size
  have hpath : (coreList "namespaces").path = lit "/api/v1/namespaces" := by decide +kernel
  rw [hpath] at h4
  refine ⟨_, by rw [h4, if_neg (by simp)], ?_⟩
  rw [List.length_map, ← h1.length_eq, h3.length_eq]
  rfl

/-- **C105 is false** for the second list of examples/search/main.go, whose search `e` should find the namespaces with an `e` in their name: it finds all
namespaces of the default cluster, whatever they are called, because the index `is_deleted` of every object is `false` or `true`. -/
theorem C105_false_fuzzy (hr : Running env st ord obj isPrint alg pf eval conf h s token authz nsGVR objs) :
    ∃ found, listProgram (ckubeServe env st tord ord up rest token authz) (ckubeBody env ord obj texts failure (coreList "namespaces"))
        (lit "/api/v1/namespaces") [] { page := 1, pageSize := 5, search := lit "e" }
      = some ((objs.length : Int), found) ∧ found.length = min 5 objs.length := by
  obtain ⟨hv, hp⟩ := coreList_valid (Or.inr rfl : "namespaces" = "pods" ∨ "namespaces" = "namespaces")
  have hparts : searchParts (lit "e") = [lit "e"] := by decide +kernel
  have hpart : ∀ (idx : List (Str × Str)), matchParts isPrint idx [lit "e"] ≠ none
      ∧ ((∃ b : Bool, lookup (lit "is_deleted") idx = some (if b then lit "true" else lit "false")) →
        matchParts isPrint idx [lit "e"] = some true) := by
    intro idx
    obtain ⟨b, hb, hiff⟩ := C12_fuzzy isPrint idx (lit "e") (lit "e") (by decide +kernel) (by decide) (by decide) (by decide +kernel)
      (by intro r; simp [lit])
    rw [hb]
    refine ⟨by simp, ?_⟩
    rintro ⟨d, hd⟩
    rw [Option.some.injEq, hiff]
    cases d with
    | true => exact ⟨lit "is_deleted", lit "true", lit "\"tru", lit "\"", mem_of_lookup hd, by rfl⟩
    | false => exact ⟨lit "is_deleted", lit "false", lit "\"fals", lit "\"", mem_of_lookup hd, by rfl⟩
  obtain ⟨all, items, h1, h2, h3, h4⟩ := program_default (env := env) (st := st) (tord := tord) (ord := ord) (up := up) (obj := obj)
    (texts := texts) (failure := failure) (rest := rest) (t := coreList "namespaces")
    (page := { page := 1, pageSize := 5, search := lit "e" })
    (text := lit "ckube.daocloud.io/query notin (eyJwYWdlIjoxLCJwYWdlX3NpemUiOjUsInNlYXJjaCI6ImUifQ)")
    hr.config hr.run hr.api hr.serves hr.order hr.auth hv rfl rfl rfl hr.stored ⟨by decide +kernel, hr.kind, hp⟩ hr.json
    (by decide) (by decide) (by decide) rfl (by decide +kernel) (by decide +kernel) (by decide +kernel) (Or.inr (by decide))
    (by
      intro p hp'
      simp only [hparts, List.mem_singleton] at hp'
      subst hp'
      exact ⟨by decide +kernel, by intro r; simp [lit]⟩)
    (by decide +kernel) hr.cluster.1 hr.cluster.2 hr.caught hr.empty
    (by
      intro id o idx hl _ hi p hp'
      simp only [hparts, List.mem_singleton] at hp'
      subst hp'
      exact (hpart idx).1)
    (fun _ => true)
    (by
      intro e hee hom idx hi
      simp only [hparts, List.mem_singleton, forall_eq, iff_true]
      obtain ⟨m, hm⟩ := Option.isSome_iff_exists.mp hom
      refine (hpart idx).2 ⟨m.deleted, ?_⟩
      rw [hi.2, indexValueOf, hm, if_neg (by decide)]
      simp only
      rw [if_pos trivial])
    hr.size
  have hpath : (coreList "namespaces").path = lit "/api/v1/namespaces" := by decide +kernel
  rw [hpath] at h4
  have hf : objs.filter (fun _ => true) = objs := List.filter_eq_self.mpr (by simp)
  rw [hf] at h1 h4
  refine ⟨_, by rw [h4, if_neg (by simp)], ?_⟩
  have hli : items.length = objs.length := by rw [← h3.length_eq, h1.length_eq]
  rw [List.length_map, length_pageOf items (by decide), hli]
  simp

/-! Both hold of a ckube whose default cluster has the namespaces `default` and `prod`; the search `e` finds both. -/

def exNsConf : List (GVR × List (Str × Str)) := [(podGVR, []), (nsGVR, [(lit "phase", lit "{.status.phase}")])]

def exNs (name : String) : Obj := { om := some { name := lit name }, body := lit name }

def exNsHist : List Notice :=
  [.clean nsGVR (lit "c1"), .added nsGVR (lit "c1") (exNs "default"), .added nsGVR (lit "c1") (exNs "prod")]

def exNsObjs : List ((Str × Str) × Obj) := [(([], lit "default"), exNs "default"), (([], lit "prod"), exNs "prod")]

def exNsStore : Store := ((newStore exNsConf).run exEval exNsHist).getD (newStore exNsConf)

def exNsI : StoreI := ⟨exNsStore.isStoreGVR, exNsStore.get, exNsStore.query (fun _ => true) insertionSort exFloat⟩

theorem exNs_running : Running exEnv exNsI (fun r => parseQuery r.rawQuery) (fun _ => .obj [(lit "kind", .str (lit "Namespace"))]) (fun _ => true)
    insertionSort exFloat exEval exNsConf exNsHist exNsStore (lit "secret") (lit "Bearer secret") nsGVR exNsObjs where
  config := ⟨by decide +kernel, by decide +kernel⟩
  run := by
    have : ((newStore exNsConf).run exEval exNsHist).isSome = true := by decide +kernel
    obtain ⟨s, hs⟩ := Option.isSome_iff_exists.mp this
    unfold exNsStore
    rw [hs, Option.getD_some]
  api := by
    intro n hn
    simp only [exNsHist, List.mem_cons, List.not_mem_nil, or_false] at hn
    rcases hn with rfl | rfl | rfl <;> trivial
  serves := serves_self _ _ _ _
  order := fun _ => List.Perm.refl _
  auth := Or.inr ⟨lit "Bearer ", [], by decide⟩
  stored := by decide +kernel
  kind := by decide +kernel
  json := by
    intro o
    simp only [Good, GoodMembers, and_true]
    decide +kernel
  cluster := ⟨by decide, by decide +kernel⟩
  caught := by
    have k1 : metaKey (exNs "default") = some ([], lit "default") := rfl
    have k2 : metaKey (exNs "prod") = some ([], lit "prod") := rfl
    have s1 := SysRun.step (.refl {}) (SysStep.create (r := nsGVR) (c := lit "c1") (s := {}) k1 rfl)
    have s2 := SysRun.step s1 (.opened (p := .streaming true) (out := []) (List.Perm.refl _) rfl)
    have s3 := SysRun.step s2 (.create k2 (by decide +kernel))
    have s4 := SysRun.step s3 (.deliver (p := .streaming false) (t := .added) (o := exNs "default") rfl rfl)
    have s5 := SysRun.step s4 (.deliver (p := .streaming false) (t := .added) (o := exNs "prod") rfl rfl)
    exact ⟨_, false, s5, rfl, rfl, Or.inl rfl, rfl, rfl⟩
  empty := by unfold EmptyNoNaN; decide +kernel
  size := by decide

example : ((exNsObjs.filter fun e => e.1.2 = lit "default").length, exNsObjs.length) = (1, 2) := by decide +kernel

end Ckube
