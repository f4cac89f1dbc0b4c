import Verif.Props.Server
import Verif.Props.ProxyList

/-! # C85: from the request to the status of the response; C50 for the open routes -/

namespace Ckube
open Spec

variable {env : Env} {st : StoreI} {tord : Nat → List (Str × Str) → List (Str × Str)} {ord : Values} {up : Answer → UpRes}

/-- **C50**, open routes: health and metrics run their handler whatever the token and the header. -/
theorem C50_open {γ : Type} (hs : Handlers γ) (token authz : Str) :
    serveReq token hs (lit "GET") (lit "/healthy") authz = .answered (finish (hs .healthy [] {}).1 (hs .healthy [] {}).2) (some (.healthy, []))
    ∧ serveReq token hs (lit "GET") (lit "/metrics") authz
      = .answered (finish (hs .metrics [] {}).1 (hs .metrics [] {}).2) (some (.metrics, [])) := by
  constructor
  · have h : routeOf (lit "GET") (lit "/healthy") routeTable
        = some (⟨[.txt (lit "healthy")], [lit "GET"], .healthy, false, false⟩, []) := rfl
    have hc : cleanPath (lit "/healthy") = lit "/healthy" := by decide +kernel
    simp [serveReq, hc, h, answerRoute]
  · have h : routeOf (lit "GET") (lit "/metrics") routeTable
        = some (⟨[.txt (lit "metrics")], [lit "GET"], .metrics, false, false⟩, []) := rfl
    have hc : cleanPath (lit "/metrics") = lit "/metrics" := by decide +kernel
    simp [serveReq, hc, h, answerRoute]

/-- The handlers of the server for the request `r`; `rest` are the ones that are modelled elsewhere. -/
def ckubeHandlers (env : Env) (st : StoreI) (tord : Nat → List (Str × Str) → List (Str × Str)) (ord : Values) (up : Answer → UpRes) (r : HReq)
    (rest : Handlers Answer) : Handlers Answer := fun h vs w => match h with
  | .proxy => proxyHandler env st tord ord up r vs w
  | .healthy => healthy w
  | h => rest h vs w

/-- **C85**, health: the server is healthy as long as it answers at all: status 200 and the text `1`, without a token. -/
theorem C85_health (r : HReq) (rest : Handlers Answer) (token authz : Str) :
    serveReq token (ckubeHandlers env st tord ord up r rest) (lit "GET") (lit "/healthy") authz
      = .answered (some ⟨some 200, [.bytes (lit "1")]⟩) (some (.healthy, [])) := by
  rw [(C50_open _ token authz).1]
  rfl

/-- **C85**, the statuses: answers from the cache have status 200, an object that is not cached and an unknown cluster 404, refused
queries 400; a crash 500. -/
theorem C85_status (a : Answer) :
    (∀ o, a = .object o → respond up a = some ⟨some 200, [.json a]⟩)
    ∧ (∀ v k l rc items, a = .list v k l rc items → respond up a = some ⟨some 200, [.json a]⟩)
    ∧ (∀ cs rows, a = .table cs rows → respond up a = some ⟨some 200, [.json a]⟩)
    ∧ (a = .refused .notFound → respond up a = some ⟨some 404, [.json a]⟩)
    ∧ (∀ c, a = .noCluster c → respond up a = some ⟨some 404, [.json a]⟩)
    ∧ (∀ why, a = .refused why → why ≠ .notFound → respond up a = some ⟨some 400, [.json a]⟩)
    ∧ (a = .crash → respond up a = some ⟨some 500, [.failure]⟩) := by
  refine ⟨?_, ?_, ?_, ?_, ?_, ?_, ?_⟩
  · rintro o rfl; rfl
  · rintro v k l rc items rfl; rfl
  · rintro cs rows rfl; rfl
  · rintro rfl; rfl
  · rintro c rfl; rfl
  · rintro why rfl h
    cases why with
    | notFound => exact absurd rfl h
    | query => rfl
    | selector => rfl
    | outOfPage => rfl
  · rintro rfl; rfl

/-- The request `r` with the variables that the router finds for the target. -/
def Spec.Target.aim (t : Target) (r : HReq) : HReq :=
  { r with group := t.group, version := t.version, resourceType := t.resource, ns := t.ns, resource := t.name }

/-- **C85**, routing: a GET of a type or of an object, with the right token, is answered with what the proxy says of the type and the object that the path denotes. -/
theorem C85_proxy {r : HReq} {rest : Handlers Answer} {token authz : Str} (hauth : token = [] ∨ token <:+: authz)
    {t : Target} (hv : t.Valid) (hs : t.sub = []) (hm : r.method = lit "GET") (hp : r.path = t.path) :
    ∃ vs, serveReq token (ckubeHandlers env st tord ord up r rest) r.method r.path authz
      = .answered (respond up (proxy env st tord ord (t.aim r)))
          (some (.proxy, vs)) := by
  obtain ⟨rt, vs, h1, h2, h3⟩ := C52_variables_partial hv hs (m := r.method) (by rw [hm]; decide) (Or.inl hm) r
  have hreq : r.withVars vs = t.aim r := by
    obtain ⟨e1, e2, e3, e4, e5⟩ := h3
    have : ∀ x : HReq, x.method = r.method → x.path = r.path → x.rawQuery = r.rawQuery → x.body = r.body → x.accept = r.accept → x.group = t.group →
        x.version = t.version → x.resourceType = t.resource → x.ns = t.ns → x.resource = t.name →
        x = t.aim r := by
      rintro ⟨a, b, c, d, e, f, g, h, i, j⟩
      simp only
      rintro rfl rfl rfl rfl rfl rfl rfl rfl rfl rfl
      rfl
    exact this _ rfl rfl rfl rfl rfl e1 e2 e3 e4 e5
  have hc : cleanPath t.path = t.path := by
    refine cleanPath_path ?_ hv.pieces
    unfold Target.pieces
    split <;> simp
  refine ⟨vs, ?_⟩
  have hno : ¬ (rt.auth = true ∧ token ≠ [] ∧ contains authz token = false) := by
    rintro ⟨_, ht, hx⟩
    rcases hauth with h | h
    · exact ht h
    · rw [contains_iff.mpr h] at hx; simp at hx
  have hserve : serveReq token (ckubeHandlers env st tord ord up r rest) r.method r.path authz
      = .answered (finish (proxyHandler env st tord ord up r vs {}).1 (proxyHandler env st tord ord up r vs {}).2) (some (.proxy, vs)) := by
    unfold serveReq
    rw [hp, hc, if_neg (by simp), h1]
    simp only [answerRoute, h2]
    rw [if_neg hno]
    rfl
  rw [hserve]
  unfold proxyHandler
  rw [hreq]
  rfl

/-- **C85**: a GET of one object of a cached type, with the right token, is answered with status 200 and the object last received for the selected cluster
(with ckube's marks), or with status 404 if there is none. -/
theorem C85_get {isPrint : Nat → Bool} {alg : SliceSort} {pf : Str → Option GoFloat} {eval : Str → Obj → Str}
    {conf : List (GVR × List (Str × Str))} {h : List Notice} {s : Store} (hrun : (newStore conf).run eval h = some s)
    (hst : Serves isPrint alg pf s st) {r : HReq} {rest : Handlers Answer} {token authz : Str} (hauth : token = [] ∨ token <:+: authz)
    {t : Target} (hv : t.Valid) (hs : t.sub = []) (hn : t.name ≠ []) (hm : r.method = lit "GET") (hp : r.path = t.path)
    (hord : ord.Perm (parseQuery r.rawQuery))
    (hc : Cacheable st (t.aim r)) :
    ∃ c vs, Selects env (t.aim r) c ∧
      ((∃ o o', Latest eval (confAt conf) h ⟨⟨t.group, t.version, t.resource⟩, c, t.ns, t.name⟩ o ∧ SameButMarks o o'
          ∧ serveReq token (ckubeHandlers env st tord ord up r rest) r.method r.path authz
            = .answered (some ⟨some 200, [.json (.object o')]⟩) (some (.proxy, vs)))
       ∨ ((∀ o, ¬ Latest eval (confAt conf) h ⟨⟨t.group, t.version, t.resource⟩, c, t.ns, t.name⟩ o)
          ∧ serveReq token (ckubeHandlers env st tord ord up r rest) r.method r.path authz
            = .answered (some ⟨some 404, [.json (.refused .notFound)]⟩) (some (.proxy, vs)))) := by
  obtain ⟨vs, hserve⟩ := C85_proxy (env := env) (st := st) (tord := tord) (ord := ord) (up := up) (rest := rest) hauth hv hs hm hp
  obtain ⟨c, h1, h2⟩ := C45_single_object (env := env) (tord := tord) (r := t.aim r) hrun hst hord hc hn
  refine ⟨c, vs, h1, ?_⟩
  rcases h2 with ⟨o, o', g1, g2, g3⟩ | ⟨g1, g2⟩
  · exact Or.inl ⟨o, o', g1, g2, by rw [hserve, g3]; rfl⟩
  · exact Or.inr ⟨g1, by rw [hserve, g2]; rfl⟩

/-- **C85**, lists: a list of a cached type, not asked for as a table, has status 200 with a list or status 400. -/
theorem C85_list {isPrint : Nat → Bool} {alg : SliceSort} {pf : Str → Option GoFloat} {eval : Str → Obj → Str}
    {conf : List (GVR × List (Str × Str))} {h : List Notice} {s : Store} (hconf : ConfOK conf) (hrun : (newStore conf).run eval h = some s)
    (hapi : ApiObjects h) (hst : Serves isPrint alg pf s st) {r : HReq} {rest : Handlers Answer} {token authz : Str}
    (hauth : token = [] ∨ token <:+: authz) {t : Target} (hv : t.Valid) (hs : t.sub = []) (hn : t.name = []) (hm : r.method = lit "GET")
    (hp : r.path = t.path) (hord : ord.Perm (parseQuery r.rawQuery)) (hc : Cacheable st (t.aim r)) {i : SelInfo} (hi : Reads (t.aim r) i)
    (hpg : ValidPaging i.paginate) (htab : ¬ lit "application/json;as=Table" <:+: r.accept) :
    ∃ vs, (∃ v k l rc items, serveReq token (ckubeHandlers env st tord ord up r rest) r.method r.path authz
        = .answered (some ⟨some 200, [.json (.list v k l rc items)]⟩) (some (.proxy, vs)))
      ∨ ∃ why, serveReq token (ckubeHandlers env st tord ord up r rest) r.method r.path authz
        = .answered (some ⟨some 400, [.json (.refused why)]⟩) (some (.proxy, vs)) := by
  obtain ⟨vs, hserve⟩ := C85_proxy (env := env) (st := st) (tord := tord) (ord := ord) (up := up) (rest := rest) hauth hv hs hm hp
  refine ⟨vs, ?_⟩
  rw [hserve]
  rcases list_outcome (env := env) (tord := tord) (r := t.aim r) hconf hrun hst hord hc hn hi hpg with
    ⟨hx, _⟩ | ⟨_, id, o, hmt, hom⟩ | ⟨found, kept, _, _, _, _, _, f6⟩
  · exact Or.inr ⟨.query, by rw [hx]; rfl⟩
  · exfalso
    have := latest_api hapi hmt.1
    rw [hom] at this
    simp at this
  · have hct : contains (t.aim r).accept (lit "application/json;as=Table") = false := by
      cases hx : contains (t.aim r).accept (lit "application/json;as=Table") with
      | false => rfl
      | true => exact absurd (contains_iff.mp hx) htab
    rw [f6]
    simp only [listAnswer, hct, Bool.false_eq_true, if_false]
    split
    · exact Or.inr ⟨.outOfPage, rfl⟩
    · exact Or.inl ⟨_, _, _, _, _, rfl⟩

def exPodTarget : Target := ⟨[], lit "v1", lit "prod", lit "pods", lit "web", []⟩
def exGet : HReq := { method := lit "GET", path := lit "/api/v1/namespaces/prod/pods/web", rawQuery := exList.rawQuery }

/-- The hypotheses of `C85_get` hold for the pod `web`, and the server has it. -/
example : exPodTarget.Valid ∧ exPodTarget.sub = [] ∧ exPodTarget.name ≠ [] ∧ exGet.path = exPodTarget.path ∧ Cacheable exStore (exPodTarget.aim exGet)
    ∧ lit "secret" <:+: lit "Bearer secret"
    ∧ proxy exEnv exStore (fun _ m => m) (parseQuery exGet.rawQuery) (exPodTarget.aim exGet) ≠ .refused .notFound := by
  have h : ∀ s ∈ exPodTarget.pieces, s ≠ [] ∧ (47 : UInt8) ∉ s ∧ s ≠ lit "." ∧ s ≠ lit ".." := by decide
  refine ⟨⟨h, by decide, by decide, by decide, by decide⟩, rfl, by decide, by decide,
    ⟨rfl, exList_cacheable.configured, exList_cacheable.readable, exList_cacheable.params⟩, ?_, ?_⟩
  · rw [← contains_iff]; decide
  · decide +kernel

/-- The hypotheses of `C85_list` hold for the second page of size one, and its status is 400. -/
example : (⟨[], lit "v1", [], lit "pods", [], []⟩ : Target).path = (exPaged "eyJwYWdlIjoyLCJwYWdlX3NpemUiOjF9").path
    ∧ Cacheable exStore ((⟨[], lit "v1", [], lit "pods", [], []⟩ : Target).aim (exPaged "eyJwYWdlIjoyLCJwYWdlX3NpemUiOjF9"))
    ∧ (∃ i, Reads (exPaged "eyJwYWdlIjoyLCJwYWdlX3NpemUiOjF9") i ∧ ValidPaging i.paginate)
    ∧ respond (fun _ => .fails) (proxy exEnv exStore (fun _ m => m) (parseQuery (exPaged "eyJwYWdlIjoyLCJwYWdlX3NpemUiOjF9").rawQuery)
        (exPaged "eyJwYWdlIjoyLCJwYWdlX3NpemUiOjF9")) = some ⟨some 400, [.json (.refused .outOfPage)]⟩ := by
  refine ⟨?_, ?_, ⟨⟨{ page := 2, pageSize := 1 }, some ⟨[], []⟩, none⟩, ?_, ?_⟩, ?_⟩
  · decide +kernel
  · exact exCacheable _ rfl (by decide +kernel) (by decide +kernel)
  · have h : parseSelector (scanQuery (parseQuery (exPaged "eyJwYWdlIjoyLCJwYWdlX3NpemUiOjF9").rawQuery)).selector
        = some ⟨{ page := 2, pageSize := 1 }, some ⟨[], []⟩, none⟩ := by decide +kernel
    exact (reads_scan (r := exPaged "eyJwYWdlIjoyLCJwYWdlX3NpemUiOjF9") (List.Perm.refl _) _).mpr h
  · right; decide
  · decide +kernel

end Ckube
