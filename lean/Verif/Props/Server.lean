import Verif.Lemmas.Server
import Verif.Props.Proxy
import Verif.Props.Stream

/-! # C50-C52, C68: tokens, failures, routing, answers of API servers -/

namespace Ckube

open Spec

variable {γ : Type}

/-! ## C50 -/

/-- **C50**: with a token configured, a request whose Authorization header does not contain it is answered 401 and no handler runs,
unless it asks for the health or the metrics. (Paths that are not clean are redirected to the clean one, `C50_redirect`.) -/
theorem C50_refused (hs : Handlers γ) {token m p authz : Str} (ht : token ≠ []) (ha : ¬ token <:+: authz) (hp : cleanPath p = p)
    (hopen : ¬ (m = lit "GET" ∧ p ∈ [lit "/healthy", lit "/metrics"])) :
    serveReq token hs m p authz = .answered (some ⟨some 401, [.unauthorized]⟩) none := by
  obtain ⟨r, vs, h1, h2, h3⟩ := routeOf_isSome m p
  have hc : contains authz token = false := by
    cases hx : contains authz token with
    | false => rfl
    | true => exact absurd (contains_iff.mp hx) ha
  have hauth : r.auth = true := by
    by_contra hn
    apply hopen
    simp only [routeTable, List.mem_cons, List.not_mem_nil, or_false] at h2
    rcases h2 with rfl | rfl | rfl | rfl | rfl | rfl | rfl | rfl | rfl | rfl | rfl | rfl | rfl
    · obtain ⟨e1, e2⟩ := matches_one rfl rfl h3
      exact ⟨by simpa using e2, by rw [e1]; decide⟩
    · obtain ⟨e1, e2⟩ := matches_one rfl rfl h3
      exact ⟨by simpa using e2, by rw [e1]; decide⟩
    all_goals exact absurd rfl hn
  have hr : answerRoute token r.auth authz (hs r.handler vs) = (some ⟨some 401, [.unauthorized]⟩, false) := by
    unfold answerRoute
    rw [if_pos ⟨hauth, ht, hc⟩, jsonResp_new 401 _ (by decide)]
  simp [serveReq, hp, h1, hr]

/-- Otherwise the handler of the route runs. -/
theorem C50_admitted (hs : Handlers γ) {token m p authz : Str} (hp : cleanPath p = p) (h : token = [] ∨ token <:+: authz) :
    ∃ resp x, serveReq token hs m p authz = .answered resp (some x) := by
  obtain ⟨r, vs, h1, _, _⟩ := routeOf_isSome m p
  have hr : (answerRoute token r.auth authz (hs r.handler vs)).2 = true := by
    unfold answerRoute
    rw [if_neg]
    rintro ⟨_, ht, hc⟩
    rcases h with h | h
    · exact ht h
    · rw [contains_iff.mpr h] at hc; simp at hc
  exact ⟨_, _, by simp [serveReq, hp, h1, hr]; exact ⟨rfl, rfl⟩⟩

/-- A path that is not clean runs no handler, whatever the header. -/
theorem C50_redirect (hs : Handlers γ) {token m p authz : Str} (hp : cleanPath p ≠ p) :
    serveReq token hs m p authz = .redirect (cleanPath p) := by
  simp [serveReq, hp]

/-- Handlers that return nothing. -/
def exHandlers : Handlers Unit := fun _ _ w => (w, .nil)

/-- The hypotheses are met: a list without token, with another token; and with the token; health needs none; a doubled slash is
redirected. -/
example : cleanPath (lit "/api/v1/pods") = lit "/api/v1/pods"
    ∧ ¬ lit "secret" <:+: lit "Bearer other"
    ∧ lit "secret" <:+: lit "Bearer secret"
    ∧ serveReq (lit "secret") exHandlers (lit "POST") (lit "/metrics") (lit "") = .answered (some ⟨some 401, [.unauthorized]⟩) none
    ∧ serveReq (lit "secret") exHandlers (lit "GET") (lit "/healthy") (lit "") = .answered (some ⟨none, []⟩) (some (.healthy, []))
    ∧ cleanPath (lit "//api/v1/./pods/") = lit "/api/v1/pods/" := by
  refine ⟨by decide +kernel, ?_, ?_, ?_, ?_, by decide +kernel⟩
  · rw [← contains_iff]; decide
  · rw [← contains_iff]; decide
  · exact C50_refused _ (by decide) (by rw [← contains_iff]; decide) (by decide +kernel) (by decide)
  · have h : routeOf (lit "GET") (lit "/healthy") routeTable
        = some (⟨[.txt (lit "healthy")], [lit "GET"], .healthy, false, false⟩, []) := rfl
    have hc : cleanPath (lit "/healthy") = lit "/healthy" := by decide +kernel
    simp [serveReq, hc, h, answerRoute, exHandlers, finish]

/-! ## C51 -/

/-- **C51**, contained: no panic leaves the function of a route. -/
theorem C51_contained (token : Str) (auth : Bool) (authz : Str) (h : Wr γ → Wr γ × HRes γ) :
    (answerRoute token auth authz h).1 ≠ none := by
  have h5 : ∀ w : Wr γ, recovered w ≠ none := by
    intro w
    unfold recovered jsonResp Wr.writeHeader
    split <;> simp
  unfold answerRoute
  split
  · rw [jsonResp_new 401 _ (by decide)]; simp
  · show finish (h {}).1 (h {}).2 ≠ none
    generalize (h {}).1 = w
    cases (h {}).2 with
    | crash => exact h5 w
    | nil => simp [finish]
    | err => exact h5 w
    | status code v =>
      simp only [finish]
      cases jsonResp w code (.json v) with
      | some w => simp
      | none => exact h5 w
    | bytes s => simp [finish]
    | value v =>
      simp only [finish, jsonResp, Wr.writeHeader]
      split <;> simp

/-- **C51**: a handler that panics or returns an error before it has written anything yields a 500 response. (So does a handler that
returns a status which is no HTTP status.) What has been sent cannot be taken back: `C51_false_after_write`. -/
theorem C51_failure_partial {token authz : Str} {auth : Bool} {h : Wr γ → Wr γ × HRes γ}
    (hrun : (answerRoute token auth authz h).2 = true) (hw : (h {}).1 = {})
    (hf : (h {}).2 = .crash ∨ (h {}).2 = .err ∨ ∃ code v, (h {}).2 = .status code v ∧ (code < 100 ∨ 999 < code)) :
    (answerRoute token auth authz h).1 = some ⟨some 500, [.failure]⟩ := by
  unfold answerRoute at hrun ⊢
  split
  · rename_i hc; rw [if_pos hc] at hrun; simp at hrun
  · show finish (h {}).1 (h {}).2 = _
    rw [hw]
    have h5 : recovered ({} : Wr γ) = some ⟨some 500, [.failure]⟩ := jsonResp_new 500 _ (by decide)
    rcases hf with hf | hf | ⟨code, v, hf, hc⟩
    · rw [hf]; exact h5
    · rw [hf]; exact h5
    · rw [hf]
      have hn : jsonResp ({} : Wr γ) code (.json v) = none := by simp [jsonResp, Wr.writeHeader, hc]
      simp only [finish, hn]
      exact h5

/-- The proxy fails only before it has written anything: its failures are 500 responses. -/
theorem C51_proxy {env : Env} {st : StoreI} {tord : Nat → List (Str × Str) → List (Str × Str)} {ord : Values} {up : Answer → UpRes} {r : HReq}
    {vs : Vars} {token authz : Str} {auth : Bool} (hrun : (answerRoute token auth authz (proxyHandler env st tord ord up r vs)).2 = true)
    (hf : (proxyHandler env st tord ord up r vs {}).2 = .crash ∨ (proxyHandler env st tord ord up r vs {}).2 = .err) :
    (answerRoute token auth authz (proxyHandler env st tord ord up r vs)).1 = some ⟨some 500, [.failure]⟩ := by
  refine C51_failure_partial hrun ?_ (hf.elim Or.inl fun h => Or.inr (Or.inl h))
  unfold proxyHandler proxyResult at hf ⊢
  have he : ∀ code (v : Answer), (errorProxy {} code v).2 = .crash ∨ (errorProxy {} code v).2 = .err →
      (errorProxy ({} : Wr Answer) code v).1 = {} := by
    intro code v h
    unfold errorProxy at h ⊢
    split at h <;> simp_all
  generalize proxy env st tord ord (r.withVars vs) = a at hf ⊢
  cases a with
  | crash => rfl
  | object o => rfl
  | list a b c d e => rfl
  | table a b => rfl
  | refused why => exact he _ _ hf
  | noCluster c => exact he _ _ hf
  | forward w c m p q b =>
    revert hf
    simp only
    cases up (.forward w c m p q b) with
    | ok code body => exact fun _ => rfl
    | status code => exact fun hf => he _ _ hf
    | fails => exact fun _ => rfl
    | stream rds => intro hf; simp at hf

/-- A panicking handler, and a status of 0. -/
example : (answerRoute (γ := Unit) [] true [] (fun w => (w, .crash))) = (some ⟨some 500, [.failure]⟩, true)
    ∧ (answerRoute (γ := Unit) [] true [] (fun w => (w, .status 0 ()))) = (some ⟨some 500, [.failure]⟩, true) := by
  decide

/-- The proxy on a method it cannot forward. -/
example : (answerRoute [] true [] (proxyHandler exEnv exStore (fun _ m => m) [] (fun _ => .fails)
      { method := lit "HEAD", path := lit "/api/v1/namespaces" } [])) = (some ⟨some 500, [.failure]⟩, true) := by
  decide +kernel

/-- **C51 is false** for a handler that fails after it has begun to write: the response keeps its status. No handler of ckube does
(`C51_proxy`; the other handlers write nothing before they fail). -/
theorem C51_false_after_write : (answerRoute (γ := Unit) [] true [] (fun w => (w.write (.bytes (lit "a")), .crash))).1
    = some ⟨some 200, [.bytes (lit "a"), .failure]⟩ := by
  decide

/-! ## C52 -/

/-- What the variables of a route should be for a path that denotes `t`. -/
def Spec.Target.Vars (t : Target) (r : HReq) : Prop :=
  r.group = t.group ∧ r.version = t.version ∧ r.resourceType = t.resource ∧ r.ns = t.ns ∧ r.resource = t.name

/-- The request reached the proxy without variables. -/
def Spec.NoVars (r : HReq) : Prop := r.group = [] ∧ r.version = [] ∧ r.resourceType = [] ∧ r.ns = [] ∧ r.resource = []

/-- The route of a path given by its pieces. -/
def routeSegs (m : Str) (segs : List Str) : List Route → Option (Route × Ckube.Vars)
  | [] => none
  | r :: rs =>
    match (if r.isPrefix then some [] else if m ∉ r.methods then none else matchSegs r.segs segs) with
    | some vs => some (r, vs)
    | none => routeSegs m segs rs

theorem routeOf_segs {m : Str} {segs : List Str} (h : ∀ s ∈ segs, IsPiece s) (rs : List Route) :
    routeOf m (pathText segs) rs = routeSegs m segs rs := by
  induction rs with
  | nil => rfl
  | cons r rs ih =>
    unfold routeOf routeSegs Route.matches
    rw [split_path h, ih]
    rfl

theorem lit_ne : lit "api" ≠ lit "apis" ∧ lit "healthy" ≠ lit "api" ∧ lit "metrics" ≠ lit "api" ∧ lit "custom" ≠ lit "api"
    ∧ lit "healthy" ≠ lit "apis" ∧ lit "metrics" ≠ lit "apis" ∧ lit "custom" ≠ lit "apis" := by decide

theorem get_allMethods : lit "GET" ∈ allMethods := by decide

/-- **C52**: a path without subresource reaches the proxy with the group, version, type, namespace and name it denotes. Missing for the full claim:
methods other than GET on the list path of a namespaced type outside the core group, which reach it without them
(`C52_false_method`). -/
theorem C52_variables_partial {t : Target} (hv : t.Valid) (hs : t.sub = []) {m : Str} (hm : m ∈ allMethods)
    (hget : m = lit "GET" ∨ t.group = [] ∨ t.ns = [] ∨ t.name ≠ []) (r : HReq) :
    ∃ rt vs, routeOf m t.path routeTable = some (rt, vs) ∧ rt.handler = .proxy ∧ t.Vars (r.withVars vs) := by
  obtain ⟨n1, n2, n3, n4, n5, n6, n7⟩ := lit_ne
  have hp := hv.pieces
  unfold Target.path
  rw [routeOf_segs hp]
  obtain ⟨g, v, ns, rs, name, sub⟩ := t
  simp only at hs hget
  subst hs
  have hv' : v ≠ [] := (hp v (by simp only [Target.pieces]; split <;> simp)).1
  have hr' : rs ≠ [] := (hp rs (by simp only [Target.pieces]; split <;> split <;> simp)).1
  by_cases hg : g = [] <;> by_cases hn : ns = [] <;> by_cases hna : name = []
  all_goals
    simp [Target.pieces, hg, hn, hna, routeSegs, routeTable, matchSegs, hv', hr', hm, n1, n2, n3, n4, n5, n6, n7, n1.symm]
  all_goals first
    | exact ⟨rfl, rfl, rfl, rfl, rfl⟩
    | (have hm : m = lit "GET" := by simpa [hg, hn, hna] using hget
       rw [if_pos hm]
       exact ⟨_, _, rfl, rfl, rfl, rfl, rfl, rfl, rfl⟩)

/-- **C52**, subresources: a path with a subresource reaches the proxy without variables, except the subresources of namespaces, which are taken for
a type of the name of the subresource (`C52_false_namespace`). -/
theorem C52_subresource_route {t : Target} (hv : t.Valid) (hs : t.sub ≠ []) (m : Str) (r : HReq) :
    ∃ rt vs, routeOf m t.path routeTable = some (rt, vs) ∧ rt.handler = .proxy
      ∧ (NoVars (r.withVars vs) ∨ ((r.withVars vs).resourceType ∈ nsSubresources ∧ t.resource = lit "namespaces" ∧ t.ns = [])) := by
  obtain ⟨n1, n2, n3, n4, n5, n6, n7⟩ := lit_ne
  have hp := hv.pieces
  unfold Target.path
  rw [routeOf_segs hp]
  have hname := hv.sub hs
  have hnss := hv.nsSub
  obtain ⟨g, v, ns, rs, name, sub⟩ := t
  simp only at hs hname hnss
  have hv' : v ≠ [] := (hp v (by simp only [Target.pieces]; split <;> simp)).1
  have hr' : rs ≠ [] := (hp rs (by simp only [Target.pieces]; split <;> split <;> simp)).1
  have hsub : ∀ s ∈ sub, s ≠ [] := fun s hx => (hp s (by simp only [Target.pieces]; simp [hx])).1
  obtain ⟨s1, ss, rfl⟩ : ∃ s1 ss, sub = s1 :: ss := by
    cases sub with
    | nil => exact absurd rfl hs
    | cons a b => exact ⟨a, b, rfl⟩
  have h1 : s1 ≠ [] := hsub s1 (by simp)
  have h2 : ∀ s2 ∈ ss.head?, s2 ≠ [] := fun s2 hx => hsub s2 (by
    cases ss with
    | nil => simp at hx
    | cons a b => simp at hx; simp [hx])
  have hin : ns = [] → lit "namespaces" = rs → s1 ∈ nsSubresources := fun e1 e2 => hnss e1 e2.symm s1 (by simp)
  by_cases hg : g = [] <;> by_cases hn : ns = [] <;> by_cases hm : m ∈ allMethods <;> by_cases hget : m = lit "GET"
    <;> by_cases hrs : lit "namespaces" = rs <;> rcases ss with _ | ⟨s2, _ | ⟨s3, ss⟩⟩
  all_goals
    simp at h2
    simp [Target.pieces, hg, hn, hname, routeSegs, routeTable, matchSegs, hv', hr', hm, h1, h2, hget, hrs, get_allMethods, n1, n2, n3, n4, n5, n6, n7,
      n1.symm]
  all_goals first
    | exact Or.inl ⟨rfl, rfl, rfl, rfl, rfl⟩
    | exact ⟨rfl, rfl, rfl, rfl, rfl⟩
    | exact Or.inr ⟨hin hn hrs, hrs.symm⟩
    | exact Or.inr (hin hn hrs)

/-- **C52**: a request for a subresource is never answered from the cache, as long as no type named like a subresource of namespaces and no type
without name is cached. -/
theorem C52_subresource_partial {t : Target} (hv : t.Valid) (hs : t.sub ≠ []) {env : Env} {st : StoreI}
    {tord : Nat → List (Str × Str) → List (Str × Str)} {ord : Values} {r : HReq} (hord : ord.Perm (parseQuery r.rawQuery)) (hp : r.path = t.path)
    (hm : r.method ∈ [lit "GET", lit "POST", lit "DELETE", lit "PUT", lit "PATCH"])
    (hst : ∀ g, st.isStoreGVR g = true → g.resource ∉ nsSubresources ∧ g.resource ≠ []) :
    ∃ rt vs, routeOf r.method r.path routeTable = some (rt, vs) ∧ rt.handler = .proxy
      ∧ ∃ c, Selects env (r.withVars vs) c ∧ Upstream env c (proxy env st tord ord (r.withVars vs)) := by
  obtain ⟨rt, vs, h1, h2, h3⟩ := C52_subresource_route hv hs r.method r
  refine ⟨rt, vs, by rw [hp]; exact h1, h2, ?_⟩
  refine C39_forwarded_partial (r := r.withVars vs) hord ?_ hm
  intro hc
  obtain ⟨g1, g2⟩ := hst _ hc.configured
  rcases h3 with h3 | h3
  · exact g2 h3.2.2.1
  · exact g1 h3.1

/-- The log of a pod, and a deployment in a namespace. -/
def exLog : Target := ⟨[], lit "v1", lit "prod", lit "pods", lit "web", [lit "log"]⟩
def exDeploy : Target := ⟨lit "apps", lit "v1", lit "prod", lit "deployments", lit "web", []⟩

/-- The hypotheses of `C52_variables_partial`, and what it is about. -/
example : exDeploy.Valid ∧ exDeploy.path = lit "/apis/apps/v1/namespaces/prod/deployments/web"
    ∧ (routeOf (lit "GET") exDeploy.path routeTable).map (·.2) = some [(lit "group", lit "apps"), (lit "version", lit "v1"), (lit "namespace", lit "prod"),
        (lit "resourceType", lit "deployments"), (lit "resource", lit "web")] := by
  have h : ∀ s ∈ exDeploy.pieces, s ≠ [] ∧ (47 : UInt8) ∉ s ∧ s ≠ lit "." ∧ s ≠ lit ".." := by decide
  exact ⟨⟨h, by decide, by decide, by decide, by decide⟩, by decide, by decide +kernel⟩

/-- The hypotheses of `C52_subresource_partial`: the log of a pod, with pods cached. -/
example : exLog.Valid ∧ exLog.sub ≠ [] ∧ exLog.path = lit "/api/v1/namespaces/prod/pods/web/log"
    ∧ (∀ g, exStore.isStoreGVR g = true → g.resource ∉ nsSubresources ∧ g.resource ≠ []) := by
  have h : ∀ s ∈ exLog.pieces, s ≠ [] ∧ (47 : UInt8) ∉ s ∧ s ≠ lit "." ∧ s ≠ lit ".." := by decide
  refine ⟨⟨h, by decide, by decide, by decide, by decide⟩, by decide, by decide, ?_⟩
  intro g hg
  have h2 : ∀ e ∈ (((newStore exConf).run exEval exHist).getD (newStore exConf)).data, e.1.resource ∉ nsSubresources ∧ e.1.resource ≠ [] := by
    decide +kernel
  have hg : (lookup g (((newStore exConf).run exEval exHist).getD (newStore exConf)).data).isSome = true := hg
  obtain ⟨v, hv⟩ := Option.isSome_iff_exists.mp hg
  exact h2 _ (mem_of_lookup hv)

/-- **C52 is false** for the subresources of namespaces: `/api/v1/namespaces/prod/status` reaches the proxy as the list of the type `status` in the
namespace. -/
theorem C52_false_namespace :
    (⟨[], lit "v1", [], lit "namespaces", lit "prod", [lit "status"]⟩ : Target).path = lit "/api/v1/namespaces/prod/status"
    ∧ (routeOf (lit "GET") (lit "/api/v1/namespaces/prod/status") routeTable).map (·.2)
      = some [(lit "version", lit "v1"), (lit "namespace", lit "prod"), (lit "resourceType", lit "status")] := by
  decide +kernel

/-- **C52 is false** for methods other than GET on the list of a namespaced type outside the core group: a creation reaches the proxy without group,
version, type and namespace. (It is forwarded all the same, `C40_never_from_cache`.) -/
theorem C52_false_method :
    (routeOf (lit "POST") (lit "/apis/apps/v1/namespaces/prod/deployments") routeTable).map (·.2) = some []
    ∧ (routeOf (lit "POST") (lit "/api/v1/namespaces/prod/pods") routeTable).map (·.2)
      = some [(lit "version", lit "v1"), (lit "namespace", lit "prod"), (lit "resourceType", lit "pods")] := by
  decide +kernel

/-! ## C68 -/

/-- The response to the client when the proxy's answer is `a`. -/
def respond (up : Answer → UpRes) (a : Answer) : Option (Wr Answer) := finish (proxyResult up a {}).1 (proxyResult up a {}).2

/-- **C68**: the answer of the API server arrives: the body of a successful one unchanged, the status of a failure the API server described. Missing
for the full claim: the status of a success is always 200 (`C68_false_created`); a failure without a description is a 500. -/
theorem C68_answer_partial {up : Answer → UpRes} {w : Bool} {c m p q b : Str} :
    (∀ code body, up (.forward w c m p q b) = .ok code body → respond up (.forward w c m p q b) = some ⟨some 200, [.bytes body]⟩)
    ∧ (∀ code, up (.forward w c m p q b) = .status code → 200 ≤ code → code ≤ 999 →
        respond up (.forward w c m p q b) = some ⟨some code, [.json (.forward w c m p q b)]⟩)
    ∧ (up (.forward w c m p q b) = .fails → respond up (.forward w c m p q b) = some ⟨some 500, [.failure]⟩) := by
  refine ⟨?_, ?_, ?_⟩
  · intro code body h
    simp [respond, proxyResult, h, finish, Wr.write]
  · intro code h h1 h2
    have e1 : ¬ (code < 100 ∨ 999 < code) := by omega
    have e2 : ¬ (code ≤ 199 ∧ code ≠ 101) := by omega
    simp [respond, proxyResult, h, finish, errorProxy, Wr.write, Wr.writeHeader, jsonResp, e1, e2]
  · intro h
    simp only [respond, proxyResult, h, finish]
    exact jsonResp_new 500 _ (by decide)

/-- **C68**, exactly: the status of a success arrives only if it is 200, and the status of a described failure only if it is 101 or one that is not
informational. Any other status of a failure becomes 200 (informational ones) or 500 (no status codes). -/
theorem C68_exact {up : Answer → UpRes} {w : Bool} {c m p q b : Str} :
    (∀ code body, up (.forward w c m p q b) = .ok code body →
      ((respond up (.forward w c m p q b)).bind (·.status) = some code ↔ code = 200))
    ∧ (∀ code, up (.forward w c m p q b) = .status code →
      ((respond up (.forward w c m p q b)).bind (·.status) = some code ↔ code = 101 ∨ (200 ≤ code ∧ code ≤ 999))
      ∧ (100 ≤ code → code ≤ 199 → code ≠ 101 → (respond up (.forward w c m p q b)).bind (·.status) = some 200)
      ∧ (code < 100 ∨ 999 < code → (respond up (.forward w c m p q b)).bind (·.status) = some 500)) := by
  refine ⟨?_, ?_⟩
  · intro code body h
    rw [C68_answer_partial.1 code body h]
    simp [eq_comm]
  · intro code h
    have hbad : code < 100 ∨ 999 < code → (respond up (.forward w c m p q b)).bind (·.status) = some 500 := by
      intro hc
      simp [respond, proxyResult, h, finish, errorProxy, Wr.writeHeader, hc, recovered, jsonResp, Wr.write]
    have hinfo : 100 ≤ code → code ≤ 199 → code ≠ 101 → (respond up (.forward w c m p q b)).bind (·.status) = some 200 := by
      intro h1 h2 h3
      have e1 : ¬ (code < 100 ∨ 999 < code) := by omega
      simp [respond, proxyResult, h, finish, errorProxy, Wr.write, Wr.writeHeader, jsonResp, e1, h2, h3]
    refine ⟨?_, hinfo, hbad⟩
    constructor
    · intro hs
      by_cases hc : code < 100 ∨ 999 < code
      · rw [hbad hc, Option.some.injEq] at hs; omega
      · by_cases hi : code ≤ 199 ∧ code ≠ 101
        · rw [hinfo (by omega) hi.1 hi.2, Option.some.injEq] at hs; omega
        · omega
    · intro hc
      have e1 : ¬ (code < 100 ∨ 999 < code) := by omega
      have e2 : ¬ (code ≤ 199 ∧ code ≠ 101) := by omega
      simp [respond, proxyResult, h, finish, errorProxy, Wr.write, Wr.writeHeader, jsonResp, e1, e2]

/-- A status that is none. -/
example : (respond (fun _ => .status 0) (.forward false (lit "c") (lit "GET") (lit "/x") [] [])).bind (·.status) = some 500
    ∧ (respond (fun _ => .status 409) (.forward false (lit "c") (lit "GET") (lit "/x") [] [])).bind (·.status) = some 409 := by
  decide +kernel

/-- The bytes written of a watch are the body of a 200 response. -/
theorem C68_stream {up : Answer → UpRes} {w : Bool} {c m p q b : Str} {rds : List Rd} (h : up (.forward w c m p q b) = .stream rds)
    (hne : (copyLoop [] rds).1 ≠ []) :
    respond up (.forward w c m p q b) = some ⟨some 200, (copyLoop [] rds).1.map .bytes⟩ := by
  have key : ∀ (l : List Str) (w : Wr Answer), w.status = some 200 →
      l.foldl (fun w s => w.write (.bytes s)) w = ⟨some 200, w.body ++ l.map .bytes⟩ := by
    intro l
    induction l with
    | nil => intro w hw; cases w; simp_all
    | cons s l ih =>
      intro w hw
      rw [List.foldl_cons, ih _ (by simp [Wr.write, hw])]
      simp [Wr.write]
  simp only [respond, proxyResult, h, finish]
  generalize (copyLoop [] rds).1 = l at hne ⊢
  cases l with
  | nil => exact absurd rfl hne
  | cons s l =>
    rw [List.foldl_cons, key _ _ (by simp [Wr.write])]
    simp [Wr.write]

/-- A conflict and a watch of one event. -/
example : respond (fun _ => .status 409) (.forward false (lit "c") (lit "POST") (lit "/x") [] []) =
      some ⟨some 409, [.json (.forward false (lit "c") (lit "POST") (lit "/x") [] [])]⟩
    ∧ respond (fun _ => .stream (exReads "{}\n")) (.forward true (lit "c") (lit "GET") (lit "/x") [] []) = some ⟨some 200, [.bytes (lit "{}\n")]⟩ := by
  decide +kernel

/-- **C68 is false**: a creation the API server answered with 201 is reported as 200. -/
theorem C68_false_created : respond (fun _ => .ok 201 (lit "{}")) (.forward false (lit "c") (lit "POST") (lit "/x") [] [])
    = some ⟨some 200, [.bytes (lit "{}")]⟩ := by
  decide +kernel

end Ckube
