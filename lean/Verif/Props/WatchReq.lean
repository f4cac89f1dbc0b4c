import Verif.Model.WatchReq
import Verif.Lemmas.Search
import Verif.Props.Server
import Verif.Props.Upstream

/-! # C125: a watcher asks for all objects of its type -/

namespace Ckube
open Spec

/-- The list of a type over all namespaces. -/
def Spec.listOf (g : GVR) : Target := { group := g.group, version := g.version, resource := g.resource }

/-- A text without meaning for URLs: no escapes, query or fragment, and no control characters. -/
def Spec.UrlPlain (s : Str) : Prop := ∀ b ∈ s, b ≠ 37 ∧ b ≠ 63 ∧ b ≠ 35 ∧ 32 ≤ b ∧ b ≠ 127

theorem pathUnescape_plain (s : Str) (h : ∀ b ∈ s, b ≠ 37) : pathUnescape s = some s := by
  induction s with
  | nil => rfl
  | cons c s ih =>
    rw [pathUnescape.eq_def]
    simp only [if_neg (h c (by simp)), ih fun b hb => h b (by simp [hb])]
    rfl

theorem cutByte_none {c : UInt8} {s : Str} (h : c ∉ s) : cutByte c s = (s, []) := by
  unfold cutByte
  rw [indexByte_none.mpr h]

theorem cutByte_app {c : UInt8} {a b : Str} (h : c ∉ a) : cutByte c (a ++ c :: b) = (a, b) := by
  unfold cutByte
  rw [indexByte_append h]
  simp

theorem watchURL_path (g : GVR) : watchURL g = (listOf g).path ++ 63 :: lit "watch=true" := by
  have e1 : lit "/api/" = 47 :: lit "api" ++ [47] := by decide +kernel
  have e2 : lit "/apis/" = 47 :: lit "apis" ++ [47] := by decide +kernel
  have e3 : lit "?watch=true" = 63 :: lit "watch=true" := by decide +kernel
  have e4 : lit "/" = [47] := by decide +kernel
  unfold watchURL Target.path Target.pieces pathText listOf
  by_cases hg : g.group = []
  · rw [if_pos hg, if_pos hg, e1, e3, e4]; simp
  · rw [if_neg hg, if_neg hg, e2, e3, e4]; simp

theorem urlPlain_path {g : GVR} (h : UrlPlain g.group ∧ UrlPlain g.version ∧ UrlPlain g.resource) : UrlPlain (listOf g).path := by
  have h0 : ∀ s ∈ [[47], lit "api", lit "apis"], ∀ b ∈ s, b ≠ 37 ∧ b ≠ 63 ∧ b ≠ 35 ∧ 32 ≤ b ∧ b ≠ 127 := by decide +kernel
  have hall : ∀ s ∈ (listOf g).pieces, UrlPlain s := by
    intro s hs
    unfold Target.pieces listOf at hs
    by_cases hg : g.group = []
    · simp only [if_pos hg, if_true, List.append_nil, List.cons_append, List.nil_append, List.mem_cons, List.not_mem_nil, or_false] at hs
      rcases hs with rfl | rfl | rfl
      · exact h0 _ (by simp)
      · exact h.2.1
      · exact h.2.2
    · simp only [if_neg hg, if_true, List.append_nil, List.cons_append, List.nil_append, List.mem_cons, List.not_mem_nil, or_false] at hs
      rcases hs with rfl | rfl | rfl | rfl
      · exact h0 _ (by simp)
      · exact h.1
      · exact h.2.1
      · exact h.2.2
  intro b hb
  unfold Target.path pathText at hb
  obtain ⟨l, hl, hb⟩ := List.mem_flatten.mp hb
  obtain ⟨s, hs, rfl⟩ := List.mem_map.mp hl
  rcases List.mem_cons.mp hb with rfl | hb
  · exact h0 [47] (by simp) _ (by simp)
  · exact hall s hs b hb

theorem watchQuery_eq : parseQuery (wireQuery (lit "watch=true") 3600) = [(lit "timeout", [lit "1h0m0s"]), (lit "watch", [lit "true"])] := by
  decide +kernel

theorem watchQuery_lookup (k : Str) : lookup k (parseQuery (wireQuery (lit "watch=true") 3600))
    = if k = lit "watch" then some [lit "true"] else if k = lit "timeout" then some [lit "1h0m0s"] else none := by
  rw [watchQuery_eq]
  have hne : lit "timeout" ≠ lit "watch" := by decide +kernel
  generalize lit "watch" = w at hne ⊢
  generalize lit "timeout" = t at hne ⊢
  generalize lit "true" = a
  generalize lit "1h0m0s" = b
  simp only [lookup]
  by_cases h1 : w = k
  · subst h1
    rw [if_neg hne, if_pos rfl, if_pos rfl]
  · rw [if_neg h1, if_neg (Ne.symm h1)]
    by_cases h2 : t = k
    · rw [if_pos h2, if_pos h2.symm]
    · rw [if_neg h2, if_neg (Ne.symm h2)]

/-- **C125**: the request of a watcher goes to the host of its cluster, to the path at which the Kubernetes API has the list of the type over all namespaces,
and asks for a watch without resource version, selector or limit: the API server reports everything it has and every change. Missing for the full claim: the path of the
server's address is lost (`C125_false_base_path`), and names are put into the URL without escaping (`C125_false_name`). -/
theorem C125_asks_partial (srv : Server) {g : GVR} (h : UrlPlain g.group ∧ UrlPlain g.version ∧ UrlPlain g.resource) :
    ∃ x, watchWire srv g = some x ∧ x.host = srv.host ∧ x.method = lit "GET" ∧ x.path = (listOf g).path ∧ x.body = []
      ∧ ∀ k : Str, lookup k (parseQuery x.rawQuery)
        = if k = lit "watch" then some [lit "true"] else if k = lit "timeout" then some [lit "1h0m0s"] else none := by
  have hp := urlPlain_path h
  have hq : ∀ b ∈ 63 :: lit "watch=true", b ≠ 37 ∧ b ≠ 35 ∧ 32 ≤ b ∧ b ≠ 127 := by decide +kernel
  have hall : ∀ b ∈ watchURL g, b ≠ 37 ∧ b ≠ 35 ∧ 32 ≤ b ∧ b ≠ 127 := by
    intro b hb
    rw [watchURL_path] at hb
    rcases List.mem_append.mp hb with hb | hb
    · obtain ⟨h1, _, h2, h3, h4⟩ := hp b hb
      exact ⟨h1, h2, h3, h4⟩
    · exact hq b hb
  have hany : (watchURL g).any (fun b => b < 32 || b = 127) = false := by
    rw [List.any_eq_false]
    intro b hb
    obtain ⟨_, _, h1, h2⟩ := hall b hb
    simp only [Bool.or_eq_true, decide_eq_true_eq, not_or]
    exact ⟨fun hc => absurd (UInt8.lt_of_lt_of_le hc h1) (UInt8.lt_irrefl _), h2⟩
  have hparse : parseURI (watchURL g) = some ((listOf g).path, lit "watch=true") := by
    unfold parseURI
    rw [hany]
    rw [cutByte_none (fun hm => (hall 35 hm).2.1 rfl)]
    simp only [Bool.false_eq_true, if_false]
    rw [watchURL_path, cutByte_app (fun hm => (hp 63 hm).2.1 rfl)]
    simp only
    rw [pathUnescape_plain _ (fun b hb => (hp b hb).1)]
    rfl
  obtain ⟨Q, hQ⟩ : ∃ Q, Q = wireQuery (lit "watch=true") 3600 := ⟨_, rfl⟩
  refine ⟨⟨srv.host, lit "GET", (listOf g).path, Q, [], lit "application/json, */*", []⟩, ?_, rfl, rfl, rfl, rfl, fun k => ?_⟩
  · unfold watchWire
    rw [hparse, Option.map_some, ← hQ]
  · have := watchQuery_lookup k
    rw [← hQ] at this
    exact this

/-- The path at which a watcher asks is the one at which clients of ckube ask for the same type: ckube's own router reads it as the list of the type
over all namespaces. -/
theorem C125_served {g : GVR} (hv : (listOf g).Valid) (r : HReq) :
    ∃ rt vs, routeOf (lit "GET") (listOf g).path routeTable = some (rt, vs) ∧ rt.handler = .proxy
      ∧ (r.withVars vs).gvr = g ∧ (r.withVars vs).ns = [] ∧ (r.withVars vs).resource = [] := by
  obtain ⟨rt, vs, h1, h2, h3, h4, h5, h6, h7⟩ := C52_variables_partial hv rfl get_allMethods (Or.inl rfl) r
  refine ⟨rt, vs, h1, h2, ?_, h6, h7⟩
  unfold HReq.gvr
  rw [h3, h4, h5]
  rfl

/-- Deployments, in the group apps, and pods, in the core group. -/
example : watchWire (exSrv (lit "c1")) ⟨lit "apps", lit "v1", lit "deployments"⟩
      = some ⟨lit "https://c1", lit "GET", lit "/apis/apps/v1/deployments", lit "timeout=1h0m0s&watch=true", [], lit "application/json, */*", []⟩
    ∧ watchWire (exSrv (lit "c1")) ⟨[], lit "v1", lit "pods"⟩
      = some ⟨lit "https://c1", lit "GET", lit "/api/v1/pods", lit "timeout=1h0m0s&watch=true", [], lit "application/json, */*", []⟩
    ∧ (listOf ⟨[], lit "v1", lit "pods"⟩).path = lit "/api/v1/pods"
    ∧ watchWire (exSrv (lit "c1")) ⟨[], lit "v1", lit "po%ds"⟩ = none := by
  decide +kernel

/-- **C125 is false** for a cluster whose server address has a path, here one behind a management platform: the watcher asks the platform itself, so that
the cluster is never cached, and lists of it are empty. -/
theorem C125_false_base_path : ∃ x, watchWire (exSrv (lit "c2")) ⟨[], lit "v1", lit "pods"⟩ = some x ∧ x.path = lit "/api/v1/pods"
    ∧ (exSrv (lit "c2")).basePath ++ (listOf ⟨[], lit "v1", lit "pods"⟩).path = lit "/k8s/clusters/c-x7/api/v1/pods" :=
  ⟨⟨lit "https://rancher", lit "GET", lit "/api/v1/pods", lit "timeout=1h0m0s&watch=true", [], lit "application/json, */*", []⟩,
    by decide +kernel, rfl, by decide +kernel⟩

/-- **C125 is false** for a type that is configured with a question mark: `watch=true` becomes part of another parameter, the API server answers with a list,
and the cache stays empty. -/
theorem C125_false_name : ∃ x, watchWire (exSrv (lit "c1")) ⟨[], lit "v1", lit "pods?labelSelector=app"⟩ = some x ∧ x.path = lit "/api/v1/pods"
    ∧ lookup (lit "watch") (parseQuery x.rawQuery) = none ∧ lookup (lit "labelSelector") (parseQuery x.rawQuery) = some [lit "app?watch=true"] :=
  ⟨⟨lit "https://c1", lit "GET", lit "/api/v1/pods", wireQuery (lit "labelSelector=app?watch=true") 3600, [], lit "application/json, */*", []⟩,
    by decide +kernel, rfl, by decide +kernel, by decide +kernel⟩

end Ckube
