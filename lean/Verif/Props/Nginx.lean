import Verif.Lemmas.Nginx
import Verif.Props.Server

/-! # C108: nginx in front of ckube -/

namespace Ckube
open Spec

variable {γ : Type}

/-- A path of a list or an object. (A newline at the end, which no name has, would not count.) -/
def Spec.ApiPath (p : Str) : Prop := ∃ t : Target, t.Plain ∧ (p = t.path ∨ p = t.path ++ [10])

/-- The paths of ckube's own. -/
def Spec.OwnPath (p : Str) : Prop := lit "/custom" <+: p ∨ lit "/metrics" <+: p ∨ lit "/healthy" <+: p

theorem api_not_own {p : Str} (h : ApiPath p) : ¬ OwnPath p := by
  obtain ⟨t, ht, hp⟩ := h
  have key : ∃ u, p = 47 :: 97 :: u := by
    have : ∃ u, t.path = 47 :: 97 :: u := by
      unfold Target.path Target.pieces
      by_cases hg : t.group = []
      · rw [if_pos hg]; exact ⟨_, rfl⟩
      · rw [if_neg hg]; exact ⟨_, rfl⟩
    obtain ⟨u, hu⟩ := this
    rcases hp with rfl | rfl
    · exact ⟨u, hu⟩
    · exact ⟨u ++ [10], by rw [hu]; rfl⟩
  obtain ⟨u, rfl⟩ := key
  have hc : lit "/custom" = 47 :: 99 :: lit "ustom" := by decide
  have hm : lit "/metrics" = 47 :: 109 :: lit "etrics" := by decide
  have hh : lit "/healthy" = 47 :: 104 :: lit "ealthy" := by decide
  rintro (h | h | h)
  · rw [hc, List.cons_prefix_cons, List.cons_prefix_cons] at h; exact absurd h.2.1 (by decide)
  · rw [hm, List.cons_prefix_cons, List.cons_prefix_cons] at h; exact absurd h.2.1 (by decide)
  · rw [hh, List.cons_prefix_cons, List.cons_prefix_cons] at h; exact absurd h.2.1 (by decide)

theorem own_iff (p : Str) : (hasPrefix p (lit "/custom") || hasPrefix p (lit "/metrics") || hasPrefix p (lit "/healthy")) = true ↔ OwnPath p := by
  simp only [hasPrefix, Bool.or_eq_true, List.isPrefixOf_iff_prefix, OwnPath, or_assoc]

theorem backend_iff (q : NginxReq) : nginxBackend q = .ckube ↔ q.method = lit "GET" ∧ ¬ AsksToWatch q.args := by
  have h1 : lit "G" ++ lit "N" = lit "GN" := by decide
  have h2 : lit "G" ≠ lit "GN" := by decide
  have h3 : lit "N" ≠ lit "GN" := by decide
  unfold nginxBackend nginxAct
  rw [← argWatch_iff]
  cases watchRx.search (argWatch q.args) <;> by_cases hm : q.method = lit "GET" <;> simp [hm, h1, h2, h3]
  all_goals first | exact absurd rfl (by decide) | decide

/-- **C108**, where requests go: to ckube go exactly the reads of lists and objects that do not ask for a watch, and what is meant for ckube; all
the rest goes to the API server. -/
theorem C108_routed (token : Str) (q : NginxReq) :
    (nginx token q).1 = .ckube ↔ (ApiPath q.path ∧ q.method = lit "GET" ∧ ¬ AsksToWatch q.args) ∨ OwnPath q.path := by
  have ha : apiRx.search q.path = true ↔ ApiPath q.path := api_search q.path
  unfold nginx
  simp only
  by_cases h : apiRx.search q.path = true
  · rw [if_pos h]
    have h' := ha.mp h
    show nginxBackend q = .ckube ↔ _
    rw [backend_iff]
    exact ⟨fun x => Or.inl ⟨h', x⟩, fun x => x.elim (·.2) fun o => absurd o (api_not_own h')⟩
  · rw [if_neg h]
    have h' : ¬ ApiPath q.path := fun x => h (ha.mpr x)
    by_cases ho : OwnPath q.path
    · rw [if_pos ((own_iff _).mpr ho)]
      exact ⟨fun _ => Or.inr ho, fun _ => rfl⟩
    · rw [if_neg (fun x => ho ((own_iff _).mp x))]
      simp [h', ho]

/-- **C108**: nginx changes at most the header Authorization, which it replaces by its own everywhere but on ckube's own paths. -/
theorem C108_kept (token : Str) (q : NginxReq) :
    (OwnPath q.path → (nginx token q).2 = q) ∧ (¬ OwnPath q.path → (nginx token q).2 = { q with authorization := lit "Bearer " ++ token }) := by
  unfold nginx
  simp only
  constructor
  · intro ho
    rw [if_neg, if_pos ((own_iff _).mpr ho)]
    exact fun h => api_not_own ((api_search _).mp h) ho
  · intro ho
    split
    · rfl
    · rw [if_neg (fun x => ho ((own_iff _).mp x))]

/-- What becomes of a request sent to nginx. -/
inductive Through (γ : Type) where
  /-- it reaches the API server of the cluster in which the container runs -/
  | kube (q : NginxReq)
  | ckube (x : Served γ)

/-- nginx with the service account's token `kt`, before a ckube with the token `token`. -/
def through (kt token : Str) (hs : Handlers γ) (q : NginxReq) : Through γ :=
  match nginx kt q with
  | (.kube, q') => .kube q'
  | (.ckube, q') => .ckube (serveReq token hs q'.method q'.path q'.authorization)

theorem through_read {kt token : Str} {hs : Handlers γ} {q : NginxReq} {t : Target} (ht : t.Plain) (hp : q.path = t.path) (hm : q.method = lit "GET")
    (hw : ¬ AsksToWatch q.args) : through kt token hs q = .ckube (serveReq token hs (lit "GET") t.path (lit "Bearer " ++ kt)) := by
  have hapi : ApiPath q.path := ⟨t, ht, Or.inl hp⟩
  have h1 := (C108_routed kt q).mpr (Or.inl ⟨hapi, hm, hw⟩)
  have h2 := (C108_kept kt q).2 (api_not_own hapi)
  unfold through
  generalize nginx kt q = x at h1 h2
  obtain ⟨b, q'⟩ := x
  simp only at h1 h2
  subst h1; subst h2
  simp only [hm, hp]

/-- **C108**, reads: a GET of a list or an object that does not ask for a watch reaches ckube's proxy with the group, version, type, namespace and name it
denotes, if ckube has no token. -/
theorem C108_read_partial {kt : Str} {hs : Handlers γ} {q : NginxReq} {t : Target} (ht : t.Plain) (hv : t.Valid) (hp : q.path = t.path)
    (hm : q.method = lit "GET") (hw : ¬ AsksToWatch q.args) (r : HReq) :
    ∃ vs resp, through kt [] hs q = .ckube (.answered resp (some (.proxy, vs))) ∧ t.Vars (r.withVars vs)
      ∧ resp = (answerRoute [] true [] (hs .proxy vs)).1 := by
  obtain ⟨rt, vs, h1, h2, h3⟩ := C52_variables_partial hv ht.sub get_allMethods (Or.inl rfl) r
  have hne : t.pieces ≠ [] := by unfold Target.pieces; split <;> simp
  have hcl : cleanPath t.path = t.path := cleanPath_path hne hv.pieces
  refine ⟨vs, _, ?_, h3, rfl⟩
  rw [through_read ht hp hm hw]
  unfold serveReq
  rw [if_neg (by simpa using hcl), h1]
  simp [answerRoute, h2]

/-- **C108**, the token: for reads the client's own header does not count. If ckube has a token, either every client is refused or every
client is admitted: it depends on whether the token of the service account contains ckube's. -/
theorem C108_token {kt token : Str} {hs : Handlers γ} {q : NginxReq} {t : Target} (ht : t.Plain) (hv : t.Valid) (hp : q.path = t.path)
    (hm : q.method = lit "GET") (hw : ¬ AsksToWatch q.args) (hk : token ≠ []) :
    (¬ token <:+: lit "Bearer " ++ kt → through kt token hs q = .ckube (.answered (some ⟨some 401, [.unauthorized]⟩) none))
    ∧ (token <:+: lit "Bearer " ++ kt → ∃ resp x, through kt token hs q = .ckube (.answered resp (some x))) := by
  have hne : t.pieces ≠ [] := by unfold Target.pieces; split <;> simp
  have hcl : cleanPath t.path = t.path := cleanPath_path hne hv.pieces
  rw [through_read ht hp hm hw]
  constructor
  · intro hn
    rw [C50_refused hs hk hn hcl]
    rintro ⟨_, h⟩
    refine api_not_own ⟨t, ht, Or.inl rfl⟩ ?_
    simp only [List.mem_cons, List.not_mem_nil, or_false] at h
    rcases h with h | h
    · exact Or.inr (Or.inr (by rw [h]))
    · exact Or.inr (Or.inl (by rw [h]))
  · intro hi
    obtain ⟨resp, x, h⟩ := C50_admitted hs hcl (Or.inr hi) (m := lit "GET")
    exact ⟨resp, x, by rw [h]⟩

/-- **C108**, writes and watches: they never reach ckube, whatever cluster they name; the API server of the cluster in which the container runs gets
them as they are, but for the header Authorization. -/
theorem C108_local {kt token : Str} {hs : Handlers γ} {q : NginxReq} (h : q.method ≠ lit "GET" ∨ AsksToWatch q.args) (ho : ¬ OwnPath q.path) :
    through kt token hs q = .kube { q with authorization := lit "Bearer " ++ kt } := by
  have h1 : ¬ (nginx kt q).1 = .ckube := by
    rw [C108_routed]
    rintro (⟨_, hm, hw⟩ | h')
    · exact h.elim (· hm) hw
    · exact ho h'
  have h2 := (C108_kept kt q).2 ho
  unfold through
  generalize nginx kt q = x at h1 h2
  obtain ⟨b, q'⟩ := x
  simp only at h1 h2
  subst h2
  cases b with
  | kube => rfl
  | ckube => exact absurd rfl h1

/-! ## Subresources -/

theorem pathText_inj {a b : List Str} (ha : ∀ s ∈ a, (47 : UInt8) ∉ s) (hb : ∀ s ∈ b, (47 : UInt8) ∉ s) (h : pathText a = pathText b) : a = b := by
  have h1 := splitByte_pathText a ha [] (by simp)
  have h2 := splitByte_pathText b hb [] (by simp)
  rw [List.nil_append] at h1 h2
  rw [h, h2] at h1
  simpa using h1.symm

theorem word_slash {s : Str} (h : IsWord s) : (47 : UInt8) ∉ s := fun hm => absurd (h.2 _ hm) (by decide)

/-- The pieces of a path that nginx takes for a list or an object. -/
theorem api_shape {segs : List Str} (hs : ∀ s ∈ segs, (47 : UInt8) ∉ s) (h : ApiPath (pathText segs)) :
    ∃ pre a b, segs = pre ++ a :: b ∧ ((∃ v, pre = [lit "api", v]) ∨ ∃ g v, g ≠ [] ∧ pre = [lit "apis", g, v])
      ∧ (b.length ≤ 1 ∨ (a = lit "namespaces" ∧ b.length ≤ 3)) := by
  obtain ⟨⟨g, v, n, rt, m, sub⟩, ⟨g1, v1, n1, r1, m1, s1⟩, hp⟩ := h
  simp only at g1 v1 n1 r1 m1 s1
  subst s1
  have ad : ∀ a b, pathText (a ++ b) = pathText a ++ pathText b := by intro a b; simp [pathText]
  have hword : ∀ x : Str, x = [] ∨ IsWord x → (47 : UInt8) ∉ x := fun x hx => hx.elim (fun h => by simp [h]) word_slash
  -- the end, with or without a newline
  have key : ∃ tl : List Str, (∀ s ∈ tl, (47 : UInt8) ∉ s) ∧ tl ≠ [] ∧ tl.length ≤ 2 ∧ segs = (if g = [] then [lit "api", v] else [lit "apis", g, v])
      ++ (if n = [] then [] else [lit "namespaces", n]) ++ tl := by
    have mk : ∀ tl : List Str, (∀ s ∈ tl, (47 : UInt8) ∉ s) → tl ≠ [] → tl.length ≤ 2 →
        pathText segs = pathText ((if g = [] then [lit "api", v] else [lit "apis", g, v]) ++ (if n = [] then [] else [lit "namespaces", n]) ++ tl) →
        ∃ tl : List Str, (∀ s ∈ tl, (47 : UInt8) ∉ s) ∧ tl ≠ [] ∧ tl.length ≤ 2 ∧ segs = (if g = [] then [lit "api", v] else [lit "apis", g, v])
          ++ (if n = [] then [] else [lit "namespaces", n]) ++ tl := by
      intro tl h1 h2 h3 h4
      refine ⟨tl, h1, h2, h3, pathText_inj hs ?_ h4⟩
      intro s hm
      rw [List.mem_append, List.mem_append] at hm
      rcases hm with (hm | hm) | hm
      · split at hm
        · simp only [List.mem_cons, List.not_mem_nil, or_false] at hm
          rcases hm with rfl | rfl
          · decide
          · exact word_slash v1
        · simp only [List.mem_cons, List.not_mem_nil, or_false] at hm
          rcases hm with rfl | rfl | rfl
          · decide
          · exact hword _ g1
          · exact word_slash v1
      · split at hm
        · simp at hm
        · simp only [List.mem_cons, List.not_mem_nil, or_false] at hm
          rcases hm with rfl | rfl
          · decide
          · exact hword _ n1
      · exact h1 s hm
    unfold Target.path Target.pieces at hp
    simp only [List.append_nil] at hp
    by_cases hm : m = []
    · rcases hp with hp | hp
      · exact mk [rt] (by simpa using word_slash r1) (by simp) (by simp) (by rw [hp, hm]; simp)
      · refine mk [rt ++ [10]] (by simpa using word_slash r1) (by simp) (by simp) ?_
        rw [hp, hm, if_pos rfl, List.append_nil, ad, ad _ [rt ++ [10]], List.append_assoc]
        simp [pathText]
    · rw [if_neg hm] at hp
      rcases hp with hp | hp
      · exact mk [rt, m] (by simp [word_slash r1, m1]) (by simp) (by simp) (by rw [hp, List.append_assoc]; rfl)
      · refine mk [rt, m ++ [10]] (by simp [word_slash r1, m1]) (by simp) (by simp) ?_
        rw [hp, List.append_assoc (_ ++ _) [rt] [m], ad, ad _ [rt, m ++ [10]], List.append_assoc]
        simp [pathText]
  obtain ⟨tl, h1, h2, h3, h4⟩ := key
  obtain ⟨x, xs, rfl⟩ := List.exists_cons_of_ne_nil h2
  have hpre : (∃ v', (if g = [] then [lit "api", v] else [lit "apis", g, v]) = [lit "api", v'])
      ∨ ∃ g' v', g' ≠ [] ∧ (if g = [] then [lit "api", v] else [lit "apis", g, v]) = [lit "apis", g', v'] := by
    by_cases hg : g = []
    · rw [if_pos hg]; exact Or.inl ⟨v, rfl⟩
    · rw [if_neg hg]; exact Or.inr ⟨g, v, hg, rfl⟩
  by_cases hn : n = []
  · rw [if_pos hn, List.append_nil] at h4
    exact ⟨_, x, xs, h4, hpre, Or.inl (by simpa using h3)⟩
  · rw [if_neg hn, List.append_assoc] at h4
    refine ⟨_, lit "namespaces", n :: x :: xs, h4, hpre, Or.inr ⟨rfl, ?_⟩⟩
    simp only [List.length_cons] at h3 ⊢
    omega

/-- **C108**, subresources: requests for logs, scales, statuses and so on go to the API server, whatever their method. Not so for the subresources of
namespaces, which look like lists (`C108_false_namespace`). -/
theorem C108_subresource {kt token : Str} {hs : Handlers γ} {q : NginxReq} {t : Target} (hv : t.Valid) (hsub : t.sub ≠ [])
    (hn : t.resource ≠ lit "namespaces") (hp : q.path = t.path) :
    through kt token hs q = .kube { q with authorization := lit "Bearer " ++ kt } := by
  have hname := hv.sub hsub
  have hno : ¬ ApiPath q.path := by
    intro h
    rw [hp] at h
    obtain ⟨pre, a, b, h1, h2, h3⟩ := api_shape (fun s hx => (hv.pieces s hx).2.1) h
    obtain ⟨g, v, ns, rs, name, sub⟩ := t
    simp only at hsub hn hname
    have l1 : lit "api" ≠ lit "apis" := by decide
    have hsl : 0 < sub.length := List.length_pos_of_ne_nil hsub
    unfold Target.pieces at h1
    simp only [if_neg hname] at h1
    by_cases hg : g = [] <;> by_cases hns : ns = []
    all_goals
      rcases h2 with ⟨v', rfl⟩ | ⟨g', v', _, rfl⟩ <;>
        simp only [hg, hns, if_true, if_false, List.nil_append, List.cons_append, List.append_assoc, List.cons.injEq, l1, Ne.symm l1, false_and] at h1
    · obtain ⟨-, -, rfl, rfl⟩ := h1
      rcases h3 with h3 | ⟨h3, _⟩
      · simp only [List.length_cons, List.length_append, List.length_nil] at h3; omega
      · exact hn h3
    · obtain ⟨-, -, rfl, rfl⟩ := h1
      rcases h3 with h3 | ⟨_, h3⟩
      · simp only [List.length_cons, List.length_append] at h3; omega
      · simp only [List.length_cons, List.length_append, List.length_nil] at h3; omega
    · obtain ⟨-, -, -, rfl, rfl⟩ := h1
      rcases h3 with h3 | ⟨h3, _⟩
      · simp only [List.length_cons, List.length_append, List.length_nil] at h3; omega
      · exact hn h3
    · obtain ⟨-, -, -, rfl, rfl⟩ := h1
      rcases h3 with h3 | ⟨_, h3⟩
      · simp only [List.length_cons, List.length_append] at h3; omega
      · simp only [List.length_cons, List.length_append, List.length_nil] at h3; omega
  have ho : ¬ OwnPath q.path := by
    rw [hp]
    have key : ∃ u, t.path = 47 :: 97 :: u := by
      unfold Target.path Target.pieces
      by_cases hg : t.group = []
      · rw [if_pos hg]; exact ⟨_, rfl⟩
      · rw [if_neg hg]; exact ⟨_, rfl⟩
    obtain ⟨u, hu⟩ := key
    rw [hu]
    have hc : lit "/custom" = 47 :: 99 :: lit "ustom" := by decide
    have hm : lit "/metrics" = 47 :: 109 :: lit "etrics" := by decide
    have hh : lit "/healthy" = 47 :: 104 :: lit "ealthy" := by decide
    rintro (h | h | h)
    · rw [hc, List.cons_prefix_cons, List.cons_prefix_cons] at h; exact absurd h.2.1 (by decide)
    · rw [hm, List.cons_prefix_cons, List.cons_prefix_cons] at h; exact absurd h.2.1 (by decide)
    · rw [hh, List.cons_prefix_cons, List.cons_prefix_cons] at h; exact absurd h.2.1 (by decide)
  have h1 : ¬ (nginx kt q).1 = .ckube := by
    rw [C108_routed]
    rintro (⟨h', _⟩ | h')
    · exact hno h'
    · exact ho h'
  have h2 := (C108_kept kt q).2 ho
  unfold through
  generalize nginx kt q = x at h1 h2
  obtain ⟨b, q'⟩ := x
  simp only at h1 h2
  subst h2
  cases b with
  | kube => rfl
  | ckube => exact absurd rfl h1

/-! ## Examples and what does not hold -/

/-- The pods of a namespace, a deployment, the log of a pod; a GET and its arguments. -/
def exNginxPods : Target := ⟨[], lit "v1", lit "prod", lit "pods", [], []⟩
def exNginxReq : NginxReq := ⟨lit "GET", lit "/api/v1/namespaces/prod/pods", lit "limit=500&watch=false", lit "Bearer client"⟩

example : exNginxPods.Plain ∧ exNginxPods.Valid ∧ exNginxReq.path = exNginxPods.path ∧ ¬ AsksToWatch exNginxReq.args
    ∧ AsksToWatch (lit "limit=500&Watch=TRUE") ∧ ¬ AsksToWatch (lit "watch=0&watch=1") := by
  have h : ∀ s ∈ exNginxPods.pieces, s ≠ [] ∧ (47 : UInt8) ∉ s ∧ s ≠ lit "." ∧ s ≠ lit ".." := by decide
  have hw : ∀ s : Str, (s ≠ [] ∧ ∀ c ∈ s, wordByte c = true) → IsWord s := fun s h => word_iff.mp h
  refine ⟨⟨Or.inl rfl, hw _ (by decide), Or.inr (hw _ (by decide)), hw _ (by decide), by decide, rfl⟩,
    ⟨h, by decide, by decide, by decide, by decide⟩, by decide, ?_, ?_, ?_⟩
  · rw [← argWatch_iff]; decide +kernel
  · rw [← argWatch_iff]; decide +kernel
  · rw [← argWatch_iff]; decide +kernel

/-- **C108 is false** for ckube's token: with the token `secret` a client without any is served when the service account's token happens to contain it,
and otherwise a client with the right token is refused. -/
theorem C108_false_token :
    (∃ resp x, through (lit "my-secret") (lit "secret") exHandlers ⟨lit "GET", lit "/api/v1/namespaces/prod/pods", [], []⟩ = .ckube (.answered resp (some x)))
    ∧ through (lit "other") (lit "secret") exHandlers ⟨lit "GET", lit "/api/v1/namespaces/prod/pods", [], lit "Bearer secret"⟩
      = .ckube (.answered (some ⟨some 401, [.unauthorized]⟩) none)
    ∧ ∃ resp x, serveReq (lit "secret") exHandlers (lit "GET") (lit "/api/v1/namespaces/prod/pods") (lit "Bearer secret")
      = .answered resp (some x) := by
  have hw : ∀ s : Str, (s ≠ [] ∧ ∀ c ∈ s, wordByte c = true) → IsWord s := fun s h => word_iff.mp h
  have h : ∀ s ∈ exNginxPods.pieces, s ≠ [] ∧ (47 : UInt8) ∉ s ∧ s ≠ lit "." ∧ s ≠ lit ".." := by decide
  have hp : exNginxPods.Plain := ⟨Or.inl rfl, hw _ (by decide), Or.inr (hw _ (by decide)), hw _ (by decide), by decide, rfl⟩
  have hv : exNginxPods.Valid := ⟨h, by decide, by decide, by decide, by decide⟩
  have hn : ¬ AsksToWatch [] := by rw [← argWatch_iff]; decide +kernel
  have hpath : lit "/api/v1/namespaces/prod/pods" = exNginxPods.path := by decide
  refine ⟨(C108_token hp hv hpath rfl hn (by decide)).2 (contains_iff.mp (by decide +kernel)),
    (C108_token hp hv hpath rfl hn (by decide)).1 (fun x => ?_), C50_admitted exHandlers (by decide +kernel) (Or.inr (contains_iff.mp (by decide +kernel)))⟩
  exact absurd (contains_iff.mpr x) (by decide +kernel)

/-- **C108 is false** for writes and watches of other clusters: a creation for the cluster `c2` (with the field manager ckube's client library gives it) and
a watch of `c2` reach the API server of the container's own cluster, where the name of the cluster means nothing. -/
theorem C108_false_cluster (kt token : Str) (hs : Handlers γ) :
    through kt token hs ⟨lit "POST", lit "/api/v1/namespaces/prod/pods", lit "fieldManager=dsm-cluster-c2", []⟩
      = .kube ⟨lit "POST", lit "/api/v1/namespaces/prod/pods", lit "fieldManager=dsm-cluster-c2", lit "Bearer " ++ kt⟩
    ∧ through kt token hs ⟨lit "GET", lit "/api/v1/namespaces/prod/pods", lit "resourceVersion=dsm-cluster-c2&watch=true", []⟩
      = .kube ⟨lit "GET", lit "/api/v1/namespaces/prod/pods", lit "resourceVersion=dsm-cluster-c2&watch=true", lit "Bearer " ++ kt⟩ := by
  have ho : ¬ OwnPath (lit "/api/v1/namespaces/prod/pods") := fun h => absurd ((own_iff _).mpr h) (by decide +kernel)
  refine ⟨C108_local (Or.inl (by decide)) ho, C108_local (Or.inr ?_) ho⟩
  rw [← argWatch_iff]; decide +kernel

/-- **C108 is false** for the subresources of namespaces: the status of the namespace `prod` is asked of ckube, as a list of the type `status` (C52). -/
theorem C108_false_namespace (kt : Str) : (nginx kt ⟨lit "GET", lit "/api/v1/namespaces/prod/status", [], []⟩).1 = .ckube := by
  have h : apiRx.search (lit "/api/v1/namespaces/prod/status") = true := by decide +kernel
  unfold nginx
  simp only
  rw [if_pos h]
  exact (backend_iff ⟨lit "GET", lit "/api/v1/namespaces/prod/status", [], []⟩).mpr ⟨rfl, by rw [← argWatch_iff]; decide +kernel⟩

/-- **C108 is false** for watches that are asked for in another way: `watch=t` is a watch for ckube (C97) but no watch for nginx. -/
theorem C108_false_watch (kt : Str) : (nginx kt ⟨lit "GET", lit "/api/v1/namespaces/prod/pods", lit "watch=t", []⟩).1 = .ckube := by
  have h : apiRx.search (lit "/api/v1/namespaces/prod/pods") = true := by decide +kernel
  unfold nginx
  simp only
  rw [if_pos h]
  exact (backend_iff ⟨lit "GET", lit "/api/v1/namespaces/prod/pods", lit "watch=t", []⟩).mpr ⟨rfl, by rw [← argWatch_iff]; decide +kernel⟩

example : exLog.Valid ∧ exLog.sub ≠ [] ∧ exLog.resource ≠ lit "namespaces"
    ∧ (∀ kt, (nginx kt ⟨lit "GET", lit "/api/v1/namespaces/prod/pods/web/log", [], []⟩).1 = .kube)
    ∧ (∀ kt, (nginx kt ⟨lit "GET", lit "/apis/apps/v1", [], []⟩).1 = .kube)
    ∧ (∀ kt, (nginx kt ⟨lit "GET", lit "/custom/v1/namespaces/prod/deployments/web/services", [], lit "a"⟩)
        = (.ckube, ⟨lit "GET", lit "/custom/v1/namespaces/prod/deployments/web/services", [], lit "a"⟩)) := by
  have h : ∀ s ∈ exLog.pieces, s ≠ [] ∧ (47 : UInt8) ∉ s ∧ s ≠ lit "." ∧ s ≠ lit ".." := by decide
  refine ⟨⟨h, by decide, by decide, by decide, by decide⟩, by decide, by decide, fun kt => ?_, fun kt => ?_, fun kt => ?_⟩
  · have h1 : apiRx.search (lit "/api/v1/namespaces/prod/pods/web/log") = false := by decide +kernel
    have h2 : (hasPrefix (lit "/api/v1/namespaces/prod/pods/web/log") (lit "/custom") || hasPrefix (lit "/api/v1/namespaces/prod/pods/web/log") (lit "/metrics")
      || hasPrefix (lit "/api/v1/namespaces/prod/pods/web/log") (lit "/healthy")) = false := by decide +kernel
    simp only [nginx, h1, h2]; simp
  · have h1 : apiRx.search (lit "/apis/apps/v1") = false := by decide +kernel
    have h2 : (hasPrefix (lit "/apis/apps/v1") (lit "/custom") || hasPrefix (lit "/apis/apps/v1") (lit "/metrics")
      || hasPrefix (lit "/apis/apps/v1") (lit "/healthy")) = false := by decide +kernel
    simp only [nginx, h1, h2]; simp
  · have h1 : apiRx.search (lit "/custom/v1/namespaces/prod/deployments/web/services") = false := by decide +kernel
    have h2 : hasPrefix (lit "/custom/v1/namespaces/prod/deployments/web/services") (lit "/custom") = true := by decide +kernel
    simp only [nginx, h1, h2]; simp

end Ckube
