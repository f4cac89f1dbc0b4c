import Verif.Lemmas.Upstream
import Verif.Props.Proxy

/-! # C78, C79: requests as the API server receives them, and how long they may last -/

namespace Ckube
open Spec

variable {env : Env} {st : StoreI} {tord : Nat → List (Str × Str) → List (Str × Str)} {ord : Values} {r : HReq}

/-! ## C78 -/

/-- **C78**: what client-go sends for a forwarded request goes to the host of the selected cluster with the method and
path of the client's request, and with its query parameters apart from `timeout`, cluster markers and `labelSelector`; the
body arrives unless the request is streamed, and the content type of a PATCH. `timeout` is always the one
client-go was given. Missing for the full claim (`Spec.Arrived`): the path of the server's address
(`C78_false_base_path`), `timeout` (`C78_false_timeout`), Accept and the content type of other methods (`C78_false_headers`) and the
body of streamed requests (`C78_false_body`). -/
theorem C78_arrives_partial (srv : Str → Server) (h : Headers) (secs : Nat) (hord : ord.Perm (parseQuery r.rawQuery)) {x : Wire}
    (hx : wire srv h secs (proxy env st tord ord r) = some x) :
    ∃ w c m p q b, proxy env st tord ord r = .forward w c m p q b
      ∧ x.host = (srv c).host ∧ x.method = r.method
      ∧ ((srv c).basePath = [] → x.path = (srv c).basePath ++ r.path)
      ∧ (w = false → r.method ≠ lit "GET" → r.method ≠ lit "DELETE" → x.body = r.body)
      ∧ (r.method = lit "PATCH" → x.contentType = h.contentType)
      ∧ (∀ k, k ≠ lit "labelSelector" → k ≠ lit "timeout" → (k ∈ markerKeys → ∀ c', ¬ First r.rawQuery k (marker c')) →
          lookup k (parseQuery x.rawQuery) = lookup k (parseQuery r.rawQuery))
      ∧ (secs ≠ 0 → lookup (lit "timeout") (parseQuery x.rawQuery) = some [durText secs]) := by
  generalize ha : proxy env st tord ord r = a at hx
  cases a with
  | forward w c m p q b =>
    obtain ⟨h1, h2, h3, h4⟩ := C67_forwarded_unchanged_partial hord ha
    simp only [wire, Option.some.injEq] at hx
    subst hx
    refine ⟨w, c, m, p, q, b, rfl, rfl, h1, ?_, ?_, ?_, ?_, ?_⟩
    · intro hb; rw [hb]; exact h2
    · intro hw g1 g2; simp only [hw]; exact h3 g1 g2
    · intro hm; simp only [h1, hm, if_true]
    · intro k hl ht hmk
      rw [lookup_wireQuery _ _ ht]
      exact h4 k hl (fun _ => ht) hmk
    · exact fun hs => lookup_wireQuery_timeout q hs
  | noCluster _ | object _ | refused _ | list _ _ _ _ _ | table _ _ | crash => simp [wire] at hx

/-- Servers of the examples: one at the root of its host, one below a path as management platforms have it. -/
def exSrv (c : Str) : Server :=
  if c = lit "c2" then ⟨lit "https://rancher", lit "/k8s/clusters/c-x7"⟩ else ⟨lit "https://" ++ c, []⟩

/-- A PATCH to the default cluster as it arrives. -/
example : wire exSrv ⟨lit "application/merge-patch+json", lit "application/json"⟩ 60
      (proxy exEnv exStore (fun _ m => m) (parseQuery (lit "fieldManager=kubectl&pretty=true"))
        { method := lit "PATCH", path := lit "/api/v1/namespaces/prod/pods/web", rawQuery := lit "fieldManager=kubectl&pretty=true",
          body := lit "{}" })
    = some ⟨lit "https://c1", lit "PATCH", lit "/api/v1/namespaces/prod/pods/web",
        lit "fieldManager=kubectl&pretty=true&timeout=1m0s", lit "application/merge-patch+json",
        lit "application/json, */*", lit "{}"⟩ := by
  decide +kernel

/-- **C78 is false** for a cluster whose server address has a path: the path is lost, here that of a cluster behind a
management platform. -/
theorem C78_false_base_path :
    let r : HReq := { method := lit "GET", path := lit "/api/v1/nodes" , rawQuery := lit "cluster=c2" }
    ∃ x, wire exSrv ⟨[], lit "application/json, */*"⟩ 60 (proxy exEnv exStore (fun _ m => m) (parseQuery r.rawQuery) r) = some x
      ∧ x.host = (exSrv (lit "c2")).host ∧ x.path = lit "/api/v1/nodes"
      ∧ (exSrv (lit "c2")).basePath ++ r.path = lit "/k8s/clusters/c-x7/api/v1/nodes"
      ∧ ¬ Arrived (exSrv (lit "c2")) ⟨[], lit "application/json, */*"⟩ r x := by
  refine ⟨⟨lit "https://rancher", lit "GET", lit "/api/v1/nodes", lit "cluster=c2&timeout=1m0s", [], lit "application/json, */*", []⟩,
    by decide +kernel, by decide +kernel, by decide +kernel, by decide +kernel, fun h => ?_⟩
  exact absurd h.path (by decide +kernel)

/-- **C78 is false** for the parameter `timeout`: whatever the client asks for, the API server is told one minute. -/
theorem C78_false_timeout :
    let r : HReq := { method := lit "GET", path := lit "/api/v1/nodes", rawQuery := lit "timeout=5s" }
    ∃ x, wire exSrv ⟨[], lit "application/json, */*"⟩ 60 (proxy exEnv exStore (fun _ m => m) (parseQuery r.rawQuery) r) = some x
      ∧ lookup (lit "timeout") (parseQuery r.rawQuery) = some [lit "5s"]
      ∧ lookup (lit "timeout") (parseQuery x.rawQuery) = some [lit "1m0s"]
      ∧ ¬ Arrived (exSrv (lit "c1")) ⟨[], lit "application/json, */*"⟩ r x := by
  refine ⟨⟨lit "https://c1", lit "GET", lit "/api/v1/nodes", lit "timeout=1m0s", [], lit "application/json, */*", []⟩,
    by decide +kernel, by decide +kernel, by decide +kernel, fun h => ?_⟩
  exact absurd (h.params (lit "timeout") (by decide +kernel) (fun hm => absurd hm (by decide +kernel))) (by decide +kernel)

/-- **C78 is false** for headers: a creation in YAML arrives without its content type, so that the API server takes it for JSON,
and the Accept header is that of client-go. -/
theorem C78_false_headers :
    let r : HReq := { method := lit "POST", path := lit "/api/v1/namespaces/prod/pods", body := lit "kind: Pod" }
    let h : Headers := ⟨lit "application/yaml", lit "application/yaml"⟩
    ∃ x, wire exSrv h 60 (proxy exEnv exStore (fun _ m => m) [] r) = some x
      ∧ x.body = r.body ∧ x.contentType = [] ∧ x.contentType ≠ h.contentType ∧ x.accept ≠ h.accept
      ∧ ¬ Arrived (exSrv (lit "c1")) h r x := by
  refine ⟨⟨lit "https://c1", lit "POST", lit "/api/v1/namespaces/prod/pods", lit "timeout=1m0s", [], lit "application/json, */*", lit "kind: Pod"⟩,
    by decide +kernel, by decide +kernel, by decide +kernel, by decide +kernel, by decide +kernel, fun h => ?_⟩
  exact absurd h.contentType (by decide +kernel)

/-- **C78 is false** for a creation in a namespace named `watch`: the request is taken for a watch and sent without its body. -/
theorem C78_false_body :
    let r : HReq := { method := lit "POST", path := lit "/api/v1/namespaces/watch/pods", body := lit "{\"kind\":\"Pod\"}" }
    ∃ x, wire exSrv ⟨[], lit "application/json, */*"⟩ 1800 (proxy exEnv exStore (fun _ m => m) [] r) = some x ∧ x.method = lit "POST" ∧ x.body = []
      ∧ ¬ Arrived (exSrv (lit "c1")) ⟨[], lit "application/json, */*"⟩ r x := by
  refine ⟨⟨lit "https://c1", lit "POST", lit "/api/v1/namespaces/watch/pods", lit "timeout=30m0s", [], lit "application/json, */*", []⟩,
    by decide +kernel, by decide +kernel, by decide +kernel, fun h => ?_⟩
  exact absurd (h.body (by decide +kernel) (by decide +kernel)) (by decide +kernel)

/-! ## C79 -/

/-- **C79**: a request has its own timeout, both as the parameter it sends and as its deadline, if between its store of the timeout
and its sending no request of the other kind to the same cluster stores its own. Missing for the full claim:
`C79_false`. -/
theorem C79_own_partial {cell : Str → Nat} {s : SendState} {pre mid post : List SendStep} {i : Nat} {w : Bool} {c : Str}
    (hr : SendState.run ⟨cell, []⟩ (pre ++ .store i :: mid ++ .send i :: post) = some s)
    (hi : (started (pre ++ .store i :: mid ++ .send i :: post))[i]? = some (w, c))
    (hmid : ∀ j, .store j ∈ mid → ∀ w', (started (pre ++ .store i :: mid ++ .send i :: post))[j]? = some (w', c) → w' = w) :
    s.reqs[i]? = some ⟨w, c, .sent (limit w) (limit w)⟩ := by
  have hkeys : s.reqs.map SendReq.key = started (pre ++ .store i :: mid ++ .send i :: post) := by
    simpa using SendState.run_keys hr
  rw [← hkeys] at hi hmid
  rw [List.append_assoc, List.cons_append, SendState.run_append] at hr
  simp only [Option.bind_eq_some_iff, SendState.run] at hr
  obtain ⟨s1, -, s2, h2, h3⟩ := hr
  rw [SendState.run_append] at h3
  simp only [Option.bind_eq_some_iff, SendState.run] at h3
  obtain ⟨s3, h3, s4, h4, h5⟩ := h3
  have key {a : SendState} {ys : List SendStep} {n : Nat} {k : Bool × Str} (ha : a.run ys = some s)
      (hk : (a.reqs.map SendReq.key)[n]? = some k) : (s.reqs.map SendReq.key)[n]? = some k := SendState.prefix_key ha hk
  have r4 : s3.run (.send i :: post) = some s := by simp [SendState.run, h4, h5]
  have o2 : s2.Own i w c := by
    have r2 : s2.run (mid ++ .send i :: post) = some s := by simp [SendState.run_append, h3, r4]
    simp only [SendState.step] at h2
    split at h2
    · next w' c' hi' =>
      simp only [Option.some.injEq] at h2
      have hlt := (List.getElem?_eq_some_iff.mp hi').1
      have e : s2.reqs[i]? = some ⟨w', c', .stored⟩ := by subst h2; simp [List.getElem?_set_self hlt]
      have := key r2 (n := i) (k := (w', c')) (by simp [e, SendReq.key])
      rw [hi] at this
      simp only [Option.some.injEq, Prod.mk.injEq] at this
      obtain ⟨rfl, rfl⟩ := this
      exact ⟨_, e, .inl ⟨rfl, by subst h2; simp⟩⟩
    · simp at h2
  have o3 : s3.Own i w c := o2.run h3 fun j hj w' hk => hmid j hj w' (key r4 hk)
  have o4 : s4.Own i w c := o3.step h4 (by intro j e; simp at e)
  obtain ⟨ph, e4, hp⟩ := o4
  have hl : limit w = ownTimeout w := by cases w <;> rfl
  rcases hp with ⟨rfl, _⟩ | ⟨rfl, _⟩ | rfl
  · exfalso
    simp only [SendState.step] at h4
    split at h4
    · next w' c' p hi' =>
      simp only [Option.some.injEq] at h4; subst h4
      simp [List.getElem?_set_self (List.getElem?_eq_some_iff.mp hi').1] at e4
    · simp at h4
  · exfalso
    simp only [SendState.step] at h4
    split at h4
    · next w' c' p hi' =>
      simp only [Option.some.injEq] at h4; subst h4
      simp [List.getElem?_set_self (List.getElem?_eq_some_iff.mp hi').1] at e4
    · simp at h4
  · rw [hl]
    exact SendState.run_sent h5 e4

/-- **C79** for requests that are no watches: however the steps of requests alternate, they may last one minute. A watch
may last thirty minutes or one. -/
theorem C79_plain {cell : Str → Nat} {s : SendState} {xs : List SendStep} (hr : SendState.run ⟨cell, []⟩ xs = some s)
    {i p d : Nat} {w : Bool} {c : Str} (hi : s.reqs[i]? = some ⟨w, c, .sent p d⟩) :
    (w = false → d = limit false) ∧ (w = true → d = limit true ∨ d = limit false) := by
  have := SendState.ok_run hr (by simp) _ (List.mem_of_getElem? hi)
  cases w with
  | false => exact ⟨fun _ => this.2, by simp⟩
  | true => exact ⟨by simp, fun _ => this.2.symm⟩

/-- Two watches of one cluster and a request of another between the steps of a watch. -/
example :
    let xs : List SendStep := [.start true (lit "c1"), .start false (lit "c1"), .store 1, .store 0, .start true (lit "c1"), .store 2,
      .start false (lit "c2"), .store 3, .build 0, .build 1, .send 0]
    (SendState.run ⟨fun _ => 0, []⟩ xs).map (·.reqs) = some [⟨true, lit "c1", .sent 1800 1800⟩, ⟨false, lit "c1", .built 1800⟩,
      ⟨true, lit "c1", .stored⟩, ⟨false, lit "c2", .stored⟩] := by
  decide +kernel

/-- **C79 is false** when another request to the same cluster is between the two steps: the watch is cut off after a minute and
tells the API server so. -/
theorem C79_false :
    let xs : List SendStep := [.start true (lit "c1"), .start false (lit "c1"), .store 0, .store 1, .build 0, .send 0]
    (SendState.run ⟨fun _ => 0, []⟩ xs).map (·.reqs) = some [⟨true, lit "c1", .sent 60 60⟩, ⟨false, lit "c1", .stored⟩]
    ∧ limit true = 1800 := by
  decide +kernel

end Ckube
