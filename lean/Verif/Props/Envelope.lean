import Verif.Spec.Envelope
import Verif.Props.ProxyList

/-! # C84: lists say what they are -/

namespace Ckube
open Spec

variable {env : Env} {st : StoreI} {tord : Nat → List (Str × Str) → List (Str × Str)} {ord : Values} {r : HReq}

theorem apiVersionOf_is {g : GVR} (hg : (47 : UInt8) ∉ g.group) (hv : (47 : UInt8) ∉ g.version) :
    GroupVersionIs (apiVersionOf g) g.group g.version := by
  unfold apiVersionOf GroupVersionIs
  split
  · rename_i h; exact Or.inl ⟨hv, h, rfl⟩
  · rename_i h; exact Or.inr ⟨rfl, h, hg, hv⟩

theorem gvrKind_is {ps : List ProxyConf} {g : GVR} {kind : Str} (h : ListKindIs ps g kind) :
    gvrKind ps g.group g.version g.resource = kind := by
  obtain ⟨⟨p, hp, h1, h2, h3⟩, hall⟩ := h
  unfold gvrKind
  cases hf : ps.find? fun p => p.group = g.group && p.version = g.version && p.resource = g.resource with
  | none =>
    have := List.find?_eq_none.mp hf p hp
    simp [h1, h2, h3] at this
  | some q =>
    have hq := List.find?_some hf
    simp only [Bool.and_eq_true, decide_eq_true_eq] at hq
    exact hall q (List.mem_of_find?_eq_some hf) hq.1.1 hq.1.2 hq.2

/-- A list is only answered by the last step of `Proxy`. -/
theorem proxy_list_head {v k l : Str} {rc : Int} {items : List Obj} (ha : proxy env st tord ord r = .list v k l rc items) :
    v = apiVersionOf r.gvr ∧ k = gvrKind env.proxies r.group r.version r.resourceType ∧ l = r.path
      ∧ contains r.accept (lit "application/json;as=Table") = false := by
  have pass : ∀ c q b, proxyPass env r c q b ≠ .list v k l rc items := by
    intro c q b
    simp only [proxyPass, send]
    repeat' split
    all_goals simp
  unfold proxy at ha
  split at ha
  · exact absurd ha (pass _ _ _)
  · split at ha
    · exact absurd ha (pass _ _ _)
    · split at ha
      · exact absurd ha (pass _ _ _)
      · split at ha
        · simp only [proxySingle] at ha
          split at ha <;> simp at ha
        · simp only [proxyList] at ha
          generalize listItems _ _ _ _ = li at ha
          unfold listAnswer at ha
          split at ha
          · simp at ha
          · simp at ha
          · split at ha
            · simp at ha
            · split at ha
              · simp only [serverPrint] at ha
                split at ha <;> simp at ha
              · rename_i hacc
                simp only [Answer.list.injEq] at ha
                exact ⟨ha.1.symm, ha.2.1.symm, ha.2.2.1.symm, by simpa using hacc⟩

/-- **C84**: a list from the cache says of which group, version and kind it is, and under which path it was asked for. -/
theorem C84_head (hg : (47 : UInt8) ∉ r.group) (hv : (47 : UInt8) ∉ r.version) {kind : Str} (hk : ListKindIs env.proxies r.gvr kind)
    {v k l : Str} {rc : Int} {items : List Obj} (ha : proxy env st tord ord r = .list v k l rc items) :
    GroupVersionIs v r.group r.version ∧ k = kind ∧ l = r.path := by
  obtain ⟨h1, h2, h3, -⟩ := proxy_list_head ha
  subst h1 h3
  exact ⟨apiVersionOf_is (g := r.gvr) hg hv, by rw [h2, ← gvrKind_is hk]; rfl, rfl⟩

/-- A list of a configured type of a named group. -/
example :
    let env : Env := { exEnv with proxies := [⟨[], lit "v1", lit "pods", lit "PodList", []⟩, ⟨lit "apps", lit "v1", lit "deployments", lit "DeploymentList", []⟩] }
    let st : StoreI := { isStoreGVR := fun _ => true, get := fun _ _ _ _ => none, query := fun _ _ => some { total := 0 } }
    let r : HReq := { method := lit "GET", path := lit "/apis/apps/v1/deployments", group := lit "apps", version := lit "v1", resourceType := lit "deployments" }
    ListKindIs env.proxies r.gvr (lit "DeploymentList")
    ∧ proxy env st (fun _ m => m) [] r = .list (lit "apps/v1") (lit "DeploymentList") (lit "/apis/apps/v1/deployments") 0 [] := by
  refine ⟨⟨?_, ?_⟩, by decide +kernel⟩
  · exact ⟨_, List.mem_cons_of_mem _ List.mem_cons_self, rfl, rfl, rfl⟩
  · decide +kernel

end Ckube
