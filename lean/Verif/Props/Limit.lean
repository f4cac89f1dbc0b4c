import Verif.Props.Federation
import Verif.Model.Wire

/-! # C98: lists that are read in chunks -/

namespace Ckube
open Spec

variable {env : Env} {st : StoreI} {tord : Nat → List (Str × Str) → List (Str × Str)} {ord ord' : Values} {r r' : HReq}

/-- The parameters of a list that say how much of it, and how fast, is wanted. -/
def Spec.sizeKeys : List Str := [lit "limit", lit "timeout", lit "timeoutSeconds"]

/-- The two requests differ at most in these parameters (and in how the query is written down). -/
def Spec.SameRequest (r r' : HReq) : Prop :=
  r' = { r with rawQuery := r'.rawQuery }
    ∧ ∀ k, k ∉ sizeKeys → ∀ v, First r.rawQuery k v ↔ First r'.rawQuery k v

theorem sizeKeys_plain {k : Str} (hk : k ∈ [lit "labelSelector", lit "cluster"] ∨ k ∈ markerKeys) : k ∉ sizeKeys := by
  simp only [markerKeys, List.mem_cons, List.not_mem_nil, or_false] at hk
  rcases hk with (rfl | rfl) | (rfl | rfl) <;> decide

theorem cacheable_same (h : SameRequest r r') (hc : Cacheable st r) : Cacheable st r' := by
  obtain ⟨h0, h1⟩ := h
  refine ⟨by rw [h0]; exact hc.get, by rw [h0]; exact hc.configured, ?_, ?_⟩
  · intro v hv
    exact hc.readable v ((h1 _ (sizeKeys_plain (Or.inl (by simp))) v).mpr hv)
  · intro k v hv
    by_cases hk : k ∈ sizeKeys
    · left
      simp only [sizeKeys, List.mem_cons, List.not_mem_nil, or_false] at hk
      rcases hk with rfl | rfl | rfl <;> simp
    · exact hc.params k v ((h1 k hk v).mpr hv)

theorem reads_same (h : SameRequest r r') (i : SelInfo) : Reads r i ↔ Reads r' i := by
  have h1 := h.2 (lit "labelSelector") (sizeKeys_plain (Or.inl (by simp)))
  unfold Reads
  simp only [h1]

theorem selects_same (h : SameRequest r r') (c : Str) : Selects env r c ↔ Selects env r' c := by
  have h1 := h.2 (lit "labelSelector") (sizeKeys_plain (Or.inl (by simp)))
  have h2 := h.2 (lit "cluster") (sizeKeys_plain (Or.inl (by simp)))
  have h3 : ∀ k ∈ markerKeys, ∀ v, First r.rawQuery k v ↔ First r'.rawQuery k v := fun k hk => h.2 k (sizeKeys_plain (Or.inr hk))
  have hd : ∀ c ds, DryRunNames r' c ds ↔ DryRunNames r c ds := by
    intro c ds; unfold DryRunNames; rw [h.1]
  have hn : ∀ c, Names r c ↔ Names r' c := by
    intro c
    constructor
    · rintro (⟨ds, a⟩ | ⟨a, b⟩ | ⟨k, a, b, d⟩)
      · exact .options ds ((hd _ _).mpr a)
      · exact .param (fun c' ds hx => a c' ds ((hd _ _).mp hx)) ((h2 _).mp b)
      · exact .marked k (fun c' ds hx => a c' ds ((hd _ _).mp hx)) b ((h3 k b _).mp d)
    · rintro (⟨ds, a⟩ | ⟨a, b⟩ | ⟨k, a, b, d⟩)
      · exact .options ds ((hd _ _).mp a)
      · exact .param (fun c' ds hx => a c' ds ((hd _ _).mpr hx)) ((h2 _).mpr b)
      · exact .marked k (fun c' ds hx => a c' ds ((hd _ _).mpr hx)) b ((h3 k b _).mpr d)
  have hcar : ∀ p, Carries r p ↔ Carries r' p := by
    intro p; unfold Carries; simp only [h1]
  unfold Selects FallsBack
  simp only [hn, hcar]

/-- **C98**, every object: what is answered from the cache does not depend on `limit`, `timeout` and `timeoutSeconds`: a list that is read in
chunks comes whole with the first chunk. For single objects the request must not name two clusters, as otherwise
the order of the query decides (C46). -/
theorem C98_ignored (hord : ord.Perm (parseQuery r.rawQuery)) (hord' : ord'.Perm (parseQuery r'.rawQuery)) (hc : Cacheable st r)
    (h : SameRequest r r') (hone : r.resource = [] ∨ OneName r) : proxy env st tord ord' r' = proxy env st tord ord r := by
  obtain ⟨info, hs, hp⟩ := proxy_cacheable (env := env) (tord := tord) hord hc
  obtain ⟨info', hs', hp'⟩ := proxy_cacheable (env := env) (tord := tord) hord' (cacheable_same h hc)
  have e : info' = info := by
    have h1 := (reads_scan hord info).mpr hs
    have h2 := (reads_scan hord' info).mp ((reads_same h info).mp h1)
    rw [hs', Option.some.injEq] at h2
    exact h2
  subst e
  have hres : r'.resource = r.resource := by rw [h.1]
  rw [hp, hp', hres]
  by_cases hr : r.resource = []
  · rw [if_neg (by simpa using hr), if_neg (by simpa using hr)]
    unfold proxyList
    rw [h.1]
    rfl
  · rw [if_pos hr, if_pos hr]
    have hsel := pick_selects (env := env) hord hs
    have hsel' := (selects_same h _).mpr (pick_selects (env := env) hord' hs')
    rw [selects_det (hone.resolve_left hr) hsel' hsel]
    unfold proxySingle
    rw [h.1]
    rfl

/-- The text at `metadata.continue` of a list, which says how to go on; a list without it is complete. -/
def Spec.continueOf : JV → Str
  | .obj ms =>
    match lookup (lit "metadata") ms with
    | some (.obj ns) => match lookup (lit "continue") ns with | some (.str s) => s | _ => []
    | _ => []
  | _ => []

/-- **C98**, the end: no answer asks the client to go on. -/
theorem C98_complete (obj : Obj → JV) (texts : Answer → Str) (lab : Bool) (a : Answer) (ha : ∀ o, a ≠ .object o) :
    continueOf (a.json obj texts lab) = [] := by
  have hm : ∀ kind apiVersion status message reason code, continueOf (statusJson kind apiVersion status message reason code) = [] := by
    intro kind apiVersion status message reason code
    have : lookup (lit "metadata") ((if kind = [] then [] else [(lit "kind", JV.str kind)])
        ++ ((if apiVersion = [] then [] else [(lit "apiVersion", JV.str apiVersion)]) ++ ((lit "metadata", JV.obj []) ::
          ((if status = [] then [] else [(lit "status", JV.str status)]) ++ ((if message = [] then [] else [(lit "message", JV.str message)])
            ++ ((if reason = [] then [] else [(lit "reason", JV.str reason)]) ++ (if code = 0 then [] else [(lit "code", JV.num (intDigits code))])))))))
        = some (.obj []) := by
      by_cases h1 : kind = [] <;> by_cases h2 : apiVersion = [] <;> simp [h1, h2, lookup, lit]
    unfold continueOf statusJson
    simp only [List.append_assoc, List.cons_append, List.nil_append] at this ⊢
    rw [this]
    simp [lookup]
  cases a with
  | object o => exact absurd rfl (ha o)
  | list v k l rc items => simp [Answer.json, continueOf, lookup, lit]
  | table cs rows => simp [Answer.json, continueOf, lookup, lit]
  | refused why => exact hm _ _ _ _ _ _
  | noCluster c => exact hm _ _ _ _ _ _
  | forward w c m p q b => rfl
  | crash => rfl

/-- The hypotheses are met by a list of two pods of `c1` with and without `limit=1`. -/
example : Cacheable exSyncedI (exInf "labelSelector=app%21%3Dweb") ∧ SameRequest (exInf "labelSelector=app%21%3Dweb") (exInf "limit=1&labelSelector=app!%3Dweb") := by
  refine ⟨(exInf_cacheable _ (by decide +kernel)).1, rfl, ?_⟩
  intro k hk v
  have h1 : parseQuery (exInf "labelSelector=app%21%3Dweb").rawQuery = [(lit "labelSelector", [lit "app!=web"])] := by decide +kernel
  have h2 : parseQuery (exInf "limit=1&labelSelector=app!%3Dweb").rawQuery = [(lit "limit", [lit "1"]), (lit "labelSelector", [lit "app!=web"])] := by
    decide +kernel
  have hl : k ≠ lit "limit" := by rintro rfl; exact hk (by decide)
  unfold First
  rw [h1, h2]
  simp [lookup, hl, Ne.symm hl]

/-- **C98 is false** for the bound: a list with `limit=1` has two items. -/
theorem C98_false_bound : exTold "limit=1" = .inl [(lit "db", lit "n1"), (lit "web", lit "n2")] := by
  decide +kernel

end Ckube
