import Verif.Lemmas.DeleteBody
import Verif.Props.Proxy

/-! # C118: delete options on their way to the API server -/

namespace Ckube
open Spec Json

variable {env : Env} {st : StoreI} {tord : Nat → List (Str × Str) → List (Str × Str)} {ord : Values} {r : HReq}

/-- A text says one thing. -/
theorem says_unique {text : Str} {o o' : DelOpts} (h : SaysOptions text o) (h' : SaysOptions text o') : o = o' := by
  rw [← says_decode h, says_decode h']

/-- **C118**: when the delete options of a request name a cluster, the API server gets a text that says what the client's text says, without the name of the cluster.
Missing for the full claim: options that name no cluster (`C118_false_lost`), values of a wrong type (`C118_false_type`) and members that ckube does not know
(`C118_false_unknown`). -/
theorem C118_options_partial (hord : ord.Perm (parseQuery r.rawQuery)) (hm : r.method = lit "DELETE") {o : DelOpts} {c₀ : Str} {ds : List Str}
    (hs : SaysOptions r.body o) (hd : o.dryRun = marker c₀ :: ds) {w : Bool} {c m p q b : Str} (h : proxy env st tord ord r = .forward w c m p q b) :
    SaysOptions b { o with dryRun := ds } ∧ ∀ o', SaysOptions b o' → o' = { o with dryRun := ds } := by
  have hdec := says_decode hs
  have hn : DryRunNames r c₀ ds := ⟨hm, by rw [hdec, hd]⟩
  obtain ⟨q₀, _, _, _, _, hb, _⟩ := proxy_forward hord h
  rw [if_neg (by rw [hm]; decide)] at hb
  have : deleteBlock r (scanQuery ord).cluster = (c₀, { decodeDelete r.body with dryRun := ds }.toJson) := by
    unfold deleteBlock
    rw [if_pos hm, dryRunMarker_iff.mpr ⟨ds, hn.2, rfl⟩]
  rw [this, hdec] at hb
  have hw := decodeDelete_wf r.body
  rw [hdec] at hw
  have hsay : SaysOptions b { o with dryRun := ds } := by
    rw [hb]
    exact toJson_says { hw with dryRun := fun x hx => hw.dryRun x (by rw [hd]; simp [hx]) }
  exact ⟨hsay, fun o' h' => says_unique h' hsay⟩

/-- **C118 is false** for options that name no cluster: whatever they say, nothing of them reaches the API server. -/
theorem C118_false_lost (hord : ord.Perm (parseQuery r.rawQuery)) (hm : r.method = lit "DELETE") {o : DelOpts} (hs : SaysOptions r.body o)
    (hd : ∀ c₀ ds, o.dryRun ≠ marker c₀ :: ds) {w : Bool} {c m p q b : Str} (h : proxy env st tord ord r = .forward w c m p q b) : b = [] := by
  have hdec := says_decode hs
  obtain ⟨q₀, _, _, _, _, hb, _⟩ := proxy_forward hord h
  rw [if_neg (by rw [hm]; decide)] at hb
  rw [hb, deleteBlock, if_pos hm]
  cases hx : dryRunMarker r.body with
  | none => rfl
  | some cb =>
    obtain ⟨ds, h1, _⟩ := dryRunMarker_iff.mp hx
    rw [hdec] at h1
    exact absurd h1 (hd _ _)

theorem proxy_body {b b' : Str} (hm : r.method = lit "DELETE") (h : decodeDelete b = decodeDelete b') :
    proxy env st tord ord { r with body := b } = proxy env st tord ord { r with body := b' } := by
  simp only [proxy, parseClean, deleteBlock, dryRunMarker, h, hm, if_true, proxyPass, proxySingle, proxyList]
  rfl

/-- **C118 is false** for members that ckube does not know: they do not reach the API server, and what is done is the same as without them. -/
theorem C118_false_unknown {b b' : Str} (hm : r.method = lit "DELETE") {ms ms' : List (Str × JV)} {k : Str} {x : JV}
    (ha : ∀ c ∈ k, c.toNat < 128) (hk : asciiLower k ∉ optionNames) (hb : Json.parse b = some (.obj (ms ++ (k, x) :: ms')))
    (hb' : Json.parse b' = some (.obj (ms ++ ms'))) :
    proxy env st tord ord { r with body := b } = proxy env st tord ord { r with body := b' } := by
  refine proxy_body hm ?_
  have h0 : ∀ o, setDelMember o (k, x) = o := by
    intro o
    simp only [optionNames, List.map_cons, List.map_nil, List.mem_cons, List.not_mem_nil, or_false, not_or] at hk
    unfold setDelMember
    simp only [foldKey_ascii ha, hk, if_false]
  unfold decodeDelete
  rw [hb, hb']
  simp only [List.foldl_append, List.foldl_cons, h0]

/-- **C118 is false** for a grace period that is no integer, such as `"30"`: an API server would refuse it, but gets a grace period of 0 instead, which means that the
object is removed at once. -/
theorem C118_false_type (hord : ord.Perm (parseQuery r.rawQuery)) (hm : r.method = lit "DELETE") {o : DelOpts} {c₀ : Str} {ds : List Str}
    {ms ms' : List (Str × JV)} {k : Str} {x : JV} (hk : asciiLower k = lit "graceperiodseconds") (hx : x ≠ .null) (hi : ∀ raw i, x = .num raw → ¬ MeansInt64 raw i)
    (hb : Json.parse r.body = some (.obj (ms ++ (k, x) :: ms'))) (hp : PlainDelete (ms ++ (k, x) :: ms')) (hs : MeansDelete (ms ++ ms') o)
    (hd : o.dryRun = marker c₀ :: ds) {w : Bool} {c m p q b : Str} (h : proxy env st tord ord r = .forward w c m p q b) :
    SaysOptions b { o with dryRun := ds, grace := some 0 } := by
  have hpl : PlainDelete (ms ++ ms') := by
    have hsub : (ms ++ ms').Sublist (ms ++ (k, x) :: ms') := (List.sublist_cons_self _ _).append_left ms |> fun h => h
    refine ⟨⟨fun e he => hp.1.1 e (hsub.subset he), (hsub.map fun e => asciiLower e.1).nodup hp.1.2⟩, fun k' es he hk' => hp.2 k' es (hsub.subset he) hk'⟩
  have ho := fold_means hpl hs
  have hk128 : ∀ c ∈ k, c.toNat < 128 := hp.1.1 (k, x) (by simp)
  have hset : ∀ o : DelOpts, o.grace = none → setDelMember o (k, x) = { o with grace := some 0 } := by
    intro o hg
    have e1 : lit "graceperiodseconds" ≠ lit "kind" := by decide +kernel
    have e2 : lit "graceperiodseconds" ≠ lit "apiversion" := by decide +kernel
    unfold setDelMember
    simp only [foldKey_ascii hk128, hk, e1, e2, if_false, if_true, hg]
    congr 1
    cases x with
    | null => exact absurd rfl hx
    | num raw =>
      rw [setPtrInt]
      cases hpi : parseInt64 raw with
      | none => rfl
      | some i => exact absurd (parseInt64_means.mp hpi) (hi raw i rfl)
    | _ => rfl
  have hcomm : ∀ (l : List (Str × JV)) (o : DelOpts), (∀ e ∈ l, ∀ c ∈ e.1, c.toNat < 128) → (∀ e ∈ l, asciiLower e.1 ≠ lit "graceperiodseconds") →
      ∀ g, l.foldl setDelMember { o with grace := g } = { l.foldl setDelMember o with grace := g } := by
    intro l
    induction l with
    | nil => intros; rfl
    | cons e l ih =>
      intro o h1 h2 g
      rw [List.foldl_cons, List.foldl_cons]
      have hstep : setDelMember { o with grace := g } e = { setDelMember o e with grace := g } := by
        have h3 := h2 e (by simp)
        unfold setDelMember
        simp only [foldKey_ascii (h1 e (by simp)), h3, if_false]
        repeat' split
        all_goals rfl
      rw [hstep, ih _ (fun y hy => h1 y (by simp [hy])) (fun y hy => h2 y (by simp [hy]))]
  have hnodup := hp.1.2
  rw [List.map_append, List.map_cons] at hnodup
  have hn1 : ∀ e ∈ ms, asciiLower e.1 ≠ lit "graceperiodseconds" := by
    intro e he h'
    have := (List.nodup_append.mp hnodup).2.2 _ (List.mem_map_of_mem he) (asciiLower k) (by simp)
    exact this (h'.trans hk.symm)
  have hn2 : ∀ e ∈ ms', asciiLower e.1 ≠ lit "graceperiodseconds" := by
    intro e he h'
    have := (List.nodup_cons.mp (List.nodup_append.mp hnodup).2.1).1
    exact this (List.mem_map.mpr ⟨e, he, h'.trans hk.symm⟩)
  have hdec : decodeDelete r.body = { o with grace := some 0 } := by
    unfold decodeDelete
    rw [hb]
    simp only
    rw [List.foldl_append, List.foldl_cons, hset, hcomm ms' _ (fun e he => hp.1.1 e (by simp [he])) hn2, ← List.foldl_append, ho]
    exact fold_absent (get := DelOpts.grace) (fun o kv ha => (setDelMember_fields o kv ha).2.2.1) ms {} (fun e he => hp.1.1 e (by simp [he])) hn1
  obtain ⟨q₀, _, _, _, _, hb', _⟩ := proxy_forward hord h
  rw [if_neg (by rw [hm]; decide)] at hb'
  have : deleteBlock r (scanQuery ord).cluster = (c₀, { decodeDelete r.body with dryRun := ds }.toJson) := by
    unfold deleteBlock
    rw [if_pos hm, dryRunMarker_iff.mpr ⟨ds, by rw [hdec]; exact hd, rfl⟩]
  rw [hb', this]
  have hw := decodeDelete_wf r.body
  rw [hdec] at hw ⊢
  exact toJson_says { hw with dryRun := fun x hx => hw.dryRun x (by simp [hd, hx]) }

/-! ## The hypotheses are met -/

/-- The options of an orderly deletion in cluster `c2`. -/
def exDelete : Str :=
  lit "{\"Kind\":\"DeleteOptions\",\"gracePeriodSeconds\":30,\"preconditions\":{\"uid\":\"7f\"},\"propagationPolicy\":\"Foreground\",\"dryRun\":[\"dsm-cluster-c2\",\"All\"]}"

/-- The options of a request are read, and the request is forwarded. -/
example : SaysOptions exDelete ⟨lit "DeleteOptions", [], some 30, some (some (lit "7f"), none), none, some (lit "Foreground"), [lit "dsm-cluster-c2", lit "All"]⟩
    ∧ proxy exEnv exStore (fun _ m => m) [] { method := lit "DELETE", path := lit "/api/v1/namespaces/prod/pods/web", body := exDelete }
      = .forward false (lit "c2") (lit "DELETE") (lit "/api/v1/namespaces/prod/pods/web") []
        (lit "{\"kind\":\"DeleteOptions\",\"gracePeriodSeconds\":30,\"preconditions\":{\"uid\":\"7f\"},\"propagationPolicy\":\"Foreground\",\"dryRun\":[\"All\"]}") := by
  refine ⟨?_, by decide +kernel⟩
  have hg : Good (.obj [(lit "Kind", .str (lit "DeleteOptions")), (lit "gracePeriodSeconds", .num (lit "30")), (lit "preconditions", .obj [(lit "uid", .str (lit "7f"))]),
      (lit "propagationPolicy", .str (lit "Foreground")), (lit "dryRun", .arr [.str (lit "dsm-cluster-c2"), .str (lit "All")])]) := by
    simp only [Good, GoodMembers, GoodElems, okNum, and_true]
    decide +kernel
  have he : exDelete = Json.enc (.obj [(lit "Kind", .str (lit "DeleteOptions")), (lit "gracePeriodSeconds", .num (lit "30")), (lit "preconditions", .obj [(lit "uid", .str (lit "7f"))]),
      (lit "propagationPolicy", .str (lit "Foreground")), (lit "dryRun", .arr [.str (lit "dsm-cluster-c2"), .str (lit "All")])]) := by
    decide +kernel
  refine ⟨_, by rw [he, parse_enc hg], ⟨?_, ?_⟩, ?_⟩
  · exact ⟨by simp only [List.mem_cons, List.not_mem_nil, or_false, forall_eq_or_imp, forall_eq]; decide +kernel,
      by simp only [List.map_cons, List.map_nil]; decide +kernel⟩
  · intro k es hm _
    simp only [List.mem_cons, Prod.mk.injEq, reduceCtorEq, and_false, List.not_mem_nil, or_false, false_or, JV.obj.injEq] at hm
    obtain ⟨_, rfl⟩ := hm
    exact ⟨by simp only [List.mem_singleton, forall_eq]; decide +kernel, by simp⟩
  · constructor
    · exact Or.inr ⟨lit "Kind", _, by simp, by decide +kernel, Or.inl rfl⟩
    · refine Or.inl ⟨rfl, ?_⟩
      simp only [List.mem_cons, List.not_mem_nil, or_false, forall_eq_or_imp, forall_eq]
      decide +kernel
    · exact Or.inr ⟨lit "gracePeriodSeconds", .num (lit "30"), by simp, by decide +kernel, Or.inl ⟨30, rfl, _, rfl, by decide, by decide,
        Or.inl ⟨⟨by decide, by decide +kernel⟩, by decide +kernel⟩⟩⟩
    · refine Or.inr ⟨lit "preconditions", .obj [(lit "uid", .str (lit "7f"))], by simp, by decide +kernel, Or.inl ⟨_, rfl, _, rfl, ?_, ?_⟩⟩
      · exact Or.inr ⟨lit "uid", .str (lit "7f"), by simp, by decide +kernel, Or.inl ⟨_, rfl, rfl⟩⟩
      · refine Or.inl ⟨rfl, ?_⟩
        simp only [List.mem_singleton, forall_eq]
        decide +kernel
    · refine Or.inl ⟨rfl, ?_⟩
      simp only [List.mem_cons, List.not_mem_nil, or_false, forall_eq_or_imp, forall_eq]
      decide +kernel
    · exact Or.inr ⟨lit "propagationPolicy", .str (lit "Foreground"), by simp, by decide +kernel, Or.inl ⟨_, rfl, rfl⟩⟩
    · exact Or.inr ⟨lit "dryRun", .arr [.str (lit "dsm-cluster-c2"), .str (lit "All")], by simp, by decide +kernel,
        Or.inl ⟨_, rfl, .cons (Or.inl rfl) (.cons (Or.inl rfl) .nil)⟩⟩

/-- What becomes of `"30"`, of an option of later API servers, and of options without a cluster. -/
example :
    let del (b : Str) := proxy exEnv exStore (fun _ m => m) [] { method := lit "DELETE", path := lit "/api/v1/pods/web", body := b }
    del (lit "{\"gracePeriodSeconds\":\"30\",\"dryRun\":[\"dsm-cluster-c2\"]}")
      = .forward false (lit "c2") (lit "DELETE") (lit "/api/v1/pods/web") [] (lit "{\"gracePeriodSeconds\":0}")
    ∧ del (lit "{\"ignoreStoreReadErrorWithClusterBreakingPotential\":true,\"dryRun\":[\"dsm-cluster-c2\"]}")
      = .forward false (lit "c2") (lit "DELETE") (lit "/api/v1/pods/web") [] (lit "{}")
    ∧ del (lit "{\"gracePeriodSeconds\":30}") = .forward false (lit "c1") (lit "DELETE") (lit "/api/v1/pods/web") [] [] := by
  decide +kernel

end Ckube
