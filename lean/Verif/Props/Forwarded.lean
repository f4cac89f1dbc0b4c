import Verif.Props.ListOptions
import Verif.Props.Proxy

/-! # C86: the label selector of forwarded lists -/

namespace Ckube
open Spec

variable {env : Env} {st : StoreI} {tord : Nat → List (Str × Str) → List (Str × Str)} {ord : Values} {r : HReq}

/-- What an API server makes of the list options of the client library. -/
theorem options_read {sel text : Str} {qs : List Req} {page : Paginate} (hc : CallerSelector sel qs)
    (hdup : qs.Pairwise (fun a b => (a.op = .eq ∨ a.op = .deq) → (b.op = .eq ∨ b.op = .deq) → a.key ≠ b.key))
    (h : queryListOptions sel page = some text) :
    ∃ qs', parseReqs text = some qs' ∧ ∀ m, lookup paginateKey m = none → (selMatches qs' m = true ↔ ∀ q ∈ qs, ReqHolds q m) := by
  obtain ⟨ls, h1, h2, h3, h4, h5, h6, rs0, h7⟩ := caller_parsed hc.parses hc.ops
  have hsem : ∀ m, selMatches qs m = true ↔ ∀ q ∈ qs, ReqHolds q m := by
    intro m
    rw [selMatches, List.all_eq_true]
    exact forall₂_congr fun q hq => matches_iff_reqHolds (h4 q hq) m
  unfold queryListOptions at h
  split at h
  · obtain rfl := Option.some.inj h
    exact ⟨qs, hc.parses, fun m _ => hsem m⟩
  · rw [h1, Option.bind_some] at h
    have he : ∀ e ∈ ls.matchExprs, e.key ≠ paginateKey := by
      intro e hemem
      obtain ⟨q, hq, rfl, _⟩ := h6 e hemem
      exact hc.key q hq
    have hf : ls.matchExprs.filter (fun m => decide (m.key ≠ paginateKey)) = ls.matchExprs :=
      List.filter_eq_self.mpr (fun a ha => by simpa using he a ha)
    rw [hf] at h
    have h' := h
    unfold formatSelector at h'
    rw [Option.map_eq_some_iff] at h'
    obtain ⟨rs, hrs, -⟩ := h'
    have hrsne : rs ≠ [] := by
      have hp : rs.Perm _ := (asSelector_some hrs).1 ▸ sortBy_perm _ _
      rintro rfl
      have := hp.length_eq
      simp at this
    rw [formatSelector_eq hrs hrsne] at h
    obtain rfl := Option.some.inj h
    have hne : Base64.encode page.toJson ≠ [] := encode_ne_nil (toJson_ne_nil page)
    have hpr : LabelSelector.Printable { ls with matchExprs := pageExpr page :: ls.matchExprs } := by
      intro e hemem hop
      rcases List.mem_cons.mp hemem with rfl | hemem
      · exact splittingValue_nonempty hne
      · obtain ⟨q, hq, rfl, heq⟩ := h6 e hemem
        have hv := hc.vals q hq
        have hop' : q.op = .isIn ∨ q.op = .notIn ∨ q.op = .neq := by
          have hs := h4 q hq
          obtain ⟨k, op, vs⟩ := q
          cases op <;> simp_all [Req.toExpr, Req.isEq, Op.supported]
        obtain ⟨v, hv1, hv2⟩ := hv hop'
        exact ⟨v, mem_setList.mpr hv1, hv2⟩
    refine ⟨_, parseReqs_selStr_sorted (asSelector_some hrs).2 (printable_reqs hrs hpr) (asSelector_sorted hrs), fun m hm => ?_⟩
    have hn : ((qs.filter Req.isEq).map Req.key).Nodup := by
      rw [List.Nodup, List.pairwise_map, List.pairwise_filter]
      refine hdup.imp ?_
      intro a b hab ha hb
      simp only [Req.isEq, Bool.or_eq_true, decide_eq_true_eq] at ha hb
      exact hab ha hb
    rw [selMatches_norm, asSelector_matches hrs, ← hsem, ← selectorLoop_holds (parseReqs_valid hc.parses) h4 hn h2 m]
    unfold SelectorHolds
    simp only [List.mem_cons, forall_eq_or_imp]
    constructor
    · rintro ⟨a, -, b⟩; exact ⟨a, b⟩
    · rintro ⟨a, b⟩
      refine ⟨a, ?_, b⟩
      simp [ExprHolds, hm]

theorem foldl_insertKV_ne {f : Req → Str} (q : Req) (qs : List Req) (m : List (Str × Str)) :
    (q :: qs).foldl (fun m q => insertKV q.key (f q) m) m ≠ [] := by
  have aux : ∀ (qs : List Req) (m : List (Str × Str)), m ≠ [] → qs.foldl (fun m q => insertKV q.key (f q) m) m ≠ [] := by
    intro qs
    induction qs with
    | nil => exact fun m h => h
    | cons q qs ih =>
      intro m h
      refine ih _ ?_
      intro he
      simp only at he
      have := mem_map_fst_insertKV (k := q.key) (v := f q) (m := m) (k' := q.key)
      rw [he] at this
      simp at this
  refine aux qs _ ?_
  intro he
  simp only at he
  have := mem_map_fst_insertKV (k := q.key) (v := f q) (m := m) (k' := q.key)
  rw [he] at this
  simp at this

/-- What the server forwards of the list options, in terms of the model. -/
theorem options_forwarded {sel text : Str} {qs : List Req} {page : Paginate} (hc : CallerSelector sel qs)
    (hdup : qs.Pairwise (fun a b => (a.op = .eq ∨ a.op = .deq) → (b.op = .eq ∨ b.op = .deq) → a.key ≠ b.key))
    (hwf : page.WF) (hlen : (Base64.encode page.toJson).length ≤ 10024)
    (h : queryListOptions sel page = some text) :
    ∃ info, parseSelector text = some info ∧ (info.rewritten = none → qs = []) ∧
      ∀ fwd, info.rewritten = some fwd → ∃ qs', parseReqs fwd = some qs' ∧ (∀ m, selMatches qs' m = true ↔ ∀ q ∈ qs, ReqHolds q m)
        ∧ ∀ q ∈ qs', q.key ≠ paginateKey := by
  obtain ⟨ls, hls, ⟨rs0, hrs0⟩, hpr, h' | ⟨l, h', hm, h1, h2⟩⟩ := server_reads hc hwf hlen h
  · refine ⟨_, h'.1, fun _ => h'.2, ?_⟩
    simp
  · obtain ⟨info, g1, _, g2⟩ := C06_selector_kept_partial sel text qs page hc hdup
      (by have := hwf.page; simp only [minInt64, maxInt64] at this; omega)
      (by have := hwf.pageSize; simp only [minInt64, maxInt64] at this; omega)
      (by have := hwf.total; simp only [minInt64, maxInt64] at this; omega) hwf.sort hwf.search hlen h
    rw [h'] at g1
    obtain rfl := Option.some.inj g1
    obtain ⟨ls', _, k2, _, k4, k5, k6, _⟩ := caller_parsed hc.parses hc.ops
    rw [hls] at k2
    obtain rfl := Option.some.inj k2
    refine ⟨_, h', ?_, ?_⟩
    · intro hn
      have hl0 : l.matchLabels = [] ∧ l.matchExprs = [] := by
        by_contra hcon
        rw [not_and_or] at hcon
        have : l.matchLabels.length ≠ 0 ∨ l.matchExprs.length ≠ 0 := by
          rcases hcon with x | x
          · exact Or.inl (by simpa [List.length_eq_zero_iff] using x)
          · exact Or.inr (by simpa [List.length_eq_zero_iff] using x)
        simp only [selInfo] at hn
        rw [if_pos this] at hn
        simp at hn
      have e1 : ls.matchLabels = [] := by
        rw [List.eq_nil_iff_forall_not_mem]
        intro kv hkv
        have := (h1 kv).mpr hkv
        rw [hl0.1] at this
        simp at this
      have e2 : ls.matchExprs = [] := by
        have := h2.length_eq
        rw [hl0.2] at this
        simpa [eq_comm, List.length_eq_zero_iff] using this
      rw [selectorLoop_eq qs {} (parseReqs_valid hc.parses) k4] at hls
      simp only [Option.some.injEq] at hls
      subst hls
      simp only [List.nil_append, List.map_eq_nil_iff] at e1 e2
      cases qs with
      | nil => rfl
      | cons q qs =>
        exfalso
        by_cases hq : q.isEq = true
        · have := foldl_insertKV_ne (f := fun q : Req => q.vals.headD []) q (qs.filter Req.isEq) []
          rw [List.filter_cons, if_pos hq] at e1
          exact this e1
        · rw [List.filter_cons, if_pos (by simpa using hq)] at e2
          simp at e2
    · intro fwd hf
      have hkeys : (∀ kv ∈ l.matchLabels, kv.1 ≠ paginateKey) ∧ ∀ e ∈ l.matchExprs, e.key ≠ paginateKey := by
        constructor
        · intro kv hkv
          obtain ⟨q, hq, he⟩ := k5 kv ((h1 kv).mp hkv)
          exact he ▸ hc.key q hq
        · intro e he
          rw [h2.mem_iff, List.mem_map] at he
          obtain ⟨x, hx, rfl⟩ := he
          obtain ⟨q, hq, rfl, _⟩ := k6 x hx
          exact hc.key q hq
      obtain ⟨qs', p1, p2⟩ := g2 fwd hf
      refine ⟨qs', p1, p2, ?_⟩
      obtain ⟨hvl, hve⟩ := asSelector_valid hrs0
      have hsel : ∃ rs, asSelector l = some rs := by
        refine ⟨_, asSelector_of_valid (fun kv hkv => hvl kv ((h1 kv).mp hkv)) ?_⟩
        intro e he
        rw [h2.mem_iff] at he
        obtain ⟨x, hx, rfl⟩ := List.mem_map.mp he
        exact lreq_norm_valid (hve x hx)
      obtain ⟨rs, hrs⟩ := hsel
      have hrsne : rs ≠ [] := by
        rintro rfl
        have hp : ([] : List Req).Perm _ := (asSelector_some hrs).1 ▸ sortBy_perm _ _
        have := hp.length_eq
        simp only [List.length_nil, List.length_append, List.length_map] at this
        have e1 := List.length_eq_zero_iff.mp (show l.matchLabels.length = 0 by omega)
        have e2 := List.length_eq_zero_iff.mp (show l.matchExprs.length = 0 by omega)
        simp [selInfo, e1, e2] at hf
      have hfwd : fwd = selStr rs := by
        simp only [selInfo] at hf
        split at hf
        · rw [formatSelector_eq hrs hrsne] at hf
          exact (Option.some.inj hf).symm
        · simp at hf
      subst hfwd
      have hprl : l.Printable := by
        intro e he hop
        rw [h2.mem_iff] at he
        obtain ⟨x, hx, rfl⟩ := List.mem_map.mp he
        obtain ⟨v, hv1, hv2⟩ := hpr x hx hop
        exact ⟨v, mem_setList.mpr hv1, hv2⟩
      rw [parseReqs_selStr_sorted (asSelector_some hrs).2 (printable_reqs hrs hprl) (asSelector_sorted hrs)] at p1
      obtain rfl := Option.some.inj p1
      intro q hq
      obtain ⟨x, hx, rfl⟩ := List.mem_map.mp hq
      rw [norm_key]
      rw [(asSelector_some hrs).1, mem_sortBy, List.mem_append, List.mem_map, List.mem_map] at hx
      rcases hx with ⟨y, hy, rfl⟩ | ⟨y, hy, rfl⟩
      · exact hkeys.1 y hy
      · exact hkeys.2 y hy

/-- The first value of `labelSelector` in the forwarded query. -/
theorem forwarded_selector (hord : ord.Perm (parseQuery r.rawQuery)) {text : Str} (hfirst : First r.rawQuery (lit "labelSelector") text)
    {info : SelInfo} (hs : parseSelector text = some info) (hnone : info.rewritten.getD text ≠ lit "<none>") {w : Bool} {c m p q b : Str}
    (h : proxy env st tord ord r = .forward w c m p q b) : First q (lit "labelSelector") (info.rewritten.getD text) := by
  obtain ⟨q₀, _, _, _, hq, _, hcase⟩ := proxy_forward hord h
  have hsel : (scanQuery ord).selector = text := by
    rcases selector_first hord with h1 | ⟨h1, _⟩
    · obtain ⟨vs, h1⟩ := h1
      obtain ⟨vs', h2⟩ := hfirst
      rw [h1] at h2
      simp only [Option.some.injEq, List.cons.injEq] at h2
      exact h2.1
    · exact absurd hfirst (h1 _)
  rw [hsel, hs] at hcase
  have h0 : First q₀ (lit "labelSelector") (info.rewritten.getD text) := by
    rcases hcase with ⟨info', hi, rfl⟩ | ⟨hi, _⟩
    · obtain rfl := Option.some.inj hi
      obtain ⟨hm, hv, hlk⟩ := ord_ok hord
      obtain ⟨h1, h2, h3⟩ := parsed_query hord info.rewritten
      unfold First
      rw [parseQuery_encode h2 h3, lookup_sortBy h2]
      unfold setSelector
      cases info.rewritten with
      | some s => exact ⟨[], by simp only [Option.getD_some]; rw [lookup_insertKV, if_pos rfl]⟩
      | none =>
        obtain ⟨vs, hf⟩ := hfirst
        refine ⟨vs, ?_⟩
        simp only [Option.getD_none]
        rw [(scanQuery_eq hm).2.2, lookup_filter hm, hlk]
        refine ⟨hf, ?_⟩
        have hnm : ¬ isMarker (lit "labelSelector", text :: vs) = true := by
          rw [isMarker_iff]
          rintro ⟨hx, _⟩
          exact absurd (show lit "labelSelector" ∈ markerKeys from hx) (by decide)
        simpa using hnm
    · simp at hi
  rw [hq]
  split
  · obtain ⟨vs, h0⟩ := h0
    refine ⟨vs, ?_⟩
    obtain ⟨h1, h2⟩ := parseQuery_ok q₀
    have m1 : IsMap (insertKV (lit "timeout") [lit "30m"] (parseQuery q₀)) := isMap_insertKV h1
    have v1 : ∀ e ∈ insertKV (lit "timeout") [lit "30m"] (parseQuery q₀), e.2 ≠ [] := by
      intro e he
      rcases mem_insertKV he with rfl | he
      · simp
      · exact h2 e he
    have l1 : lookup (lit "labelSelector") (insertKV (lit "timeout") [lit "30m"] (parseQuery q₀)) = some (info.rewritten.getD text :: vs) := by
      rw [lookup_insertKV, if_neg (by decide), h0]
    unfold watchQuery
    simp only
    rw [if_neg]
    · rw [parseQuery_encode m1 v1, lookup_sortBy m1, l1]
    · rw [l1]
      simp only [Option.some.injEq, List.cons.injEq]
      exact fun hx => hnone hx.1
  · exact h0

/-- **C86**: a list whose options were made by `QueryListOptions` and that is forwarded reaches the API server with a label selector that accepts, among the
objects without the pagination label, exactly those the caller's selector accepts. If the caller has a selector, the pagination request is no longer in it.
Missing for the full claim: a pagination request without selector is forwarded (`C86_false_sent`), and the cases excluded in C05 and C06. -/
theorem C86_selector_partial (hord : ord.Perm (parseQuery r.rawQuery)) {sel text : Str} {qs : List Req} {page : Paginate} (hc : CallerSelector sel qs)
    (hdup : qs.Pairwise (fun a b => (a.op = .eq ∨ a.op = .deq) → (b.op = .eq ∨ b.op = .deq) → a.key ≠ b.key))
    (hpage : -2^63 ≤ page.page ∧ page.page < 2^63) (hsize : -2^63 ≤ page.pageSize ∧ page.pageSize < 2^63)
    (htotal : -2^63 ≤ page.total ∧ page.total < 2^63) (hsort : validUtf8 page.sort = true) (hsearch : validUtf8 page.search = true)
    (hlen : (Base64.encode page.toJson).length ≤ 10024) (hopt : queryListOptions sel page = some text)
    (hfirst : First r.rawQuery (lit "labelSelector") text) {w : Bool} {c m p q b : Str}
    (h : proxy env st tord ord r = .forward w c m p q b) :
    ∃ text' qs', First q (lit "labelSelector") text' ∧ parseReqs text' = some qs'
      ∧ (∀ ls, lookup paginateKey ls = none → (selMatches qs' ls = true ↔ ∀ x ∈ qs, ReqHolds x ls))
      ∧ (qs ≠ [] → ∀ x ∈ qs', x.key ≠ paginateKey) := by
  have hwf : page.WF := by
    refine ⟨?_, ?_, ?_, hsort, hsearch⟩ <;> simp only [minInt64, maxInt64] <;> omega
  obtain ⟨info, h1, h2, h3⟩ := options_forwarded hc hdup hwf hlen hopt
  have hno : parseReqs (lit "<none>") = none := by decide +kernel
  obtain ⟨qs', hp, hsem, hk⟩ : ∃ qs', parseReqs (info.rewritten.getD text) = some qs'
      ∧ (∀ ls, lookup paginateKey ls = none → (selMatches qs' ls = true ↔ ∀ x ∈ qs, ReqHolds x ls))
      ∧ (qs ≠ [] → ∀ x ∈ qs', x.key ≠ paginateKey) := by
    cases hr : info.rewritten with
    | none =>
      obtain ⟨qs', a, b⟩ := options_read hc hdup hopt
      exact ⟨qs', a, b, fun hn => absurd (h2 hr) hn⟩
    | some fwd =>
      obtain ⟨qs', a, b, c⟩ := h3 fwd hr
      exact ⟨qs', a, fun ls _ => b ls, fun _ => c⟩
  refine ⟨_, qs', forwarded_selector hord hfirst h1 ?_ h, hp, hsem, hk⟩
  intro hx
  rw [hx, hno] at hp
  simp at hp

def exForwarded : HReq :=
  { method := lit "GET", path := lit "/api/v1/secrets", version := lit "v1", resourceType := lit "secrets",
    rawQuery := lit "labelSelector=a%21%3D1%2Cckube.daocloud.io%2Fquery+notin+%28eyJwYWdlIjoxLCJwYWdlX3NpemUiOjF9%29" }

/-- A list of a type that is not cached, with a selector and a page: only the selector is forwarded. -/
example : CallerSelector (lit "a!=1") [⟨lit "a", .neq, [lit "1"]⟩]
    ∧ queryListOptions (lit "a!=1") { page := 1, pageSize := 1 } = some (lit "a notin (1),ckube.daocloud.io/query notin (eyJwYWdlIjoxLCJwYWdlX3NpemUiOjF9)")
    ∧ proxy exEnv exStore (fun _ m => m) (parseQuery exForwarded.rawQuery) exForwarded
      = .forward false (lit "c1") (lit "GET") (lit "/api/v1/secrets") (lit "labelSelector=a+notin+%281%29") [] :=
  ⟨⟨by decide +kernel, by decide +kernel, by decide +kernel, by decide +kernel⟩, by decide +kernel, by decide +kernel⟩

/-- **C86 is false** for a page without selector: the API server is sent the pagination request. -/
theorem C86_false_sent :
    queryListOptions [] { page := 1, pageSize := 1 } = some (lit "ckube.daocloud.io/query notin (eyJwYWdlIjoxLCJwYWdlX3NpemUiOjF9)")
    ∧ proxy exEnv exStore (fun _ m => m) (parseQuery (lit "labelSelector=ckube.daocloud.io%2Fquery+notin+%28eyJwYWdlIjoxLCJwYWdlX3NpemUiOjF9%29"))
        { exForwarded with rawQuery := lit "labelSelector=ckube.daocloud.io%2Fquery+notin+%28eyJwYWdlIjoxLCJwYWdlX3NpemUiOjF9%29" }
      = .forward false (lit "c1") (lit "GET") (lit "/api/v1/secrets")
          (lit "labelSelector=ckube.daocloud.io%2Fquery+notin+%28eyJwYWdlIjoxLCJwYWdlX3NpemUiOjF9%29") [] := by
  constructor <;> decide +kernel

end Ckube
