import Verif.Props.SortProgram
import Verif.Props.Drain

/-! # C127 for running systems: documented searches and orders over what the API servers have -/

namespace Ckube
open Spec

/-- Whether a search part is rejected depends on the names of the indexes only. -/
theorem match1_rejects {isPrint : Nat → Bool} {m m' : List (Str × Str)} (hk : ∀ k, lookup k m = none → lookup k m' = none) (p : Str)
    (h : match1 isPrint m p = none) : match1 isPrint m' p = none := by
  unfold match1 at h ⊢
  generalize advPrefix = adv at h ⊢
  simp only at h ⊢
  by_cases h1 : trimSpace p = []
  · rw [if_pos h1] at h; cases h
  · rw [if_neg h1] at h ⊢
    by_cases h2 : hasPrefix (trimSpace p) adv = true
    · rw [if_pos h2] at h ⊢
      by_cases h3 : (trimSpace p).length = adv.length
      · rw [if_pos h3]
      · rw [if_neg h3] at h ⊢
        rw [Option.map_eq_none_iff] at h ⊢
        exact h
    · rw [if_neg h2] at h ⊢
      have fin : ∀ kv : Str × Str, (if kv.1 ≠ [] then
            match lookup kv.1 m with
            | none => none
            | some v => some (if (parseValue kv.2).2 then !contains (quote isPrint v) (parseValue kv.2).1
                              else contains (quote isPrint v) (parseValue kv.2).1)
          else if m.any (fun e => contains (quote isPrint e.2) (parseValue kv.2).1) then some (!(parseValue kv.2).2)
            else some (parseValue kv.2).2) = none → kv.1 ≠ [] ∧ lookup kv.1 m = none := by
        intro kv h
        by_cases hne : kv.1 ≠ []
        · rw [if_pos hne] at h
          cases hl : lookup kv.1 m with
          | none => exact ⟨hne, rfl⟩
          | some v => rw [hl] at h; cases h
        · rw [if_neg hne] at h
          split at h <;> cases h
      obtain ⟨f1, f2⟩ := fin _ h
      rw [if_pos f1, hk _ f2]

/-- The same names with empty values. -/
def blanked (m : List (Str × Str)) : List (Str × Str) := m.map fun e => (e.1, [])

theorem lookup_blanked (k : Str) : ∀ m : List (Str × Str), lookup k (blanked m) = (lookup k m).map fun _ => [] := by
  intro m
  induction m with
  | nil => rfl
  | cons e m ih =>
    obtain ⟨k', v⟩ := e
    unfold blanked at ih ⊢
    rw [List.map_cons, lookup, lookup]
    by_cases h : k' = k
    · simp [h]
    · simp only [h, if_false]; exact ih

/-- A search whose conditions name indexes of an object is not rejected for it, whatever its values are. -/
theorem search_accepted {isPrint : Nat → Bool} {cs : List Cond} {search : Str} (h : SearchSays cs search) (ho : OneSelector cs search)
    (hfirst : ∀ r, search ≠ 59 :: r) {m : List (Str × Str)} (hk : ∀ c ∈ cs, CondKnown m c) :
    ∀ p ∈ searchParts search, matchParts isPrint m [p] ≠ none := by
  intro p hpm hnone
  obtain ⟨_, -, -, -, -, hg⟩ := search_selecting (isPrint := isPrint) h ho hfirst
  have hb := (hg (blanked m)).1 ?_ ?_ p hpm
  · refine hb (match1_rejects (m := m) ?_ p hnone)
    intro k hkm
    rw [lookup_blanked, hkm]; rfl
  · intro c hc
    have := hk c hc
    cases c with
    | text _ _ => trivial
    | select _ => trivial
    | part k _ _ => obtain ⟨v, hv⟩ := this; exact ⟨[], by rw [lookup_blanked, hv]; rfl⟩
    | whole k _ _ => obtain ⟨v, hv⟩ := this; exact ⟨[], by rw [lookup_blanked, hv]; rfl⟩
  · intro e he
    obtain ⟨_, _, rfl⟩ := List.mem_map.mp he
    exact ⟨rfl, by simp, by simp⟩

variable {isPrint : Nat → Bool} {eval : Str → Obj → Str} {alg : SliceSort}
  {conf : List (GVR × List (Str × Str))} {past : List Spec.World} {w w' : Spec.World} {cs : List (GVR × Str)} {env : Env} {st : StoreI}
  {tord : Nat → List (Str × Str) → List (Str × Str)} {ord : Values} {r : HReq}

/-- **C127** for a running system: API servers, watchers, store and handlers ran in any way up to `w`, where the API servers stop changing, and the watchers
and the store catch up. Then every list request with a search text that says the conditions `conds`, restricted to the clusters `css`, and a sort text that
says the keys `ks` shows its page of the list of exactly the objects that the API servers of these clusters have in the namespace and for which the label
selector and all conditions hold, in the order of the keys. Missing for the full claim: what is missing in `C127_program_partial` and in
`C107_any_partial`. -/
theorem C127_settled_partial (hconf : ConfOK conf) (hw : WRun isPrint eval alg parseFloat64 conf past w)
    (hg : ∀ p ∈ cs, (lookup p.1 conf).isSome = true) {n : Nat} (hdr : Drains isPrint eval alg parseFloat64 conf cs n w w')
    (hst : Drained isPrint eval alg parseFloat64 conf cs w') {l : List Spec.World} {v : Spec.World}
    (hsv : Serving isPrint eval alg parseFloat64 conf w' l v) (ht : TypesOf conf st) (hord : ord.Perm (parseQuery r.rawQuery))
    (hc : Cacheable st r) (hr : r.resource = []) {q : Query} (hq : OnlyAsks env tord ord r q) {i : Nat}
    (hnew : ∀ op, Event.call i op ∉ w'.store.trace) (hcall : Event.call i (.query r.gvr q) ∈ v.store.trace)
    (hret : Event.ret i (.result (st.query r.gvr q)) ∈ v.store.trace)
    -- the clusters
    {css : List Str} (hm : ∀ c ∈ css, (r.gvr, c) ∈ cs) (hp : ∀ c ∈ css, (w.comp r.gvr c).sys.phase ≠ .done)
    (ho : ∀ c ∈ css, Recovers (w.comp r.gvr c).sys)
    -- the request
    {info : SelInfo} (hi : Reads r info) {search : Str} (hset : Restricted env search [] css info.paginate.search)
    {conds : List Cond} (hsays : SearchSays conds search) (hone : OneSelector conds search) (hfirst : ∀ r, search ≠ 59 :: r)
    {ks : List SortKey} (hks : SortSays ks info.paginate.sort) (htot : TotalKeys ks) (hv : ValidPaging info.paginate)
    -- search and order make sense
    (hnames : ∀ c o idx, o.om.isSome = true → IsIndex eval (confAt conf r.gvr) c o idx → ∀ x ∈ conds, CondKnown idx x)
    (hkeys : ∀ k ∈ ks, k.key ∈ (confAt conf r.gvr).map Prod.fst ∨ k.key ∈ [lit "cluster", lit "is_deleted", lit "namespace", lit "name"])
    (hobj : ∀ c ∈ css, ∀ e ∈ (w.comp r.gvr c).sys.objs, ∀ idx, IsIndex eval (confAt conf r.gvr) c e.2 idx →
      (∀ x ∈ idx, Printable isPrint x.2) ∧ ∀ k ∈ ks, HasKey idx k) :
    ∃ (all : List ((Str × Str × Str) × Obj)) (items : List Obj), all.Nodup
      ∧ (∀ e, e ∈ all ↔ e.1.1 ∈ css ∧ (e.1.2, e.2) ∈ (w.comp r.gvr e.1.1).sys.objs ∧ (r.ns = [] ∨ r.ns = e.1.2.1)
        ∧ Satisfies info.labels e.2 ∧ Fulfils eval (confAt conf r.gvr) e.1.1 conds e.2)
      ∧ all.Pairwise (fun a b => ∀ ia ib, IsIndex eval (confAt conf r.gvr) a.1.1 a.2 ia → IsIndex eval (confAt conf r.gvr) b.1.1 b.2 ib →
          MayPrecede ks ia ib)
      ∧ List.Forall₂ (fun e o => SameButMarks e.2 o) all items
      ∧ (proxy env st tord ord r = .refused .outOfPage
          ∨ Shows tord (pageOf info.paginate.page info.paginate.pageSize items) (proxy env st tord ord r))
      ∧ (1 ≤ info.paginate.page → 1 ≤ info.paginate.pageSize → info.paginate.page * info.paginate.pageSize < 9223372036854775808 →
          (all.length : Int) < 9223372036854775808 →
          (proxy env st tord ord r = .refused .outOfPage ↔
            info.paginate.page ≠ 1 ∧ (all.length : Int) ≤ (info.paginate.page - 1) * info.paginate.pageSize)
          ∧ ∀ v k l rc its, proxy env st tord ord r = .list v k l rc its →
              makeupTotal (some rc) its.length info.paginate = all.length) := by
  obtain ⟨qs, hadv, hsep, hops, -, g2⟩ := search_selecting (isPrint := isPrint) hsays hone hfirst
  have hset : Restricted env search qs css info.paginate.search := hset.imp_right fun ⟨h1, h2, h3, h4, h5, _⟩ => ⟨h1, h2, h3, h4, h5, hops⟩
  have hcm : IsMap (confAt conf r.gvr) := confAt_isMap hconf _
  have hnumval : ∀ c ∈ css, ∀ e ∈ (w.comp r.gvr c).sys.objs, ∀ k ∈ ks, k.num = true →
      ∃ v x, indexValueOf eval (confAt conf r.gvr) c e.2 k.key = some v ∧ parseFloat64 v = some (.num x) := by
    intro c hc' e he k hk hn
    have := (hobj c hc' e he _ (build_index eval hcm c e.2)).2 k hk
    rw [HasKey, if_pos hn] at this
    obtain ⟨i, v, hv1, hv2, hv3⟩ := this
    obtain ⟨x, hx, -⟩ := C114_small hv2 (by exact_mod_cast hv3)
    exact ⟨v, x, by rw [← (build_index eval hcm c e.2).2]; exact hv1, hx⟩
  obtain ⟨all, items, a1, a2, a3, a4⟩ := C107_any_partial (env := env) (tord := tord) hconf hw hg hdr hst hsv ht hord hc hr hq hnew hcall hret hm hp ho hi
    hset hadv hsep (sortSays_means hks) htot hv
    (by unfold EmptyNoNaN; decide +kernel)
    (by
      intro c hc' e he k hk hn
      obtain ⟨v, x, h1, h2⟩ := hnumval c hc' e he k hk hn
      rw [valueUnder, h1, Option.getD_some, h2]
      simp)
    (fun c o idx ho hx p hp _ => search_accepted hsays hone hfirst (hnames c o idx ho hx) p hp)
    hkeys
    (by
      intro c hc' e he k hk hn
      obtain ⟨v, x, h1, h2⟩ := hnumval c hc' e he k hk hn
      exact ⟨v, h1, by rw [number, h2]; rfl⟩)
  refine ⟨all, items, a2.imp (fun {a b} hab => by rintro rfl; exact keysLt_irrefl hab), ?_, ?_, a3, a4⟩
  · intro e
    rw [a1 e]
    refine and_congr_right fun hcl => and_congr_right fun hob => and_congr_right fun _ => and_congr_right fun _ => ?_
    constructor
    · rintro ⟨idx, h3, h4⟩
      exact ⟨idx, h3, ((g2 idx).2 (hobj _ hcl _ hob idx h3).1).mp h4⟩
    · rintro ⟨idx, h3, h4⟩
      exact ⟨idx, h3, ((g2 idx).2 (hobj _ hcl _ hob idx h3).1).mpr h4⟩
  · refine a2.imp_of_mem fun {a b} ha hb hab ia ib hia hib => ?_
    obtain ⟨a5, a6, -⟩ := (a1 a).mp ha
    obtain ⟨b5, b6, -⟩ := (a1 b).mp hb
    exact keysLt_precede hia hib (hobj _ a5 _ a6 ia hia).2 (hobj _ b5 _ b6 ib hib).2 hab

/-! ## An example: two clusters, whose watchers have told the store everything -/

def exDuoRun : WHist := wsched (fun _ => true) exEval insertionSort parseFloat64 exConf
  [.put exPods (lit "c1") (exPod "x" "9"), .put exPods (lit "c2") (exPod "x" "30"), .opened exPods (lit "c1"), .opened exPods (lit "c2"),
   .put exPods (lit "c1") (exPod "y" "10"),
   .deliver exPods (lit "c1"), .invoke exPods (lit "c1"), .go 0 99, .returned exPods (lit "c1"), .invoke exPods (lit "c1"), .go 1 99,
   .returned exPods (lit "c1"), .deliver exPods (lit "c1"), .invoke exPods (lit "c1"), .go 2 99, .returned exPods (lit "c1"),
   .deliver exPods (lit "c2"), .invoke exPods (lit "c2"), .go 3 99, .returned exPods (lit "c2"), .invoke exPods (lit "c2"), .go 4 99,
   .returned exPods (lit "c2")] (wstart exConf)

def exDuoQuery : Query := ⟨[], exDuoPage⟩

/-- A list request arrives and is served. -/
def exDuoServed : WHist :=
  goW (fun _ => true) insertionSort parseFloat64 5 99
    ([exDuoRun.2], { exDuoRun.2 with store := exDuoRun.2.store.call exEval exConf (.query exPods exDuoQuery) })

def exDuoReq : HReq :=
  { method := lit "GET", path := lit "/api/v1/pods", rawQuery := lit "labelSelector=" ++ (queryListOptions [] exDuoPage).getD [],
    version := lit "v1", resourceType := lit "pods", ns := [] }

def exDuoAns : StoreI := answersI exConf (answerOf 5 exDuoServed)

theorem exDuo_asks_of {env : Env} (key : (match parseClean env (parseQuery exDuoReq.rawQuery) exDuoReq with
      | .inl p => some (p.paginate, p.labels.map fun l => (l.matchLabels.length, l.matchExprs.length)) | .inr _ => none)
        = some (exDuoPage, some (0, 0))) (hd : defaultSearch env exDuoPage.search = exDuoPage.search) :
    OnlyAsks env (fun _ m => m) (parseQuery exDuoReq.rawQuery) exDuoReq exDuoQuery := by
  intro st st' ht h
  unfold proxy
  cases hp : parseClean env (parseQuery exDuoReq.rawQuery) exDuoReq with
  | inr x => rfl
  | inl p =>
    rw [hp] at key
    simp only [Option.some.injEq, Prod.mk.injEq, Option.map_eq_some_iff] at key
    obtain ⟨h1, ls, h2, h3, h4⟩ := key
    have : proxyList env st (fun _ m => m) exDuoReq p = proxyList env st' (fun _ m => m) exDuoReq p := by
      unfold proxyList listItems
      simp only [h1, h2, h3, h4, hd]
      simp only [ne_eq, not_true_eq_false, or_self, if_false, listPlain]
      have hq : (⟨exDuoReq.ns, { exDuoPage with search := exDuoPage.search }⟩ : Query) = exDuoQuery := rfl
      rw [hq, h]
    simp only
    rw [this, ht]
    have hr : exDuoReq.resource = [] := rfl
    simp [hr]

theorem exDuo_asks : OnlyAsks exEnv (fun _ m => m) (parseQuery exDuoReq.rawQuery) exDuoReq exDuoQuery := exDuo_asks_of (by decide +kernel) (by decide +kernel)

theorem exDuo_objs : ∀ c ∈ [lit "c1", lit "c2"], (exDuoRun.2.comp exDuoReq.gvr c).sys.objs = exDuoObjs c := by decide +kernel

set_option maxRecDepth 100000 in
theorem exDuo_reads : ∃ i, Reads exDuoReq i ∧ i.paginate = exDuoPage ∧ ∀ o, Satisfies i.labels o := by
  obtain ⟨v, hv⟩ : ∃ v, lookup (lit "labelSelector") (parseQuery exDuoReq.rawQuery) = some [v] := by
    have : (lookup (lit "labelSelector") (parseQuery exDuoReq.rawQuery)).map List.length = some 1 := by decide +kernel
    obtain ⟨l, h1, h2⟩ := Option.map_eq_some_iff.mp this
    obtain ⟨v, rfl⟩ := List.length_eq_one_iff.mp h2
    exact ⟨v, h1⟩
  have h2 : ((lookup (lit "labelSelector") (parseQuery exDuoReq.rawQuery)).bind fun vs => vs.head?.bind fun v =>
      (parseSelector v).map fun i => (i.paginate, i.labels.map fun l => (l.matchLabels.length, l.matchExprs.length)))
      = some (exDuoPage, some (0, 0)) := by decide +kernel
  rw [hv] at h2
  simp only [Option.bind_some, List.head?_cons, Option.map_eq_some_iff, Prod.mk.injEq] at h2
  obtain ⟨i, h3, h4, ls, h5, h6, h7⟩ := h2
  refine ⟨i, Or.inl ⟨v, ⟨[], hv⟩, h3⟩, h4, fun o ls' h => ?_⟩
  rw [h5, Option.some.injEq] at h
  subst h
  have h6 := List.length_eq_zero_iff.mp h6
  have h7 := List.length_eq_zero_iff.mp h7
  unfold SelectorHolds
  rw [h6, h7]
  simp

set_option maxRecDepth 100000 in
theorem exDuo_cache {st : StoreI} (hst : st.isStoreGVR exPods = true) : Cacheable st exDuoReq := by
  have key := all_first (raw := exDuoReq.rawQuery) (P := fun k v => decide (k = lit "labelSelector") && (parseSelector v).isSome)
    (by decide +kernel)
  refine ⟨rfl, hst, ?_, ?_⟩
  · intro v hv
    have := key _ _ hv
    simpa using this
  · intro k v hv
    have := key _ _ hv
    simp only [Bool.and_eq_true, decide_eq_true_eq] at this
    exact Or.inl (by rw [this.1]; simp)

theorem exDuo_fed : ∀ c ∈ [lit "c1", lit "c2"], (c = lit "c1" ∨ c = lit "c2") ∧ ∀ e ∈ exDuoObjs c, exDuoPod e.2 := by
  obtain ⟨p1, p2, p3⟩ := exDuoPod_of
  intro c hc
  simp only [List.mem_cons, List.not_mem_nil, or_false] at hc
  refine ⟨hc, ?_⟩
  rcases hc with rfl | rfl <;> intro e he
  · rw [exDuoObjs, if_pos rfl] at he
    simp only [List.mem_cons, List.not_mem_nil, or_false] at he
    rcases he with rfl | rfl
    · exact p1
    · exact p2
  · rw [exDuoObjs, if_neg (by decide)] at he
    simp only [List.mem_cons, List.not_mem_nil, or_false] at he
    subst he
    exact p3

set_option maxRecDepth 100000 in
/-- The hypotheses of `C127_settled_partial` are met: the request shows two of the three pods, the largest numbers first. -/
example : (∃ (all : List ((Str × Str × Str) × Obj)) (items : List Obj), all.Nodup
      ∧ (∀ e, e ∈ all ↔ e.1.1 ∈ [lit "c1", lit "c2"] ∧ (e.1.2, e.2) ∈ exDuoObjs e.1.1
          ∧ Fulfils exEval (confAt exConf exPods) e.1.1 exDuoConds e.2)
      ∧ List.Forall₂ (fun e o => SameButMarks e.2 o) all items
      ∧ (proxy exEnv exDuoAns (fun _ m => m) (parseQuery exDuoReq.rawQuery) exDuoReq = .refused .outOfPage
        ∨ Shows (fun _ m => m) (pageOf 1 2 items) (proxy exEnv exDuoAns (fun _ m => m) (parseQuery exDuoReq.rawQuery) exDuoReq)))
    ∧ (match proxy exEnv exDuoAns (fun _ m => m) (parseQuery exDuoReq.rawQuery) exDuoReq with
        | .list _ _ _ rc items => some (rc, items.map fun o => (o.om.map ObjMeta.name, o.body)) | _ => none)
      = some (1, [(some (lit "x"), lit "30"), (some (lit "y"), lit "10")]) := by
  refine ⟨?_, by decide +kernel⟩
  obtain ⟨i, hi, hpg, hlab⟩ := exDuo_reads
  obtain ⟨all, items, h1, h2, -, h3, h4, -⟩ := C127_settled_partial (isPrint := fun _ => true) (eval := exEval) (alg := insertionSort) (conf := exConf)
    (cs := [(exPods, lit "c1"), (exPods, lit "c2")]) (w := exDuoRun.2) (w' := exDuoRun.2) (v := exDuoServed.2) (env := exEnv) (st := exDuoAns)
    (tord := fun _ m => m) (r := exDuoReq) (q := exDuoQuery) (i := 5) (css := [lit "c1", lit "c2"]) (info := i) (search := exDuoSearch) (ks := exDuoKeys)
    exDuo_answering.config (wsched_run _ _ .start) (by decide +kernel) .refl (drained_of (by decide +kernel) (by decide +kernel))
    (goW_serving (x := ([exDuoRun.2], _)) (.client .start (show (lookup exPods exConf).isSome = true by decide +kernel) (by simp)))
    (fun _ => rfl) (List.Perm.refl _) (exDuo_cache (by decide +kernel)) rfl exDuo_asks
    (by
      have : ∀ e ∈ exDuoRun.2.store.trace, (match e with | .call j _ => decide (j ≠ 5) | _ => true) = true := by decide +kernel
      intro op hop
      simpa using this _ hop)
    (by decide +kernel) (by decide +kernel) (by decide +kernel) (by decide +kernel)
    (by
      intro c hc
      left
      rw [exDuo_objs c hc]
      simp only [List.mem_cons, List.not_mem_nil, or_false] at hc
      rcases hc with rfl | rfl <;> decide +kernel)
    hi (Or.inl (by rw [hpg]; decide +kernel)) exDuoSearch_says exDuo_one (by intro r; simp [exDuoSearch, lit]) (by rw [hpg]; exact exDuoKeys_says)
    (by unfold TotalKeys; decide) (by rw [hpg]; exact Or.inr (by decide))
    (by
      intro c o idx ho hidx x hx
      simp only [exDuoConds, List.mem_cons, List.not_mem_nil, or_false] at hx
      rcases hx with rfl | rfl
      swap
      · trivial
      obtain ⟨om, hom⟩ := Option.isSome_iff_exists.mp ho
      refine ⟨om.name, ?_⟩
      rw [hidx.2, indexValueOf, hom]
      simp only
      rw [if_neg (by decide), if_neg (by decide), if_neg (by decide), if_pos trivial])
    (by decide +kernel)
    (by
      intro c hc e he idx hidx
      rw [exDuo_objs c hc] at he
      obtain ⟨hc', ho⟩ := exDuo_fed c hc
      obtain ⟨k1, -, k3⟩ := exDuo_index hc' (ho e he) hidx
      exact ⟨k1, k3⟩)
  refine ⟨all, items, h1, fun e => ?_, h3, ?_⟩
  · rw [h2]
    constructor
    · rintro ⟨a, b, -, -, c⟩
      exact ⟨a, by rw [← exDuo_objs _ a]; exact b, c⟩
    · rintro ⟨a, b, c⟩
      exact ⟨a, by rw [exDuo_objs _ a]; exact b, Or.inl rfl, hlab _, c⟩
  · rw [hpg] at h4
    exact h4

end Ckube
