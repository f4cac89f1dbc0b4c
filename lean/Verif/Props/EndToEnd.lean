import Verif.Spec.EndToEnd
import Verif.Props.ProxyList
import Verif.Props.Watcher
import Verif.Props.Clusters

/-! # C80: from the API server to the client -/

namespace Ckube
open Spec

variable {env : Env} {st : StoreI} {tord : Nat → List (Str × Str) → List (Str × Str)} {ord : Values} {r : HReq}
variable {isPrint : Nat → Bool} {eval : Str → Obj → Str} {alg : SliceSort} {pf : Str → Option GoFloat}
  {conf : List (GVR × List (Str × Str))} {h : List Notice} {s : Store}

/-- When the cache has caught up, the objects received last are those of the API server. -/
theorem CaughtUp.latest {g : GVR} {c : Str} {objs : List ((Str × Str) × Obj)} (hu : CaughtUp g c h objs) (ns name : Str) (o : Obj) :
    Latest eval (confAt conf) h ⟨g, c, ns, name⟩ o ↔ lookup (ns, name) objs = some o := by
  obtain ⟨t, f, hsys, hopen, hall, hsome, hh, rfl⟩ := hu
  have hi := (SysInv.init (key := objKey eval (confAt conf g)) g c).run (fun o k hk => objKey_of_meta hk) hsys
  have hs := hi.stream f hopen
  rw [hall] at hs
  have hs : ∀ k, cached (objKey eval (confAt conf g)) t.out k = lookup k t.objs := received_cached hs hsome
  rw [latest_filter, hh, cached_latest g c t.out hi.about, hs]

theorem CaughtUp.keys {g : GVR} {c : Str} {objs : List ((Str × Str) × Obj)} (hu : CaughtUp g c h objs) :
    IsMap objs ∧ ∀ e ∈ objs, objKey eval (confAt conf g) e.2 = e.1 := by
  obtain ⟨t, f, hsys, -, -, -, -, rfl⟩ := hu
  have hi := (SysInv.init (key := objKey eval (confAt conf g)) g c).run (fun o k hk => objKey_of_meta hk) hsys
  exact ⟨hi.map, hi.keys⟩

theorem CaughtUp.mirrors {g : GVR} {c : Str} {objs : List ((Str × Str) × Obj)} (hu : CaughtUp g c h objs) :
    Mirrors eval conf g c h objs := ⟨CaughtUp.latest hu, CaughtUp.keys hu⟩

/-- The search of a list without a search: it can always be evaluated and accepts exactly the objects of the default cluster. -/
theorem defaultSearch_plain (hd : env.defaultCluster ≠ []) (hl : validLabelValue env.defaultCluster = true) (m : List (Str × Str)) :
    matchParts isPrint m (searchParts (defaultSearch env [])) ≠ none
    ∧ (matchParts isPrint m (searchParts (defaultSearch env [])) = some true ↔ lookup (lit "cluster") m = some env.defaultCluster) := by
  have hp0 : searchParts [] = [] := by decide +kernel
  have hadv : AdvReqs [] [] := Or.inl ⟨by decide +kernel, rfl⟩
  obtain ⟨s', hs'⟩ := setClusters_some (c := env.defaultCluster) hadv (by simp) hd hl
  have hno : getClusters [] = [] := by decide +kernel
  have e : defaultSearch env [] = s' := by
    unfold defaultSearch
    rw [if_pos hno, hs', Option.getD_some]
  rw [e]
  constructor
  · obtain ⟨hset, hv⟩ := setClusters_ok hs'
    obtain ⟨ls, rs, hls, hmap, _, hrs, hne, hpr, hparts⟩ :=
      restrict_search hset hadv (by simp [hp0]) hv (by simp)
    obtain ⟨b, hb, hbm⟩ := match1_advPart (isPrint := isPrint) (m := m) hrs hne hpr hmap
    rw [hparts, Ne, matchParts_none]
    rintro ⟨p, hp, hpn⟩
    rcases List.mem_cons.mp hp with rfl | hp
    · rw [hb] at hpn; simp at hpn
    · simp [hp0] at hp
  · have := C17_clusters_partial isPrint [] s' [env.defaultCluster] [] hs' hadv
      ⟨by simp [hp0], by simp, by simp, by simp⟩ m
    unfold Paginate.matches at this
    rw [this]
    constructor
    · rintro ⟨⟨c, hc, h1⟩, _⟩
      rw [List.mem_singleton] at hc
      rw [h1, hc]
    · intro h1
      refine ⟨⟨_, List.mem_singleton.mpr rfl, h1⟩, ?_, by simp⟩
      simp [hp0]

/-- A list of the default cluster shows what the cache has. -/
theorem mirror_list (hconf : ConfOK conf) (hrun : (newStore conf).run eval h = some s) (hapi : ApiObjects h)
    (hst : Serves isPrint alg pf s st) (hord : ord.Perm (parseQuery r.rawQuery)) (hc : Cacheable st r) (hr : r.resource = [])
    {i : SelInfo} (hi : Reads r i) (hpg : i.paginate = {}) {objs : List ((Str × Str) × Obj)}
    (hu : Mirrors eval conf r.gvr env.defaultCluster h objs)
    (hd : env.defaultCluster ≠ []) (hl : validLabelValue env.defaultCluster = true) (he : EmptyNoNaN pf) :
    ∃ (shown : List ((Str × Str) × Obj)) (items : List Obj),
      (∀ e, e ∈ shown ↔ e ∈ objs ∧ (r.ns = [] ∨ r.ns = e.1.1) ∧ Satisfies i.labels e.2)
      ∧ (shown.map Prod.fst).Nodup ∧ (shown.map Prod.fst).Pairwise NsNameLe
      ∧ List.Forall₂ (fun e o => SameButMarks e.2 o) shown items
      ∧ Shows tord items (proxy env st tord ord r)
      ∧ ∀ v k l rc its, proxy env st tord ord r = .list v k l rc its → rc = 0 := by
  have hkeys := hu.2
  have hsort : i.paginate.sort = [] := by rw [hpg]
  have hsrch : (listPage env i).search = defaultSearch env [] := by simp [listPage, hpg]
  have hmatch : ∀ idx, (listPage env i).matches isPrint idx = some true ↔ lookup (lit "cluster") idx = some env.defaultCluster := by
    intro idx; unfold Paginate.matches; rw [hsrch]; exact (defaultSearch_plain hd hl idx).2
  have hv : ValidPaging i.paginate := by rw [hpg]; exact Or.inl rfl
  -- what the query finds
  have hiff : ∀ id o, Matching isPrint eval conf h r.gvr ⟨r.ns, listPage env i⟩ id o ↔
      id.gvr = r.gvr ∧ id.cluster = env.defaultCluster ∧ ((id.ns, id.name), o) ∈ objs ∧ (r.ns = [] ∨ r.ns = id.ns) := by
    intro id o
    constructor
    · rintro ⟨h1, h2, h3, idx, h4, h5⟩
      have hcl : id.cluster = env.defaultCluster := by
        have := h4.2 (lit "cluster")
        rw [(hmatch idx).mp h5] at this
        simpa [indexValueOf] using this.symm
      refine ⟨h2, hcl, ?_, h3⟩
      obtain ⟨g, c, n, nm⟩ := id
      simp only at h2 hcl
      subst h2 hcl
      exact mem_of_lookup ((hu.1 n nm o).mp h1)
    · rintro ⟨h1, h2, h3, h4⟩
      obtain ⟨g, c, n, nm⟩ := id
      simp only at h1 h2
      subst h1 h2
      refine ⟨(hu.1 n nm o).mpr (lookup_eq_some_of_mem hkeys.1 h3), rfl, h4, ?_⟩
      refine ⟨_, build_index eval (confAt_isMap hconf r.gvr) env.defaultCluster o, ?_⟩
      rw [hmatch, (build_index eval (confAt_isMap hconf r.gvr) env.defaultCluster o).2]
      simp [indexValueOf]
  rcases list_outcome (env := env) (tord := tord) hconf hrun hst hord hc hr hi hv with
    ⟨_, q, res, q1, q2, q3, _, q4, q5⟩ | ⟨_, id, o, hm, hom⟩ | ⟨found, kept, f1, f2, f3, f4, f5, f6⟩
  · exfalso
    have hans := hst.query r.gvr q
    rw [q4] at hans
    have := C25_accepted hconf hrun hapi r.gvr q defaultKeys (Or.inl ⟨by rw [q2, hsort], rfl⟩)
      (by intro k hk; right; simp only [defaultKeys, List.mem_cons, List.not_mem_nil, or_false] at hk
          rcases hk with rfl | rfl | rfl <;> simp)
      (by intro id o idx _ _ _ _; unfold Paginate.matches; rw [q3, hsrch]; exact (defaultSearch_plain hd hl idx).1)
      (by intro id o _ k hk hn; simp only [defaultKeys, List.mem_cons, List.not_mem_nil, or_false] at hk
          rcases hk with rfl | rfl | rfl <;> simp at hn)
      res hans
    rw [q5] at this
    simp at this
  · exfalso
    have := latest_api hapi hm.1
    rw [hom] at this
    simp at this
  · have hfm : ∀ e ∈ found, e.1.gvr = r.gvr ∧ e.1.cluster = env.defaultCluster ∧ ((e.1.ns, e.1.name), e.2.1) ∈ objs
        ∧ (r.ns = [] ∨ r.ns = e.1.ns) := fun e he' => (hiff e.1 e.2.1).mp ((f1.2.1 e.1 e.2.1).mp ⟨e.2.2, he'⟩)
    have hkf : ∀ e ∈ kept, e ∈ found := fun e he' => f4.subset he'
    have hpage : pageOf i.paginate.page i.paginate.pageSize (kept.map fun e => e.2.2.obj) = kept.map fun e => e.2.2.obj := by
      rw [hpg]; rfl
    refine ⟨kept.map fun e => ((e.1.ns, e.1.name), e.2.1), kept.map fun e => e.2.2.obj, ?_, ?_, ?_, ?_, ?_, ?_⟩
    · rintro ⟨⟨n, nm⟩, o⟩
      rw [List.mem_map]
      constructor
      · rintro ⟨e, hek, heq⟩
        obtain ⟨-, -, e3, e4⟩ := hfm e (hkf e hek)
        simp only [Prod.mk.injEq] at heq
        obtain ⟨⟨rfl, rfl⟩, rfl⟩ := heq
        exact ⟨e3, e4, (f5 e (hkf e hek)).mp hek⟩
      · rintro ⟨e1, e2, e3⟩
        obtain ⟨so, hso⟩ := (f1.2.1 ⟨r.gvr, env.defaultCluster, n, nm⟩ o).mpr ((hiff _ _).mpr ⟨rfl, rfl, e1, e2⟩)
        exact ⟨_, (f5 _ hso).mpr e3, rfl⟩
    · rw [List.map_map]
      have hnd : (kept.map Prod.fst).Nodup := f1.1.sublist (f4.map _)
      rw [List.Nodup, List.pairwise_map] at hnd ⊢
      refine hnd.imp_of_mem ?_
      intro a b ha hb hab heq
      apply hab
      obtain ⟨a1, a2, -, -⟩ := hfm a (hkf a ha)
      obtain ⟨b1, b2, -, -⟩ := hfm b (hkf b hb)
      simp only [Function.comp, Prod.mk.injEq] at heq
      obtain ⟨⟨g1, c1, n1, m1⟩, x⟩ := a
      obtain ⟨⟨g2, c2, n2, m2⟩, y⟩ := b
      simp_all
    · rw [List.map_map]
      have hsorted : (found.map fun e => e.2.2).Pairwise (LexLe pf defaultKeys) := by
        rcases f3 with rfl | ⟨rs, hperm, hs⟩
        · simp
        · by_cases h0 : found = []
          · simp [h0]
          · have hne : rs ≠ [] := by
              rintro rfl
              have := hperm.length_eq
              simp only [List.length_nil, List.length_map] at this
              exact h0 (List.length_eq_zero_iff.mp this.symm)
            rw [hsort] at hs
            obtain ⟨ks, k1, k2⟩ := sortObjs_sorted hs hne (by intro x hx; revert x; decide +kernel)
            obtain rfl : ks = defaultKeys := by rcases k1 with ⟨_, k1⟩ | ⟨k1, _⟩; exacts [k1, absurd rfl k1]
            refine k2 (noNaN_found hconf f2 he ?_ hperm)
            intro id o _ k hk hn
            simp only [defaultKeys, List.mem_cons, List.not_mem_nil, or_false] at hk
            rcases hk with rfl | rfl | rfl <;> simp at hn
      rw [List.pairwise_map] at hsorted ⊢
      refine (hsorted.sublist f4).imp_of_mem ?_
      intro a b ha hb hab
      have hval : ∀ e ∈ found, e.2.2.val (lit "cluster") = env.defaultCluster ∧ e.2.2.val (lit "namespace") = e.1.ns
          ∧ e.2.2.val (lit "name") = e.1.name := by
        intro e he'
        obtain ⟨e1, e2, e3, -⟩ := hfm e he'
        obtain ⟨m, hm⟩ := latest_api hapi ((f1.2.1 e.1 e.2.1).mp ⟨e.2.2, he'⟩).1
        have hk := hkeys.2 _ e3
        simp only [objKey, hm, Prod.mk.injEq] at hk
        have hidx := (f1.2.2 e he').1.2
        unfold SObj.val
        rw [hidx, hidx, hidx]
        refine ⟨?_, ?_, ?_⟩
        · simp [indexValueOf, e2]
        · rw [indexValueOf, hm, if_neg (by decide), ← hk.1]
          simp only
          rw [if_neg (by decide), if_pos trivial]; rfl
        · rw [indexValueOf, hm, if_neg (by decide), ← hk.2]
          simp only
          rw [if_neg (by decide), if_neg (by decide), if_pos trivial]; rfl
      obtain ⟨a1, a2, a3⟩ := hval a (hkf a ha)
      obtain ⟨b1, b2, b3⟩ := hval b (hkf b hb)
      simp only [LexLe, defaultKeys, ValueLt, ValueEq, a1, a2, a3, b1, b2, b3, Bool.false_eq_true, if_false, and_true, true_and] at hab
      rcases hab with hab | hab
      · exact absurd hab (by simp [strLt_irrefl])
      · exact hab
    · rw [List.forall₂_map_left_iff, List.forall₂_map_right_iff]
      apply List.forall₂_same.mpr
      intro e hek
      have hl := ((f1.2.1 e.1 e.2.1).mp ⟨e.2.2, hkf e hek⟩).1
      obtain ⟨o', g1, g2⟩ := (C20_latest hrun e.1).1 e.2.1 hl
      rw [(f1.2.2 e (hkf e hek)).2, Option.some.injEq] at g1
      rw [g1]
      exact g2
    · rw [f6, hpage]
      have hrc : remainCount (listPage env i) kept.length (kept.map fun e => e.2.2.obj).length = some 0 := by
        simp [remainCount, listPage, hpg]
      unfold listAnswer
      simp only [hrc]
      split
      · exact .table
      · exact .list _ _ _ _
    · intro v k l rc its hp
      have hrc : ∀ n, remainCount (listPage env i) kept.length n = some 0 := by
        simp [remainCount, listPage, hpg]
      rw [f6] at hp
      simp only [listAnswer, hrc] at hp
      split at hp
      · unfold serverPrint at hp; split at hp <;> simp at hp
      · simp only [Answer.list.injEq] at hp; exact hp.2.2.2.1.symm

/-- **C80**, lists: when the cache has caught up with the API server of the default cluster, a list request that is answered from the
cache and asks for nothing special shows exactly the objects the API server has in the namespace (in all namespaces, if none is
given) that satisfy the label selector: each once, ordered by namespace and name, unchanged except for ckube's two
annotations, with no remaining items. Other types and clusters may have any history. Missing for the full claim: a default
cluster whose name is no label value (`C41_false_name`), and a server without objects before the first event (`C36_false`). -/
theorem C80_list_partial (hconf : ConfOK conf) (hrun : (newStore conf).run eval h = some s) (hapi : ApiObjects h)
    (hst : Serves isPrint alg pf s st) (hord : ord.Perm (parseQuery r.rawQuery)) (hc : Cacheable st r) (hr : r.resource = [])
    {i : SelInfo} (hi : Reads r i) (hpg : i.paginate = {}) {objs : List ((Str × Str) × Obj)}
    (hu : CaughtUp r.gvr env.defaultCluster h objs)
    (hd : env.defaultCluster ≠ []) (hl : validLabelValue env.defaultCluster = true) (he : EmptyNoNaN pf) :
    ∃ (shown : List ((Str × Str) × Obj)) (items : List Obj),
      (∀ e, e ∈ shown ↔ e ∈ objs ∧ (r.ns = [] ∨ r.ns = e.1.1) ∧ Satisfies i.labels e.2)
      ∧ (shown.map Prod.fst).Nodup ∧ (shown.map Prod.fst).Pairwise NsNameLe
      ∧ List.Forall₂ (fun e o => SameButMarks e.2 o) shown items
      ∧ Shows tord items (proxy env st tord ord r)
      ∧ ∀ v k l rc its, proxy env st tord ord r = .list v k l rc its → rc = 0 :=
  mirror_list hconf hrun hapi hst hord hc hr hi hpg (CaughtUp.mirrors hu) hd hl he

/-- A get shows what the cache has. -/
theorem mirror_get (hrun : (newStore conf).run eval h = some s) (hst : Serves isPrint alg pf s st)
    (hord : ord.Perm (parseQuery r.rawQuery)) (hc : Cacheable st r) (hr : r.resource ≠ [])
    {objs : Str → List ((Str × Str) × Obj)} (hu : ∀ c, Selects env r c → Mirrors eval conf r.gvr c h (objs c)) :
    ∃ c, Selects env r c ∧
      ((∃ o o', lookup (r.ns, r.resource) (objs c) = some o ∧ SameButMarks o o' ∧ proxy env st tord ord r = .object o')
       ∨ (lookup (r.ns, r.resource) (objs c) = none ∧ proxy env st tord ord r = .refused .notFound)) := by
  obtain ⟨c, h1, h2⟩ := C45_single_object (env := env) (tord := tord) hrun hst hord hc hr
  refine ⟨c, h1, ?_⟩
  rcases h2 with ⟨o, o', a, b, d⟩ | ⟨a, b⟩
  · exact Or.inl ⟨o, o', ((hu c h1).1 _ _ _).mp a, b, d⟩
  · refine Or.inr ⟨?_, b⟩
    cases hl : lookup (r.ns, r.resource) (objs c) with
    | none => rfl
    | some o => exact absurd (((hu c h1).1 _ _ _).mpr hl) (a o)

/-- **C80**, single objects: when the cache has caught up with the API server of every cluster the request may select, a GET of one
object that is answered from the cache gives the object the API server of the selected cluster has now (with ckube's marks), and
404 exactly if that API server has no such object. -/
theorem C80_get (hrun : (newStore conf).run eval h = some s) (hst : Serves isPrint alg pf s st)
    (hord : ord.Perm (parseQuery r.rawQuery)) (hc : Cacheable st r) (hr : r.resource ≠ [])
    {objs : Str → List ((Str × Str) × Obj)} (hu : ∀ c, Selects env r c → CaughtUp r.gvr c h (objs c)) :
    ∃ c, Selects env r c ∧
      ((∃ o o', lookup (r.ns, r.resource) (objs c) = some o ∧ SameButMarks o o' ∧ proxy env st tord ord r = .object o')
       ∨ (lookup (r.ns, r.resource) (objs c) = none ∧ proxy env st tord ord r = .refused .notFound)) :=
  mirror_get hrun hst hord hc hr fun c hc' => CaughtUp.mirrors (hu c hc')

/-! The hypotheses of both theorems are met: pods of `c1` are created and changed before and while the stream is open, `c2` has
a pod that the watcher of `c2` has received. -/

/-- The store itself is a cache a request may see. -/
theorem serves_self (isPrint : Nat → Bool) (alg : SliceSort) (pf : Str → Option GoFloat) (s : Store) :
    Serves isPrint alg pf s ⟨s.isStoreGVR, s.get, s.query isPrint alg pf⟩ := by
  refine ⟨fun _ => rfl, fun _ _ _ _ => rfl, ?_⟩
  intro g q
  unfold Store.mayAnswer Store.query
  cases hl : lookup g s.data with
  | none => simp [hl]
  | some cm =>
    exact ⟨_, List.Perm.refl _, by simp [hl, queryMap]⟩

def exSynced : List Notice :=
  [.clean exPods (lit "c1"), .clean exPods (lit "c2"), .added exPods (lit "c1") (exPod "web" "n1"),
   .added exPods (lit "c2") (exPod "web" "n9"), .modified exPods (lit "c1") (exPod "web" "n2"), .added exPods (lit "c1") (exPod "db" "n1")]

def exObjs (c : Str) : List ((Str × Str) × Obj) :=
  if c = lit "c1" then [((lit "prod", lit "web"), exPod "web" "n2"), ((lit "prod", lit "db"), exPod "db" "n1")]
  else [((lit "prod", lit "web"), exPod "web" "n9")]

theorem exSynced_caughtUp : CaughtUp exPods (lit "c1") exSynced (exObjs (lit "c1")) ∧ CaughtUp exPods (lit "c2") exSynced (exObjs (lit "c2")) := by
  constructor
  · have k1 : metaKey (exPod "web" "n1") = some (lit "prod", lit "web") := rfl
    have k2 : metaKey (exPod "web" "n2") = some (lit "prod", lit "web") := rfl
    have k3 : metaKey (exPod "db" "n1") = some (lit "prod", lit "db") := rfl
    have s1 := SysRun.step (.refl {}) (SysStep.create (r := exPods) (c := lit "c1") (s := {}) k1 rfl)
    have s2 := SysRun.step s1 (.opened (p := .streaming true) (out := []) (List.Perm.refl _) rfl)
    have s3 := SysRun.step s2 (.update k2 (old := exPod "web" "n1") rfl)
    have s4 := SysRun.step s3 (.create k3 (by decide +kernel))
    have s5 := SysRun.step s4 (.deliver (p := .streaming false) (t := .added) (o := exPod "web" "n1") rfl rfl)
    have s6 := SysRun.step s5 (.deliver (p := .streaming false) (t := .modified) (o := exPod "web" "n2") rfl rfl)
    have s7 := SysRun.step s6 (.deliver (p := .streaming false) (t := .added) (o := exPod "db" "n1") rfl rfl)
    exact ⟨_, false, s7, rfl, rfl, Or.inl rfl, rfl, rfl⟩
  · have k1 : metaKey (exPod "web" "n9") = some (lit "prod", lit "web") := rfl
    have s1 := SysRun.step (.refl {}) (SysStep.create (r := exPods) (c := lit "c2") (s := {}) k1 rfl)
    have s2 := SysRun.step s1 (.opened (p := .streaming true) (out := []) (List.Perm.refl _) rfl)
    have s3 := SysRun.step s2 (.deliver (p := .streaming false) (t := .added) (o := exPod "web" "n9") rfl rfl)
    exact ⟨_, false, s3, rfl, rfl, Or.inl rfl, rfl, rfl⟩

/-- `GET /api/v1/namespaces/prod/pods?labelSelector=app!=web`. -/
def exPlain : HReq :=
  { method := lit "GET", path := lit "/api/v1/namespaces/prod/pods", rawQuery := lit "labelSelector=app%21%3Dweb",
    version := lit "v1", resourceType := lit "pods", ns := lit "prod" }

def exSyncedStore : Store := ((newStore exConf).run exEval exSynced).getD (newStore exConf)

def exSyncedI : StoreI := ⟨exSyncedStore.isStoreGVR, exSyncedStore.get, exSyncedStore.query (fun _ => true) insertionSort exFloat⟩

theorem exSynced_run : (newStore exConf).run exEval exSynced = some exSyncedStore := by
  have : ((newStore exConf).run exEval exSynced).isSome = true := by decide +kernel
  obtain ⟨s, hs⟩ := Option.isSome_iff_exists.mp this
  unfold exSyncedStore
  rw [hs, Option.getD_some]

theorem exPlain_cacheable (name : Str) : Cacheable exSyncedI { exPlain with resource := name } := by
  have key := all_first (raw := exPlain.rawQuery) (P := fun k v => decide (k = lit "labelSelector") && (parseSelector v).isSome)
    (by decide +kernel)
  have ht : exSyncedI.isStoreGVR exPods = true := by decide +kernel
  refine ⟨rfl, ht, ?_, ?_⟩
  · intro v hv
    have := key _ _ hv
    simpa using this
  · intro k v hv
    have := key _ _ hv
    simp only [Bool.and_eq_true, decide_eq_true_eq] at this
    exact Or.inl (by rw [this.1]; simp)

theorem exSynced_api : ApiObjects exSynced := by
  intro n hn
  simp only [exSynced, List.mem_cons, List.not_mem_nil, or_false] at hn
  rcases hn with rfl | rfl | rfl | rfl | rfl | rfl <;> trivial

/-- Lists: all hypotheses hold, and `db` comes before `web`. -/
example : ∃ i, Reads exPlain i ∧ i.paginate = {} ∧ ConfOK exConf ∧ (newStore exConf).run exEval exSynced = some exSyncedStore
    ∧ ApiObjects exSynced ∧ Serves (fun _ => true) insertionSort exFloat exSyncedStore exSyncedI ∧ Cacheable exSyncedI exPlain
    ∧ CaughtUp exPlain.gvr exEnv.defaultCluster exSynced (exObjs (lit "c1")) ∧ validLabelValue exEnv.defaultCluster = true
    ∧ EmptyNoNaN exFloat
    ∧ (match proxy exEnv exSyncedI (fun _ m => m) (parseQuery exPlain.rawQuery) exPlain with
        | .list _ _ _ rc items => some (rc, items.map fun o => (o.om.map ObjMeta.name, o.body)) | _ => none)
      = some (0, [(some (lit "db"), lit "n1"), (some (lit "web"), lit "n2")]) := by
  have h1 : (parseQuery exPlain.rawQuery).map (fun e => (e.1, e.2)) = [(lit "labelSelector", [lit "app!=web"])] := by decide +kernel
  have h2 : ((parseSelector (lit "app!=web")).map fun i => i.paginate) = some {} := by decide +kernel
  obtain ⟨i, h3, h4⟩ := Option.map_eq_some_iff.mp h2
  refine ⟨i, Or.inl ⟨lit "app!=web", ⟨[], by decide +kernel⟩, h3⟩, h4, ⟨by decide +kernel, by decide +kernel⟩, exSynced_run, exSynced_api,
    serves_self _ _ _ _, exPlain_cacheable [], exSynced_caughtUp.1, by decide +kernel, by unfold EmptyNoNaN; decide +kernel, by decide +kernel⟩

/-- Single objects: the cluster is `c1` for this request, whose API server has `web` on node `n2` and no `cache`. -/
example : Cacheable exSyncedI { exPlain with resource := lit "web" }
    ∧ (∀ c, Selects exEnv { exPlain with resource := lit "web" } c → CaughtUp exPlain.gvr c exSynced (exObjs c))
    ∧ (match proxy exEnv exSyncedI (fun _ m => m) (parseQuery exPlain.rawQuery) { exPlain with resource := lit "web" } with
        | .object o => some o.body | _ => none) = some (lit "n2")
    ∧ proxy exEnv exSyncedI (fun _ m => m) (parseQuery exPlain.rawQuery) { exPlain with resource := lit "cache" } = .refused .notFound := by
  refine ⟨exPlain_cacheable _, ?_, by decide +kernel, by decide +kernel⟩
  have key := all_first (raw := exPlain.rawQuery) (P := fun k v => decide (k = lit "labelSelector" ∧ v = lit "app!=web")) (by decide +kernel)
  have hno : ∀ c, ¬ Names { exPlain with resource := lit "web" } c := by
    rintro c (⟨_, h, _⟩ | ⟨_, h⟩ | ⟨k, _, hk, h⟩)
    · revert h; simp only [exPlain]; decide
    · have := key _ _ h
      simp only [decide_eq_true_eq] at this
      exact absurd this.1 (by decide)
    · have := key _ _ h
      simp only [decide_eq_true_eq] at this
      rw [this.1] at hk
      revert hk; decide
  intro c hc
  rcases hc with ⟨h, _⟩ | ⟨_, ⟨p, cs, hp, hg, hne⟩ | ⟨_, rfl⟩⟩
  · exact absurd h (hno c)
  · exfalso
    have hemp : getClusters p.search = [] := by
      rcases hp with ⟨v, i, hv, hi, rfl⟩ | ⟨_, rfl⟩
      · have := key _ _ hv
        simp only [decide_eq_true_eq, true_and] at this
        subst this
        have h2 : ((parseSelector (lit "app!=web")).map fun i => getClusters i.paginate.search) = some [] := by decide +kernel
        rw [hi] at h2
        simpa using h2
      · decide +kernel
    rw [hemp] at hg
    simp at hg
  · exact exSynced_caughtUp.1

end Ckube
