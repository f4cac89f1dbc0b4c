import Verif.Props.Store
import Verif.Lemmas.IndexJson

/-! # C29 and C64: annotations of cached objects and the resource gauge -/

namespace Ckube
open Spec

variable {isPrint : Nat → Bool} {eval : Str → Obj → Str} {alg : SliceSort} {pf : Str → Option GoFloat}
  {conf : List (GVR × List (Str × Str))} {h : List Notice} {s : Store}

/-! ## C29 -/

/-- Every item of an answer, with or without error, is a cached object of the type and namespace. -/
theorem answer_item (hrun : (newStore conf).run eval h = some s) {g : GVR} {q : Query} {res : QueryResult}
    (hans : s.mayAnswer isPrint alg pf g q (some res)) {o : Obj} (ho : o ∈ res.items) :
    ∃ id : Ident, id.gvr = g ∧ (q.ns = [] ∨ q.ns = id.ns)
      ∧ s.get id.gvr id.cluster id.ns id.name = some o := by
  unfold Store.mayAnswer at hans
  cases hg : lookup g s.data with
  | none => rw [hg] at hans; simp at hans
  | some cm =>
    rw [hg] at hans
    obtain ⟨vs, hvs, hq⟩ := hans
    obtain ⟨hw, hc, hl⟩ := run_look h hrun
    unfold queryList at hq
    simp only at hq
    generalize hr : (vs.filter fun o => q.page.matches isPrint o.index == some true) = rs at hq
    split at hq
    · simp only [Option.some.injEq] at hq; subst hq; simp at ho
    · split at hq
      · simp only [Option.some.injEq] at hq; subst hq; simp at ho
      · rw [eq_comm, Option.map_eq_some_iff] at hq
        obtain ⟨items, h1, rfl⟩ := hq
        obtain ⟨so, hso, rfl⟩ := List.mem_map.mp ho
        have hsub : so ∈ (sortObjs alg pf rs q.page.sort).1 := by
          unfold slice at h1
          split at h1
          · simp only [Option.some.injEq] at h1
            rw [← h1] at hso
            exact List.mem_of_mem_drop (List.mem_of_mem_take hso)
          · simp at h1
        have hp : (sortObjs alg pf rs q.page.sort).1.Perm rs := by
          unfold sortObjs
          split
          · exact List.Perm.refl _
          · split
            · exact List.Perm.refl _
            · exact List.Perm.refl _
            · exact alg.perm _ _
        have hrs := hp.subset hsub
        rw [← hr] at hrs
        have hv := hvs.subset (List.mem_filter.mp hrs).1
        rw [visited_entries] at hv
        obtain ⟨⟨⟨c, n, name⟩, so'⟩, he, rfl⟩ := List.mem_map.mp hv
        rw [mem_entries (hw.cl g cm (mem_of_lookup hg))] at he
        refine ⟨⟨g, c, n, name⟩, rfl, he.2, ?_⟩
        rw [get_look]
        unfold look
        simp only [hg, Option.bind_some, he.1, Option.map_some]

/-- **C29**, the cluster annotation: every object that a read returns carries the cluster it was received
from. -/
theorem C29_cluster (hrun : (newStore conf).run eval h = some s) (hapi : ApiObjects h) (id : Ident) (o : Obj)
    (hget : s.get id.gvr id.cluster id.ns id.name = some o) :
    ∃ m, o.om = some m ∧ lookup (lit "ckube.doacloud.io/cluster") m.annos = some id.cluster := by
  obtain ⟨_, hc, hl⟩ := run_look h hrun
  rw [get_look, Option.map_eq_some_iff] at hget
  obtain ⟨so, h1, rfl⟩ := hget
  by_cases hex : ∃ o', Latest eval s.confOf h id o'
  · obtain ⟨o', ho'⟩ := hex
    have h2 := (hl id).1 o' ho'
    have : some so = some _ := h1.symm.trans h2
    simp only [Option.some.injEq] at this
    obtain ⟨m, hm⟩ := latest_api hapi ho'
    refine ⟨_, by rw [this]; unfold build; simp only [hm]; rfl, ?_⟩
    rw [lookup_insertKV, if_neg (by decide), lookup_insertKV]
    exact if_pos rfl
  · have : look s id = none := (hl id).2 (by simpa using hex)
    have h1 : look s id = some so := h1
    rw [this] at h1
    simp at h1

/-- **C29**, the cluster annotation, for queries: every item of every answer carries the cluster under which
it is cached. -/
theorem C29_cluster_query (hrun : (newStore conf).run eval h = some s) (hapi : ApiObjects h) (g : GVR) (q : Query)
    (res : QueryResult) (hans : s.mayAnswer isPrint alg pf g q (some res)) (o : Obj) (ho : o ∈ res.items) :
    ∃ (id : Ident) (m : ObjMeta), s.get g id.cluster id.ns id.name = some o ∧ o.om = some m
      ∧ lookup (lit "ckube.doacloud.io/cluster") m.annos = some id.cluster := by
  obtain ⟨id, rfl, _, hg⟩ := answer_item hrun hans ho
  obtain ⟨m, h1, h2⟩ := C29_cluster hrun hapi id o hg
  exact ⟨id, m, hg, h1, h2⟩

/-- **C29**, the index annotation, for valid UTF-8: it is a JSON object in which every index value of the received
object `o₀` is recorded. Missing for the full claim: `namespace` and `name` hold what the configuration
extracts, not the object's own (`C29_false_name`); they agree when the configuration extracts the
object's own. -/
theorem C29_index_partial (hconf : ConfOK conf) (hrun : (newStore conf).run eval h = some s) (hapi : ApiObjects h)
    (id : Ident) (o₀ : Obj) (ho₀ : Latest eval (confAt conf) h id o₀) (hcl : validUtf8 id.cluster = true)
    (hval : ∀ e ∈ confAt conf id.gvr, validUtf8 e.1 = true ∧ validUtf8 (indexValue eval o₀ e.2) = true) :
    ∃ o m t members, s.get id.gvr id.cluster id.ns id.name = some o ∧ o.om = some m
      ∧ lookup (lit "ckube.daocloud.io/indexes") m.annos = some t
      ∧ Json.parse t = some (.obj members) ∧ IsMap members
      ∧ ∀ k, (k = lit "namespace" ∨ k = lit "name" →
          (lookup k (confAt conf id.gvr)).map (indexValue eval o₀)
            = indexValueOf eval (confAt conf id.gvr) id.cluster o₀ k) →
        lookup k members = (indexValueOf eval (confAt conf id.gvr) id.cluster o₀ k).map JV.str := by
  obtain ⟨_, hc, hl⟩ := run_look h hrun
  have hcf : s.confOf = confAt conf := by unfold Store.confOf confAt; rw [hc]
  rw [hcf] at hl
  obtain ⟨m, hm⟩ := latest_api hapi ho₀
  have hmap := confAt_isMap hconf id.gvr
  have hlk := (hl id).1 o₀ ho₀
  let idx := insertKV (lit "is_deleted") (if m.deleted then lit "true" else lit "false")
    (insertKV (lit "cluster") id.cluster (confIndex eval (confAt conf id.gvr) o₀))
  have hidx : IsMap idx :=
    isMap_insertKV (isMap_insertKV (isMap_map_snd (indexValue eval o₀) hmap))
  have hutf : ∀ e ∈ idx, validUtf8 e.1 = true ∧ validUtf8 e.2 = true := by
    intro e he
    rcases mem_insertKV he with rfl | he
    · refine ⟨show validUtf8 (lit "is_deleted") = true by decide +kernel, ?_⟩
      show validUtf8 (if m.deleted then lit "true" else lit "false") = true
      split <;> decide +kernel
    rcases mem_insertKV he with rfl | he
    · exact ⟨show validUtf8 (lit "cluster") = true by decide +kernel, hcl⟩
    obtain ⟨x, hx, rfl⟩ := List.mem_map.mp he
    exact hval x hx
  refine ⟨_, _, encodeMap idx, _, by rw [get_look, hlk]; rfl, by unfold build; simp only [hm]; rfl, ?_,
    parse_encodeMap hutf, ?_, ?_⟩
  · rw [lookup_insertKV]
    exact if_pos rfl
  · exact isMap_map_snd JV.str (((sortBy_perm _ _).map Prod.fst).nodup_iff.mpr hidx)
  · intro k hk
    rw [lookup_map_snd JV.str, lookup_sortBy hidx]
    congr 1
    have hix : lookup k idx = if k = lit "is_deleted" then some (if m.deleted then lit "true" else lit "false")
        else if k = lit "cluster" then some id.cluster
        else (lookup k (confAt conf id.gvr)).map (indexValue eval o₀) := by
      show lookup k (insertKV _ _ (insertKV _ _ _)) = _
      rw [lookup_insertKV, lookup_insertKV, lookup_confIndex]
      simp only [eq_comm (a := lit "is_deleted"), eq_comm (a := lit "cluster")]
    rw [hix]
    by_cases hkn : k = lit "namespace" ∨ k = lit "name"
    · rw [← hk hkn, if_neg, if_neg]
      · rcases hkn with rfl | rfl <;> decide
      · rcases hkn with rfl | rfl <;> decide
    · simp only [not_or] at hkn
      unfold indexValueOf
      simp only [hm, if_neg hkn.1, if_neg hkn.2]
      by_cases h1 : k = lit "cluster"
      · rw [if_pos h1, if_neg (by rw [h1]; decide), if_pos h1]
      · by_cases h2 : k = lit "is_deleted"
        · rw [if_pos h2, if_neg h1, if_pos h2]
        · rw [if_neg h2, if_neg h1, if_neg h1, if_neg h2]

/-- The example history meets the hypotheses of the three theorems; the annotation of the pod. -/
example : ConfOK exConf ∧ ApiObjects exHist ∧ validUtf8 (lit "c1") = true
    ∧ (∀ e ∈ confAt exConf exPods, validUtf8 e.1 = true ∧ validUtf8 (indexValue exEval (exPod "web" "n3") e.2) = true)
    ∧ ((newStore exConf).run exEval exHist).bind (fun s => (s.get exPods (lit "c1") (lit "prod") (lit "web")).bind
        fun o => o.om.bind fun m => lookup (lit "ckube.daocloud.io/indexes") m.annos)
      = some (lit "{\"cluster\":\"c1\",\"is_deleted\":\"false\",\"node\":\"n3\"}") := by
  refine ⟨⟨by decide +kernel, by decide +kernel⟩, ?_, by decide +kernel, by decide +kernel, by decide +kernel⟩
  intro n hn
  simp only [exHist, List.mem_cons, List.not_mem_nil, or_false] at hn
  rcases hn with rfl | rfl | rfl | rfl | rfl <;> rfl

/-- **C29 is false** for the keys `namespace` and `name` of the index annotation: the pod is found under the name
`web`, but its annotation has no such entry, because the name is added to the index after the annotation was
written. -/
theorem C29_false_name : ∃ (s : Store) (o : Obj) (m : ObjMeta) (t : Str) (ms : List (Str × JV)),
    (newStore exConf).run exEval exHist = some s
    ∧ s.get exPods (lit "c1") (lit "prod") (lit "web") = some o ∧ o.om = some m
    ∧ lookup (lit "ckube.daocloud.io/indexes") m.annos = some t ∧ Json.parse t = some (.obj ms)
    ∧ indexValueOf exEval (confAt exConf exPods) (lit "c1") (exPod "web" "n3") (lit "name") = some (lit "web")
    ∧ lookup (lit "name") ms = none := by
  have hs : ((newStore exConf).run exEval exHist).isSome = true := by decide +kernel
  obtain ⟨s, hs'⟩ := Option.isSome_iff_exists.mp hs
  have ht : (((newStore exConf).run exEval exHist).bind fun s => (s.get exPods (lit "c1") (lit "prod") (lit "web")).bind
        fun o => o.om.bind fun m => lookup (lit "ckube.daocloud.io/indexes") m.annos)
      = some (lit "{\"cluster\":\"c1\",\"is_deleted\":\"false\",\"node\":\"n3\"}") := by decide +kernel
  rw [hs', Option.bind_some, Option.bind_eq_some_iff] at ht
  obtain ⟨o, ho, ht⟩ := ht
  rw [Option.bind_eq_some_iff] at ht
  obtain ⟨m, hm, ht⟩ := ht
  have hidx : encodeMap [(lit "cluster", lit "c1"), (lit "is_deleted", lit "false"), (lit "node", lit "n3")]
      = lit "{\"cluster\":\"c1\",\"is_deleted\":\"false\",\"node\":\"n3\"}" := by decide +kernel
  have hsort : sortBy (fun a b => strLe a.1 b.1)
      [(lit "cluster", lit "c1"), (lit "is_deleted", lit "false"), (lit "node", lit "n3")]
      = [(lit "cluster", lit "c1"), (lit "is_deleted", lit "false"), (lit "node", lit "n3")] := by decide +kernel
  refine ⟨s, o, m, lit "{\"cluster\":\"c1\",\"is_deleted\":\"false\",\"node\":\"n3\"}",
    [(lit "cluster", lit "c1"), (lit "is_deleted", lit "false"), (lit "node", lit "n3")].map
      fun e => (e.1, JV.str e.2), hs', ho, hm, ht, ?_, by decide +kernel, ?_⟩
  · rw [← hidx]
    have := parse_encodeMap (m := [(lit "cluster", lit "c1"), (lit "is_deleted", lit "false"), (lit "node", lit "n3")])
      (by decide +kernel)
    rw [hsort] at this
    exact this
  · rw [lookup_map_snd JV.str]
    have : lookup (lit "name")
      [(lit "cluster", lit "c1"), (lit "is_deleted", lit "false"), (lit "node", lit "n3")] = none := by decide +kernel
    rw [this]; rfl

/-! ## C64 -/

/-- The notification adds, modifies or deletes an object of type `g` in namespace `ns` of cluster `c`. -/
def Spec.NoticeIn (eval : Str → Obj → Str) (conf : GVR → List (Str × Str)) (n : Notice) (g : GVR) (c ns : Str) : Prop :=
  match n with
  | .added g' c' o | .modified g' c' o | .deleted g' c' o =>
    g' = g ∧ c' = c ∧ (objKey eval (conf g') o).1 = ns
  | .clean _ _ => False

/-- The gauge is the length of the leaf. -/
def GaugeOK (s : Store) (g : GVR) (c ns : Str) : Prop :=
  ∃ cm, lookup g s.data = some cm ∧ lookup (c, g, ns) s.gauge = some (leafOf cm c ns).length

theorem notify_gauge {s s' : Store} {g' : GVR} {c' ns' : Str} {f : Leaf → Leaf} (hn : s.notify g' c' ns' f = some s')
    (g : GVR) (c ns : Str) :
    ((g' = g ∧ c' = c ∧ ns' = ns) → GaugeOK s' g c ns)
    ∧ (¬ (g' = g ∧ c' = c ∧ ns' = ns) → lookup (c, g, ns) s'.gauge = lookup (c, g, ns) s.gauge
      ∧ (GaugeOK s g c ns → GaugeOK s' g c ns)) := by
  obtain ⟨cm, hl, _, hd, hga⟩ := notify_some hn
  constructor
  · rintro ⟨rfl, rfl, rfl⟩
    refine ⟨_, by rw [hd, lookup_insertKV, if_pos rfl], ?_⟩
    rw [hga, lookup_insertKV, if_pos rfl, leafOf_updLeaf, if_pos ⟨rfl, rfl⟩, leafOf_initNs]
  · intro hne
    have hk : lookup (c, g, ns) s'.gauge = lookup (c, g, ns) s.gauge := by
      rw [hga, lookup_insertKV, if_neg]
      intro he
      simp only [Prod.mk.injEq] at he
      exact hne ⟨he.2.1, he.1, he.2.2⟩
    refine ⟨hk, ?_⟩
    rintro ⟨cm₀, h1, h2⟩
    by_cases hg : g' = g
    · subst hg
      rw [hl] at h1
      cases h1
      refine ⟨_, by rw [hd, lookup_insertKV, if_pos rfl], ?_⟩
      rw [hk, h2, leafOf_updLeaf, if_neg, leafOf_initNs]
      rintro ⟨rfl, rfl⟩
      exact hne ⟨rfl, rfl, rfl⟩
    · exact ⟨cm₀, by rw [hd, lookup_insertKV, if_neg hg]; exact h1, by rw [hk, h2]⟩

theorem step_gauge {s s' : Store} {n : Notice} (hn : s.step eval n = some s') (g : GVR) (c ns : Str) :
    (NoticeIn eval s.confOf n g c ns → GaugeOK s' g c ns)
    ∧ (¬ NoticeIn eval s.confOf n g c ns → lookup (c, g, ns) s'.gauge = lookup (c, g, ns) s.gauge)
    ∧ (n ≠ .clean g c → GaugeOK s g c ns → GaugeOK s' g c ns) := by
  have main : ∀ g' c' o f, s.notify g' c' (build eval (s.confOf g') c' o).1 f = some s' →
      ((g' = g ∧ c' = c ∧ (objKey eval (s.confOf g') o).1 = ns) → GaugeOK s' g c ns)
      ∧ (¬ (g' = g ∧ c' = c ∧ (objKey eval (s.confOf g') o).1 = ns) →
          lookup (c, g, ns) s'.gauge = lookup (c, g, ns) s.gauge)
      ∧ (GaugeOK s g c ns → GaugeOK s' g c ns) := by
    intro g' c' o f hf
    have hk : (build eval (s.confOf g') c' o).1 = (objKey eval (s.confOf g') o).1 := by
      rw [← build_key eval (s.confOf g') c' o]
    rw [hk] at hf
    obtain ⟨h1, h2⟩ := notify_gauge hf g c ns
    refine ⟨h1, fun hne => (h2 hne).1, fun hg => ?_⟩
    by_cases he : g' = g ∧ c' = c ∧ (objKey eval (s.confOf g') o).1 = ns
    · exact h1 he
    · exact (h2 he).2 hg
  cases n with
  | added g' c' o => obtain ⟨h1, h2, h3⟩ := main g' c' o _ hn; exact ⟨h1, h2, fun _ => h3⟩
  | modified g' c' o => obtain ⟨h1, h2, h3⟩ := main g' c' o _ hn; exact ⟨h1, h2, fun _ => h3⟩
  | deleted g' c' o => obtain ⟨h1, h2, h3⟩ := main g' c' o _ hn; exact ⟨h1, h2, fun _ => h3⟩
  | clean g' c' =>
    have hn' : (s.clean g' c').map Prod.fst = some s' := hn
    rw [Option.map_eq_some_iff] at hn'
    obtain ⟨⟨s'', e⟩, hcl, rfl⟩ := hn'
    refine ⟨fun hf => hf.elim, fun _ => ?_, ?_⟩
    · obtain ⟨cm, _, ⟨_, rfl, _⟩ | ⟨nm, _, _, rfl⟩⟩ := clean_some hcl <;> rfl
    · rintro hne ⟨cm₀, h1, h2⟩
      obtain ⟨cm, hl, ⟨_, rfl, _⟩ | ⟨nm, hnm, _, rfl⟩⟩ := clean_some hcl
      · exact ⟨cm₀, h1, h2⟩
      · by_cases hg : g' = g
        · subst hg
          rw [hl] at h1
          cases h1
          refine ⟨_, by simp only; rw [lookup_insertKV, if_pos rfl], ?_⟩
          rw [leafOf_clean, if_neg (by rintro rfl; exact hne rfl)]
          exact h2
        · exact ⟨cm₀, by simp only; rw [lookup_insertKV, if_neg hg]; exact h1, h2⟩

theorem run_gauge {s s' : Store} (g : GVR) (c ns : Str) : ∀ {h : List Notice}, s.run eval h = some s' →
    (∀ n ∈ h, n ≠ .clean g c) → GaugeOK s g c ns → GaugeOK s' g c ns
  | [], hr, _, hg => by simp only [Store.run, Option.some.injEq] at hr; subst hr; exact hg
  | n :: h, hr, hc, hg => by
    simp only [Store.run, Option.bind_eq_some_iff] at hr
    obtain ⟨s₁, h1, h2⟩ := hr
    exact run_gauge g c ns h2 (fun n' hn' => hc n' (by simp [hn'])) ((step_gauge h1 g c ns).2.2 (hc n (by simp)) hg)

theorem run_conf {s s' : Store} (hw : s.WF eval) : ∀ {h : List Notice}, s.run eval h = some s' →
    s'.WF eval ∧ s'.conf = s.conf := by
  intro h
  induction h generalizing s with
  | nil => intro hr; simp only [Store.run, Option.some.injEq] at hr; subst hr; exact ⟨hw, rfl⟩
  | cons n h ih =>
    intro hr
    simp only [Store.run, Option.bind_eq_some_iff] at hr
    obtain ⟨s₁, h1, h2⟩ := hr
    obtain ⟨w, e, _⟩ := step_look hw h1
    obtain ⟨w', e'⟩ := ih w h2
    exact ⟨w', e'.trans e⟩

/-- **C64** for namespaces of which the last notification came after the last clean of the type in the
cluster: the metric is the number of objects cached there. Missing for the full claim: after a clean the metric keeps
its old value until the next notification of the namespace (`C64_false_clean`). -/
theorem C64_gauge_partial {h₁ h₂ : List Notice} {n : Notice} (hrun : (newStore conf).run eval (h₁ ++ n :: h₂) = some s)
    (g : GVR) (c ns : Str) (hn : NoticeIn eval (confAt conf) n g c ns) (hclean : ∀ n' ∈ h₂, n' ≠ .clean g c) :
    ∃ names : List Str, names.Nodup ∧ (∀ name, name ∈ names ↔ s.get g c ns name ≠ none)
      ∧ lookup (c, g, ns) s.gauge = some names.length := by
  have hw := (run_look _ hrun).1
  rw [run_append, Option.bind_eq_some_iff] at hrun
  obtain ⟨s₁, hr1, hr2⟩ := hrun
  simp only [Store.run, Option.bind_eq_some_iff] at hr2
  obtain ⟨s₂, hr2, hr3⟩ := hr2
  have hc1 : s₁.confOf = confAt conf := by
    have := (run_look _ hr1).2.1
    unfold Store.confOf confAt; rw [this]
  obtain ⟨cm, h1, h2⟩ := run_gauge g c ns hr3 hclean ((step_gauge hr2 g c ns).1 (by rw [hc1]; exact hn))
  have hwl := (hw.cl g cm (mem_of_lookup h1)).leaf c ns
  refine ⟨(leafOf cm c ns).map Prod.fst, hwl.1, ?_, by rw [h2]; simp⟩
  intro name
  rw [get_look]
  unfold look
  simp only [h1, Option.bind_some]
  constructor
  · intro hm
    obtain ⟨⟨k, so⟩, he, rfl⟩ := List.mem_map.mp hm
    rw [lookup_eq_some_of_mem hwl.1 he]
    simp
  · intro hne
    cases hl : lookup name (leafOf cm c ns) with
    | none => rw [hl] at hne; simp at hne
    | some so => exact List.mem_map.mpr ⟨_, mem_of_lookup hl, rfl⟩

/-- **C64** for namespaces never notified: there is no metric (and nothing cached). -/
theorem C64_absent (hrun : (newStore conf).run eval h = some s) (g : GVR) (c ns : Str)
    (hn : ∀ n ∈ h, ¬ NoticeIn eval (confAt conf) n g c ns) :
    lookup (c, g, ns) s.gauge = none ∧ ∀ name, s.get g c ns name = none := by
  constructor
  · have main : ∀ (h : List Notice) (s₀ s : Store), s₀.WF eval → s₀.conf = conf → s₀.run eval h = some s →
        (∀ n ∈ h, ¬ NoticeIn eval (confAt conf) n g c ns) → lookup (c, g, ns) s.gauge = lookup (c, g, ns) s₀.gauge := by
      intro h
      induction h with
      | nil => intro s₀ s _ _ hr _; simp only [Store.run, Option.some.injEq] at hr; rw [hr]
      | cons n h ih =>
        intro s₀ s hw hc hr hn
        simp only [Store.run, Option.bind_eq_some_iff] at hr
        obtain ⟨s₁, h1, h2⟩ := hr
        obtain ⟨w, e, _⟩ := step_look hw h1
        have hc1 : s₀.confOf = confAt conf := by unfold Store.confOf confAt; rw [hc]
        rw [ih s₁ s w (e.trans hc) h2 (fun n' hn' => hn n' (by simp [hn']))]
        exact (step_gauge h1 g c ns).2.1 (by rw [hc1]; exact hn n (by simp))
    rw [main h _ s (newStore_wf eval conf) rfl hrun hn]
    rfl
  · intro name
    refine (C20_latest hrun ⟨g, c, ns, name⟩).2 ?_
    rintro o ⟨h₁, n, h₂, rfl, hw, _⟩
    refine hn n (by simp) ?_
    cases n with
    | added g' c' o' =>
      obtain ⟨_, he⟩ := hw
      simp only [identOf, Ident.mk.injEq] at he
      exact ⟨he.1, he.2.1, he.2.2.1⟩
    | modified g' c' o' =>
      obtain ⟨_, he⟩ := hw
      simp only [identOf, Ident.mk.injEq] at he
      exact ⟨he.1, he.2.1, he.2.2.1⟩
    | deleted _ _ _ => exact hw.elim
    | clean _ _ => exact hw.elim

/-- The example history ends with a notification of namespace `prod` of `c1`; its gauge is 1. Cluster `c3` was never
notified. -/
example : NoticeIn exEval (confAt exConf) (.deleted exPods (lit "c1") (exPod "db" "")) exPods (lit "c1") (lit "prod")
    ∧ ((newStore exConf).run exEval exHist).map (fun s => (lookup (lit "c1", exPods, lit "prod") s.gauge,
        lookup (lit "c3", exPods, lit "prod") s.gauge)) = some (some 1, none) :=
  ⟨⟨rfl, rfl, by decide +kernel⟩, by decide +kernel⟩

/-- **C64 is false** after a clean: nothing is cached, the metric still says 1. -/
theorem C64_false_clean : ((newStore exConf).run exEval (exHist ++ [.clean exPods (lit "c1")])).map
    (fun s => (lookup (lit "c1", exPods, lit "prod") s.gauge, s.get exPods (lit "c1") (lit "prod") (lit "web")))
      = some (some 1, none)
    ∧ ∀ s, (newStore exConf).run exEval (exHist ++ [.clean exPods (lit "c1")]) = some s →
        ∀ name, s.get exPods (lit "c1") (lit "prod") name = none := by
  refine ⟨by decide +kernel, ?_⟩
  intro s hs name
  refine (C20_latest hs ⟨exPods, lit "c1", lit "prod", name⟩).2 ?_
  intro o ho
  rw [latest_concat] at ho
  rcases ho with ho | ⟨_, _, ho⟩
  · exact ho
  · exact ho ⟨rfl, rfl⟩

end Ckube
