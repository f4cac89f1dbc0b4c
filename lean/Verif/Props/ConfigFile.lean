import Verif.Model.ConfigFile
import Verif.Spec.ConfigFile
import Verif.Props.Server
import Verif.Lemmas.JsonVal

/-! # C93 and C94: the configuration file -/

namespace Ckube
open Spec Json

theorem foldKey_ascii : ∀ {k : Str}, (∀ b ∈ k, b.toNat < 128) → foldKey 0 k = asciiLower k
  | [], _ => rfl
  | c :: r, h => by
    have hc := h c (by simp)
    have h1 : ¬ c = 0xC5 := by rintro rfl; simp at hc
    have h2 : ¬ c = 0xE2 := by rintro rfl; simp at hc
    have ih := foldKey_ascii (k := r) fun b hb => h b (by simp [hb])
    simp only [foldKey, h1, h2, false_and, if_false, asciiLower, List.map_cons] at ih ⊢
    rw [ih]
    split <;> rfl

/-- What a field is after all members, if it was `old` before: `R` is what a member does. -/
def AfterAll {α : Type} (R : α → JV → Option α) (old : α) (ms : List (Str × JV)) (name : Str) (v : α) : Prop :=
  match ms.find? (fun e => asciiLower e.1 = name) with
  | none => v = old
  | some e => R old e.2 = some v

theorem afterAll_cons {α : Type} {R : α → JV → Option α} {old v : α} {e : Str × JV} {ms : List (Str × JV)} {name : Str} :
    AfterAll R old (e :: ms) name v ↔ if asciiLower e.1 = name then R old e.2 = some v else AfterAll R old ms name v := by
  unfold AfterAll
  rw [List.find?_cons]
  by_cases h : asciiLower e.1 = name <;> simp [h]

theorem afterAll_absent {α : Type} {R : α → JV → Option α} {old v : α} {ms : List (Str × JV)} {name : Str}
    (h : ∀ e ∈ ms, asciiLower e.1 ≠ name) : AfterAll R old ms name v ↔ v = old := by
  have : ms.find? (fun e => asciiLower e.1 = name) = none := by
    rw [List.find?_eq_none]
    intro e he
    simpa using h e he
  unfold AfterAll
  rw [this]

theorem plain_tail {e : Str × JV} {ms : List (Str × JV)} (h : PlainNames (e :: ms)) :
    PlainNames ms ∧ ∀ x ∈ ms, asciiLower x.1 ≠ asciiLower e.1 := by
  obtain ⟨h1, h2⟩ := h
  rw [List.map_cons, List.nodup_cons] at h2
  refine ⟨⟨fun x hx => h1 x (by simp [hx]), h2.2⟩, ?_⟩
  intro x hx he
  exact h2.1 (he ▸ List.mem_map_of_mem hx)

theorem member_iff {α : Type} {R : α → JV → Option α} {means : JV → α → Prop} {zero v : α} {ms : List (Str × JV)} {name : String}
    (hp : PlainNames ms) (hR : ∀ k x, (k, x) ∈ ms → asciiLower k = lit name → (R zero x = some v ↔ means x v)) :
    AfterAll R zero ms (lit name) v ↔ Member means zero ms name v := by
  induction ms with
  | nil => simp [AfterAll, Member]
  | cons e ms ih =>
    obtain ⟨h1, h2⟩ := plain_tail hp
    rw [afterAll_cons]
    by_cases hk : asciiLower e.1 = lit name
    · rw [if_pos hk, hR e.1 e.2 (by simp) hk]
      constructor
      · intro h
        exact Or.inr ⟨e.1, e.2, by simp, hk, h⟩
      · rintro (⟨_, h⟩ | ⟨k, x, hm, hn, h⟩)
        · exact absurd hk (h e (by simp))
        · rcases List.mem_cons.mp hm with rfl | hm
          · exact h
          · exact absurd (hn.trans hk.symm) (h2 _ hm)
    · rw [if_neg hk, ih h1 fun k x hm => hR k x (List.mem_cons_of_mem _ hm)]
      unfold Member
      constructor
      · rintro (⟨h, h'⟩ | ⟨k, x, hm, h⟩)
        · refine Or.inl ⟨h, ?_⟩
          intro x hx
          rcases List.mem_cons.mp hx with rfl | hx
          · exact hk
          · exact h' x hx
        · exact Or.inr ⟨k, x, List.mem_cons_of_mem _ hm, h⟩
      · rintro (⟨h, h'⟩ | ⟨k, x, hm, hn, h⟩)
        · exact Or.inl ⟨h, fun x hx => h' x (List.mem_cons_of_mem _ hx)⟩
        · rcases List.mem_cons.mp hm with rfl | hm
          · exact absurd hn hk
          · exact Or.inr ⟨k, x, hm, hn, h⟩

theorem readStr_means {x : JV} {v : Str} : readStr [] x = some v ↔ MeansStr x v := by
  cases x <;> simp [readStr, MeansStr, eq_comm]

theorem insertKV_fresh {k v : Str} : ∀ {m : List (Str × Str)}, (∀ e ∈ m, e.1 ≠ k) → insertKV k v m = m ++ [(k, v)]
  | [], _ => rfl
  | e :: m, h => by
    simp only [insertKV, if_neg (h e (by simp)), List.cons_append]
    rw [insertKV_fresh fun x hx => h x (by simp [hx])]

theorem readIndex_obj : ∀ (es : List (Str × JV)) (old m : List (Str × Str)), (es.map Prod.fst).Nodup → (∀ e ∈ es, ∀ p ∈ old, p.1 ≠ e.1) →
    (es.foldlM readEntry old = some m ↔ ∃ m', m = old ++ m' ∧ List.Forall₂ (fun e p => p.1 = e.1 ∧ MeansStr e.2 p.2) es m')
  | [], old, m, _, _ => by simp [eq_comm]
  | e :: es, old, m, hn, ho => by
    rw [List.map_cons, List.nodup_cons] at hn
    have hins : ∀ v, insertKV e.1 v old = old ++ [(e.1, v)] := fun v => insertKV_fresh fun p hp => ho e (by simp) p hp
    have ih : ∀ v, es.foldlM readEntry (old ++ [(e.1, v)]) = some m ↔ _ := fun v => readIndex_obj es (old ++ [(e.1, v)]) m hn.2 (by
      intro x hx p hp
      rcases List.mem_append.mp hp with hp | hp
      · exact ho x (by simp [hx]) p hp
      · simp only [List.mem_singleton] at hp
        subst hp
        intro he
        exact hn.1 (List.mem_map.mpr ⟨x, hx, he.symm⟩))
    simp only [List.foldlM_cons, readEntry]
    constructor
    · intro h
      obtain ⟨a, ha, h⟩ := Option.bind_eq_some_iff.mp h
      obtain ⟨v, hv, rfl⟩ := Option.map_eq_some_iff.mp ha
      rw [hins] at h
      obtain ⟨m', rfl, hm⟩ := (ih v).mp h
      exact ⟨(e.1, v) :: m', by simp, .cons ⟨rfl, readStr_means.mp hv⟩ hm⟩
    · rintro ⟨m', rfl, hm⟩
      cases hm with
      | cons hp hm =>
        rename_i p m'
        obtain ⟨hp1, hp2⟩ := hp
        rw [readStr_means.mpr hp2]
        simp only [Option.map_some]
        show es.foldlM readEntry (insertKV e.1 p.2 old) = _
        rw [hins, ih]
        exact ⟨m', by rw [← hp1]; simp, hm⟩

theorem readIndex_means {x : JV} {m : List (Str × Str)} (h : ∀ es, x = .obj es → (es.map Prod.fst).Nodup) :
    readIndex [] x = some m ↔ MeansIndex x m := by
  cases x with
  | obj es =>
    simp only [readIndex, MeansIndex, JV.obj.injEq, reduceCtorEq, false_and, or_false]
    rw [readIndex_obj es [] m (h es rfl) (by simp)]
    simp
  | null => simp [readIndex, MeansIndex, eq_comm]
  | _ => simp [readIndex, MeansIndex]

theorem readProxy_fold : ∀ (ms : List (Str × JV)) (p q : ProxyConf), PlainNames ms →
    (ms.foldlM readProxyMember p = some q ↔ AfterAll readStr p.group ms (lit "group") q.group ∧ AfterAll readStr p.version ms (lit "version") q.version
      ∧ AfterAll readStr p.resource ms (lit "resource") q.resource ∧ AfterAll readStr p.listKind ms (lit "list_kind") q.listKind
      ∧ AfterAll readIndex p.index ms (lit "index") q.index)
  | [], p, q, _ => by
    obtain ⟨a, b, c, d, e⟩ := p
    obtain ⟨a', b', c', d', e'⟩ := q
    simp [AfterAll, eq_comm]
  | e :: ms, p, q, hp => by
    obtain ⟨ht, hne⟩ := plain_tail hp
    have ih := fun p => readProxy_fold ms p q ht
    have hf : foldKey 0 e.1 = asciiLower e.1 := foldKey_ascii (hp.1 e (by simp))
    have d1 : lit "group" ≠ lit "version" := by decide
    have d2 : lit "group" ≠ lit "resource" := by decide
    have d3 : lit "group" ≠ lit "list_kind" := by decide
    have d4 : lit "group" ≠ lit "index" := by decide
    have d5 : lit "version" ≠ lit "resource" := by decide
    have d6 : lit "version" ≠ lit "list_kind" := by decide
    have d7 : lit "version" ≠ lit "index" := by decide
    have d8 : lit "resource" ≠ lit "list_kind" := by decide
    have d9 : lit "resource" ≠ lit "index" := by decide
    have d10 : lit "list_kind" ≠ lit "index" := by decide
    simp only [List.foldlM_cons, readProxyMember, hf, afterAll_cons]
    generalize hk : asciiLower e.1 = k at hne ⊢
    have abs : ∀ {α : Type} {R : α → JV → Option α} {old v : α}, AfterAll R old ms k v ↔ v = old := fun {_ _ _ _} => afterAll_absent hne
    by_cases h1 : k = lit "group"
    · subst h1
      simp only [if_true, d1, d2, d3, d4, if_false]
      cases hr : readStr p.group e.2 with
      | none => simp
      | some v => simp [ih, abs, eq_comm]
    by_cases h2 : k = lit "version"
    · subst h2
      simp only [if_true, d1.symm, d5, d6, d7, if_false]
      cases hr : readStr p.version e.2 with
      | none => simp
      | some v => simp [ih, abs, eq_comm]
    by_cases h3 : k = lit "resource"
    · subst h3
      simp only [if_true, d2.symm, d5.symm, d8, d9, if_false]
      cases hr : readStr p.resource e.2 with
      | none => simp
      | some v => simp [ih, abs, eq_comm]
    by_cases h4 : k = lit "list_kind"
    · subst h4
      simp only [if_true, d3.symm, d6.symm, d8.symm, d10, if_false]
      cases hr : readStr p.listKind e.2 with
      | none => simp
      | some v => simp [ih, abs, eq_comm]
    by_cases h5 : k = lit "index"
    · subst h5
      simp only [if_true, d4.symm, d7.symm, d9.symm, d10.symm, if_false]
      cases hr : readIndex p.index e.2 with
      | none => simp
      | some v => simp [ih, abs, eq_comm]
    · simp only [h1, h2, h3, h4, h5, if_false]
      exact ih p

theorem readProxy_means {x : JV} {q : ProxyConf}
    (h : ∀ ms, x = .obj ms → PlainNames ms ∧ ∀ k es, (k, .obj es) ∈ ms → asciiLower k = lit "index" → (es.map Prod.fst).Nodup) :
    readProxy {} x = some q ↔ MeansProxy x q := by
  cases x with
  | obj ms =>
    obtain ⟨hp, hi⟩ := h ms rfl
    simp only [readProxy, MeansProxy, JV.obj.injEq, reduceCtorEq, false_and, or_false]
    rw [readProxy_fold ms {} q hp, member_iff (means := MeansStr) hp fun _ _ _ _ => readStr_means, member_iff (means := MeansStr) hp fun _ _ _ _ => readStr_means,
      member_iff (means := MeansStr) hp fun _ _ _ _ => readStr_means, member_iff (means := MeansStr) hp fun _ _ _ _ => readStr_means,
      member_iff (means := MeansIndex) hp fun k x hm hk => readIndex_means fun es hx => hi k es (hx ▸ hm) hk]
    simp
  | null => simp [readProxy, MeansProxy, eq_comm]
  | _ => simp [readProxy, MeansProxy]

theorem readElems_means : ∀ (xs : List JV) (ps : List ProxyConf), (∀ y ∈ xs, ∀ p, readProxy {} y = some p ↔ MeansProxy y p) →
    (readElems [] xs = some ps ↔ List.Forall₂ MeansProxy xs ps)
  | [], ps, _ => by simp [readElems, eq_comm]
  | x :: xs, ps, h => by
    have ih := fun ps => readElems_means xs ps fun y hy => h y (by simp [hy])
    simp only [readElems, List.headD_nil, List.tail_nil]
    constructor
    · intro hx
      obtain ⟨p, hp, hx⟩ := Option.bind_eq_some_iff.mp hx
      obtain ⟨ps', hps, rfl⟩ := Option.map_eq_some_iff.mp hx
      exact .cons ((h x (by simp) p).mp hp) ((ih ps').mp hps)
    · intro hx
      cases hx with
      | cons hp hps =>
        rw [(h x (by simp) _).mpr hp, Option.bind_some, (ih _).mpr hps, Option.map_some]

theorem readConfig_fold : ∀ (ms : List (Str × JV)) (c d : Config), PlainNames ms →
    (ms.foldlM readConfigMember c = some d ↔ AfterAll readProxies c.proxies ms (lit "proxies") d.proxies
      ∧ AfterAll readStr c.defaultCluster ms (lit "default_cluster") d.defaultCluster ∧ AfterAll readStr c.token ms (lit "token") d.token)
  | [], p, q, _ => by
    obtain ⟨a, b, c⟩ := p
    obtain ⟨a', b', c'⟩ := q
    simp [AfterAll, eq_comm]
  | e :: ms, p, q, hp => by
    obtain ⟨ht, hne⟩ := plain_tail hp
    have ih := fun p => readConfig_fold ms p q ht
    have hf : foldKey 0 e.1 = asciiLower e.1 := foldKey_ascii (hp.1 e (by simp))
    have d1 : lit "proxies" ≠ lit "default_cluster" := by decide
    have d2 : lit "proxies" ≠ lit "token" := by decide
    have d3 : lit "default_cluster" ≠ lit "token" := by decide
    simp only [List.foldlM_cons, readConfigMember, hf, afterAll_cons]
    generalize hk : asciiLower e.1 = k at hne ⊢
    have abs : ∀ {α : Type} {R : α → JV → Option α} {old v : α}, AfterAll R old ms k v ↔ v = old := fun {_ _ _ _} => afterAll_absent hne
    by_cases h1 : k = lit "proxies"
    · subst h1
      simp only [if_true, d1, d2, if_false]
      cases hr : readProxies p.proxies e.2 with
      | none => simp
      | some v => simp [ih, abs, eq_comm]
    by_cases h2 : k = lit "default_cluster"
    · subst h2
      simp only [if_true, d1.symm, d3, if_false]
      cases hr : readStr p.defaultCluster e.2 with
      | none => simp
      | some v => simp [ih, abs, eq_comm]
    by_cases h3 : k = lit "token"
    · subst h3
      simp only [if_true, d2.symm, d3.symm, if_false]
      cases hr : readStr p.token e.2 with
      | none => simp
      | some v => simp [ih, abs, eq_comm]
    · simp only [h1, h2, h3, if_false]
      exact ih p

/-! ## C93 -/

/-- **C93**: a configuration file without repeated names is loaded exactly as the configuration it means: types, index expressions, default cluster and token, in
any order, with any further members. Missing for the full claim: repeated names (`C93_false_twice`). -/
theorem C93_read_partial {bs : Str} {doc : JV} (hd : parse bs = some doc) (hp : PlainConfig doc) (c : Config) : configText bs = some c ↔ MeansConfig doc c := by
  unfold configText
  rw [hd, Option.bind_some]
  cases doc with
  | obj ms =>
    obtain ⟨h1, h2⟩ := hp ms rfl
    simp only [readConfig, MeansConfig, JV.obj.injEq, reduceCtorEq, false_and, or_false]
    rw [readConfig_fold ms {} c h1, member_iff (means := MeansStr) h1 fun _ _ _ _ => readStr_means, member_iff (means := MeansStr) h1 fun _ _ _ _ => readStr_means,
      member_iff (means := MeansProxies) h1 ?_]
    · simp
    · intro k x hm hk
      cases x with
      | arr xs =>
        simp only [readProxies, MeansProxies, JV.arr.injEq, reduceCtorEq, false_and, or_false]
        rw [readElems_means xs _ fun y hy p => readProxy_means (h2 k xs hm hk y hy)]
        simp
      | null => simp [readProxies, MeansProxies, eq_comm]
      | _ => simp [readProxies, MeansProxies]
  | null => simp [readConfig, MeansConfig, eq_comm]
  | _ => simp [readConfig, MeansConfig]

/-- **C93**: what a load finds has the types and the token of the file, and so has the configuration that is then in force. -/
theorem C93_in_force {kubeArg : Bool} {f : Files} {bs : Str} (hf : f.config = configText bs) {x : Found} (hx : findConf kubeArg f = some x) :
    ∃ c, configText bs = some c ∧ (initConfig x.conf).proxies = c.proxies ∧ (initConfig x.conf).token = c.token := by
  unfold findConf at hx
  rw [hf] at hx
  cases hc : configText bs with
  | none => rw [hc] at hx; simp at hx
  | some c =>
    rw [hc] at hx
    refine ⟨c, rfl, ?_⟩
    have hin : ∀ d : Config, (initConfig d).proxies = d.proxies ∧ (initConfig d).token = d.token := by
      intro d; unfold initConfig; split <;> exact ⟨rfl, rfl⟩
    rw [(hin _).1, (hin _).2]
    simp only at hx
    split at hx
    · unfold loadAccount at hx
      split at hx
      · simp at hx
      · simp only at hx
        split at hx
        · simp at hx
        · simp only [Option.some.injEq] at hx
          subst hx
          simp only
          split <;> exact ⟨rfl, rfl⟩
    · unfold loadKube at hx
      cases hk : f.kube with
      | none => rw [hk] at hx; simp at hx
      | some k =>
        rw [hk] at hx
        obtain ⟨cs, _, rfl⟩ := Option.map_eq_some_iff.mp hx
        exact ⟨rfl, rfl⟩

/-! ## C94 -/

/-- **C94**: a file that is no JSON, and a file in which a member has a value of the wrong kind, is refused: the load fails. Missing for the full claim: misspelt
names (`C94_false_ignored`). -/
theorem C94_refused_partial {kubeArg : Bool} {f : Files} {bs : Str} (hf : f.config = configText bs)
    (hb : parse bs = none ∨ ∃ doc, parse bs = some doc ∧ PlainConfig doc ∧ ∀ c, ¬ MeansConfig doc c) : findConf kubeArg f = none := by
  have hn : configText bs = none := by
    rcases hb with h | ⟨doc, hd, hp, hm⟩
    · unfold configText; rw [h]; rfl
    · cases hc : configText bs with
      | none => rfl
      | some c => exact absurd ((C93_read_partial hd hp c).mp hc) (hm c)
  unfold findConf
  rw [hf, hn]

/-- **C94 is false** for every member with a misspelt name: the file is loaded as if the member were not there. -/
theorem C94_false_ignored (ms ms' : List (Str × JV)) {k : Str} (x : JV) (ha : ∀ b ∈ k, b.toNat < 128)
    (hk : asciiLower k ∉ [lit "proxies", lit "default_cluster", lit "token"]) (c : Config) :
    readConfig c (.obj (ms ++ (k, x) :: ms')) = readConfig c (.obj (ms ++ ms')) := by
  simp only [List.mem_cons, List.not_mem_nil, or_false, not_or] at hk
  obtain ⟨h1, h2, h3⟩ := hk
  simp only [readConfig]
  rw [List.foldlM_append, List.foldlM_append]
  congr 1
  funext d
  rw [List.foldlM_cons]
  simp only [readConfigMember, foldKey_ascii ha, if_neg h1, if_neg h2, if_neg h3]
  rfl

/-- **C94 is false**: with `tokens` for `token` every request is admitted without token. -/
theorem C94_false_open {γ : Type} (hs : Handlers γ) {m p authz : Str} (hp : cleanPath p = p) :
    ∃ c, configText (lit "{\"tokens\": \"secret\"}") = some c ∧ ∃ resp x, serveReq c.token hs m p authz = .answered resp (some x) := by
  have h : (configText (lit "{\"tokens\": \"secret\"}")).map Config.token = some [] := by decide +kernel
  obtain ⟨c, hc, ht⟩ := Option.map_eq_some_iff.mp h
  exact ⟨c, hc, C50_admitted hs hp (Or.inl ht)⟩

/-! ## Examples -/

/-- A file with two types, an unknown member and upper case. -/
def exFile : JV :=
  .obj [(lit "clusters", .obj [(lit "c1", .null)]), (lit "Token", .str (lit "s3")), (lit "proxies", .arr [
    .obj [(lit "group", .str []), (lit "version", .str (lit "v1")), (lit "resource", .str (lit "pods")), (lit "list_kind", .str (lit "PodList")),
      (lit "index", .obj [(lit "name", .str (lit "{.metadata.name}")), (lit "node", .str (lit "{.spec.nodeName}"))])],
    .obj [(lit "resource", .str (lit "deployments")), (lit "group", .str (lit "apps")), (lit "version", .str (lit "v1"))]])]

def exFileConf : Config :=
  { proxies := [⟨[], lit "v1", lit "pods", lit "PodList", [(lit "name", lit "{.metadata.name}"), (lit "node", lit "{.spec.nodeName}")]⟩,
      ⟨lit "apps", lit "v1", lit "deployments", [], []⟩], defaultCluster := [], token := lit "s3" }

/-- The file is plain and means the configuration; it is read so, also from its text. -/
example : PlainConfig exFile ∧ MeansConfig exFile exFileConf ∧ configText (enc exFile) = some exFileConf := by
  have hn : ∀ ms : List (Str × JV), (ms.all fun e => e.1.all fun b => decide (b.toNat < 128)) = true →
      (ms.map fun e => asciiLower e.1).Nodup → PlainNames ms := by
    intro ms h1 h2
    refine ⟨?_, h2⟩
    intro e he b hb
    have := List.all_eq_true.mp (List.all_eq_true.mp h1 e he) b hb
    simpa using this
  have hp : PlainConfig exFile := by
    intro ms hms
    simp only [exFile, JV.obj.injEq] at hms
    subst hms
    refine ⟨hn _ (by decide) (by decide), ?_⟩
    intro k xs hm hk y hy ms' hy'
    simp only [List.mem_cons, Prod.mk.injEq, reduceCtorEq, and_false, JV.arr.injEq, List.not_mem_nil, or_false, false_or] at hm
    obtain ⟨-, rfl⟩ := hm
    simp only [List.mem_cons, List.not_mem_nil, or_false] at hy
    rcases hy with rfl | rfl
    · simp only [JV.obj.injEq] at hy'
      subst hy'
      refine ⟨hn _ (by decide) (by decide), ?_⟩
      intro k' es hm' _
      simp only [List.mem_cons, Prod.mk.injEq, reduceCtorEq, and_false, JV.obj.injEq, List.not_mem_nil, or_false, false_or] at hm'
      obtain ⟨-, rfl⟩ := hm'
      decide
    · simp only [JV.obj.injEq] at hy'
      subst hy'
      refine ⟨hn _ (by decide) (by decide), ?_⟩
      intro k' es hm' _
      simp at hm'
  have hg : Good exFile := by
    simp only [exFile, Good, GoodMembers, GoodElems, true_and, and_true]
    decide
  have hr : readConfig {} exFile = some exFileConf := rfl
  have ht : configText (enc exFile) = some exFileConf := by
    unfold configText
    rw [parse_enc hg, Option.bind_some, hr]
  exact ⟨hp, (C93_read_partial (parse_enc hg) hp _).mp ht, ht⟩

/-- A number for the token is refused. -/
example : (configText (lit "{\"token\": 7}")).isNone = true ∧ (configText (lit "{\"token\": \"7\"")).isNone = true := by
  decide +kernel

/-- **C93 is false** for repeated names, which may differ in case: the last token counts, and of `proxies` the second is written over the first, member by member, so
that the group of the first type becomes the group of another. An index given twice is the union of both, in which the later expression counts. -/
theorem C93_false_twice :
    (configText (lit "{\"token\": \"a\", \"Token\": \"b\"}")).map Config.token = some (lit "b")
    ∧ ((configText (lit "{\"proxies\": [{\"group\": \"apps\", \"version\": \"v1\", \"resource\": \"deployments\"}], \"Proxies\": [{\"resource\": \"pods\"}]}")).map
        fun c => c.proxies.map fun p => (p.group, p.version, p.resource)) = some [(lit "apps", lit "v1", lit "pods")]
    ∧ ((configText (lit "{\"proxies\": [{\"index\": {\"a\": \"1\", \"b\": \"2\"}, \"Index\": {\"b\": \"3\", \"c\": \"4\"}}]}")).map fun c => c.proxies.map fun p => p.index)
      = some [[(lit "a", lit "1"), (lit "b", lit "3"), (lit "c", lit "4")]] := by
  decide +kernel

end Ckube
