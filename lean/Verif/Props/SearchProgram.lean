import Verif.Props.SearchText
import Verif.Props.Programs

/-! # C126 for programs: a program that lists through ckube with a documented search -/

namespace Ckube
open Spec Json

/-! ## Helpers -/

theorem ws_head : ∀ w ∈ whiteSpace, ∀ b r, w = b :: r → b ∉ advPrefix := by
  have h : whiteSpace.all (fun w => match w with | [] => true | b :: _ => decide (b ∉ advPrefix)) = true := by decide +kernel
  intro w hw b r hbr
  have := List.all_eq_true.mp h w hw
  subst hbr
  simpa using this

theorem spaces_head {a : Str} (ha : Spaces a) : ∀ b r, a = b :: r → b ∉ advPrefix := by
  obtain ⟨ws, rfl, hws⟩ := ha
  intro b r h
  cases ws with
  | nil => simp at h
  | cons w ws =>
    have hw := hws w (by simp)
    cases w with
    | nil => exact absurd rfl (ws_ne hw)
    | cons c w =>
      simp only [List.flatten_cons, List.cons_append, List.cons.injEq] at h
      rw [← h.1]
      exact ws_head _ hw c w rfl

/-- White space behind a text does not make it an advanced part. -/
theorem adv_before_spaces {x b : Str} (hb : Spaces b) (h : advPrefix <+: x ++ b) : advPrefix <+: x := by
  obtain ⟨r, hr⟩ := h
  rcases List.append_eq_append_iff.mp hr with ⟨c, h1, h2⟩ | ⟨c, h1, h2⟩
  · exact ⟨c, h1.symm⟩
  · cases c with
    | nil => exact ⟨[], by simpa using h1⟩
    | cons d c =>
      refine absurd ?_ (spaces_head hb d _ h2)
      rw [h1]
      simp

theorem cond_not_adv {c : Cond} {x : Str} (h : CondSays c x) (hp : ∀ qs, c ≠ .select qs) : ¬ advPrefix <+: x := by
  cases h with
  | @text neg t hs heq hadv =>
    cases neg with
    | false => exact hadv rfl
    | true =>
      rintro ⟨r, hr⟩
      have := congrArg List.head? hr
      revert this
      simp [advPrefix, negation, lit]
  | part hk => exact indexKey_adv hk
  | whole hk => exact indexKey_adv hk
  | @select sel qs => exact absurd rfl (hp qs)

theorem chunk_not_adv {cs : List Cond} {p : Str} (h : ChunkSays cs p) (hp : ∀ c ∈ cs, ∀ qs, c ≠ .select qs) : ¬ advPrefix <+: p := by
  have hhead : ∀ {a r : Str}, Spaces a → a ≠ [] → ¬ advPrefix <+: a ++ r := by
    rintro a r ha hne ⟨t, ht⟩
    cases a with
    | nil => exact hne rfl
    | cons b a =>
      refine absurd ?_ (spaces_head ha b a rfl)
      have hc : ∃ d e, advPrefix = d :: e := ⟨95, _, rfl⟩
      obtain ⟨d, e, hde⟩ := hc
      rw [hde] at ht ⊢
      simp only [List.cons_append, List.cons.injEq] at ht
      rw [ht.1]
      simp
  cases h with
  | nothing ha hne => simpa using hhead (r := []) ha hne
  | @cond a x b c ha hc hx hb =>
    show ¬ advPrefix <+: a ++ x ++ b
    rw [List.append_assoc]
    by_cases hne : a = []
    · subst hne
      intro h
      exact cond_not_adv hc (hp c (by simp)) (adv_before_spaces hb h)
    · exact hhead ha hne

/-- Two lists of pairs with distinct keys and the same values under all keys satisfy the same conditions. -/
theorem condHolds_congr {m m' : List (Str × Str)} (hm : IsMap m) (hm' : IsMap m') (h : ∀ k, lookup k m = lookup k m') {c : Cond}
    (hp : ∀ qs, c ≠ .select qs) : CondHolds m c ↔ CondHolds m' c := by
  have hmem : ∀ k v, (k, v) ∈ m ↔ (k, v) ∈ m' := by
    intro k v
    rw [← lookup_iff hm, ← lookup_iff hm', h]
  cases c with
  | text neg t => simp only [CondHolds, hmem]
  | part k neg t => simp only [CondHolds, h]
  | whole k neg t => simp only [CondHolds, h]
  | select qs => exact absurd rfl (hp qs)

/-- What the parts of a search without selector say. -/
theorem search_plain {isPrint : Nat → Bool} {cs : List Cond} {search : Str} (h : SearchSays cs search) (hp : ∀ c ∈ cs, ∀ qs, c ≠ .select qs)
    (hfirst : ∀ r, search ≠ 59 :: r) :
    (∀ p ∈ searchParts search, ¬ advPrefix <+: p ∧ ∀ r, p ≠ lit ";" ++ r)
    ∧ ∀ m : List (Str × Str), (∀ e ∈ m, Printable isPrint e.2) →
      ((∀ c ∈ cs, CondKnown m c) → ∀ p ∈ searchParts search, matchParts isPrint m [p] ≠ none)
      ∧ ((∀ p ∈ searchParts search, matchParts isPrint m [p] = some true) ↔ ∀ c ∈ cs, CondHolds m c) := by
  obtain ⟨chunks, h1, h2, rfl, h4⟩ := h
  have hne : ∀ e ∈ chunks, e.2 ≠ [] :=
    fun e he => (chunk_match (isPrint := isPrint) (m := []) (by simp) (h1 e he)).1
  have hin : ∀ e ∈ chunks, ∀ c ∈ e.1, c ∈ (chunks.map Prod.fst).flatten :=
    fun e he c hc => List.mem_flatten.mpr ⟨_, List.mem_map_of_mem he, hc⟩
  have hpc : ∀ e ∈ chunks, ∀ c ∈ e.1, ∀ qs, c ≠ .select qs := fun e he c hc => hp c (hin e he c hc)
  have hsemi : ∀ e ∈ chunks, ∀ r, e.2 ≠ 59 :: r := by
    cases chunks with
    | nil => simp
    | cons e0 rest =>
      intro e he r
      rcases List.mem_cons.mp he with rfl | he
      · intro hr
        cases rest with
        | nil =>
          refine hfirst (59 :: doubled r) ?_
          rw [h4]
          simp [hr, doubled]
        | cons e1 rest =>
          refine hfirst (59 :: (doubled r ++ [59] ++ [59].intercalate ((e1 :: rest).map fun e => doubled e.2))) ?_
          rw [h4]
          simp [hr, doubled, List.intercalate, List.intersperse]
      · exact h2 e he r
  rw [h4, search_parts hne h2]
  refine ⟨?_, ?_⟩
  · intro p hp'
    obtain ⟨e, he, rfl⟩ := List.mem_map.mp hp'
    exact ⟨chunk_not_adv (h1 e he) (hpc e he), hsemi e he⟩
  · intro m hm
    have hm1 : ∀ p, matchParts isPrint m [p] = match1 isPrint m p := fun _ => rfl
    simp only [hm1]
    refine ⟨?_, ?_, ?_⟩
    · intro hk p hp'
      obtain ⟨e, he, rfl⟩ := List.mem_map.mp hp'
      rw [Ne, (chunk_match hm (h1 e he)).2.1]
      rintro ⟨c, hc, hn⟩
      exact hn (hk c (hin e he c hc))
    · intro hall c hc
      obtain ⟨l, hl, hcl⟩ := List.mem_flatten.mp hc
      obtain ⟨e, he, rfl⟩ := List.mem_map.mp hl
      exact (chunk_match hm (h1 e he)).2.2.mp (hall _ (List.mem_map_of_mem he)) c hcl
    · intro hall p hp'
      obtain ⟨e, he, rfl⟩ := List.mem_map.mp hp'
      exact (chunk_match hm (h1 e he)).2.2.mpr fun c hc => hall c (hin e he c hc)

/-! ## C126 -/

variable {env : Env} {st : StoreI} {tord : Nat → List (Str × Str) → List (Str × Str)} {ord : HReq → Values} {up : Answer → UpRes}
  {obj : Obj → JV} {texts : Answer → Str} {failure : Str}
  {isPrint : Nat → Bool} {alg : SliceSort} {pf : Str → Option GoFloat} {eval : Str → Obj → Str}
  {conf : List (GVR × List (Str × Str))} {h : List Notice} {s : Store} {token authz : Str} {rest : Handlers Answer} {objs : List ((Str × Str) × Obj)}

/-- The object satisfies the conditions: those hold for its index in the cluster. -/
def Spec.Fulfils (eval : Str → Obj → Str) (conf : List (Str × Str)) (cluster : Str) (cs : List Cond) (o : Obj) : Prop :=
  ∃ idx, IsIndex eval conf cluster o idx ∧ ∀ c ∈ cs, CondHolds idx c

open Classical in
/-- **C126** for programs: a program that lists a type through ckube with a search that says the conditions `cs` learns how many objects of the
default cluster satisfy all of them, and gets its page of those, ordered by namespace and name; a page behind the last one is an error.
Missing for the full claim: what is missing in `C126_read_partial`, selectors in the search, a search that begins with a semicolon, other orders,
and objects of any cluster without an index that the search names. -/
theorem C126_program_partial {t : Target} (hr : Running env st ord obj isPrint alg pf eval conf h s token authz ⟨t.group, t.version, t.resource⟩ objs)
    (hv : t.Valid) (hsub : t.sub = []) (hname : t.name = []) (hns : t.ns = [])
    (hu : validUtf8 (apiVersionOf ⟨t.group, t.version, t.resource⟩) = true ∧ validUtf8 t.path = true)
    {text : Str} {page : Paginate} {cs : List Cond} (hsays : SearchSays cs page.search) (hplain : ∀ c ∈ cs, ∀ qs, c ≠ .select qs)
    (hfirst : ∀ r, page.search ≠ 59 :: r)
    (hpage : -2^63 ≤ page.page ∧ page.page < 2^63) (hsize : -2^63 ≤ page.pageSize ∧ page.pageSize < 2^63)
    (htotal : -2^63 ≤ page.total ∧ page.total < 2^63) (hsort : page.sort = []) (hsearch : validUtf8 page.search = true)
    (hlen : (Base64.encode page.toJson).length ≤ 10024) (hq : queryListOptions [] page = some text)
    (hpaging : (page.page = 0 ∧ page.pageSize = 0) ∨ (1 ≤ page.page ∧ 1 ≤ page.pageSize ∧ page.page * page.pageSize < 9223372036854775808))
    (hknown : ∀ id o idx, Latest eval (confAt conf) h id o → id.gvr = ⟨t.group, t.version, t.resource⟩ →
      IsIndex eval (confAt conf ⟨t.group, t.version, t.resource⟩) id.cluster o idx →
      (∀ e ∈ idx, Printable isPrint e.2) ∧ ∀ c ∈ cs, CondKnown idx c) :
    let good := objs.filter fun e => decide (Fulfils eval (confAt conf ⟨t.group, t.version, t.resource⟩) env.defaultCluster cs e.2)
    ∃ (all : List ((Str × Str) × Obj)) (items : List Obj), all.Perm good
      ∧ (all.map Prod.fst).Pairwise NsNameLe
      ∧ List.Forall₂ (fun e o => SameButMarks e.2 o) all items
      ∧ listProgram (ckubeServe env st tord ord up rest token authz) (ckubeBody env ord obj texts failure t) t.path [] page
          = if page.page ≠ 0 ∧ page.page ≠ 1 ∧ (good.length : Int) ≤ (page.page - 1) * page.pageSize then none
            else some ((good.length : Int), (pageOf page.page page.pageSize items).map obj) := by
  intro good
  have hmir := CaughtUp.mirrors (eval := eval) (conf := conf) hr.caught
  obtain ⟨g1, g2⟩ := search_plain (isPrint := isPrint) hsays hplain hfirst
  have hno : getClusters page.search = [] := by
    have hs : FirstReqs page.search [] := Or.inl ⟨fun p hp => (g1 p hp).1, rfl⟩
    unfold getClusters searchSelector
    have : (searchParts page.search).find? (hasPrefix · advPrefix) = none := by
      rw [List.find?_eq_none]
      intro p hp
      have := (g1 p hp).1
      simpa [hasPrefix] using this
    rw [this]
    rfl
  refine program_default (env := env) (st := st) (tord := tord) (ord := ord) (up := up) (obj := obj)
    (texts := texts) (failure := failure) (rest := rest) (t := t)
    hr.config hr.run hr.api hr.serves hr.order hr.auth hv hsub hname hns hr.stored ⟨hu.1, hr.kind, hu.2⟩ hr.json
    hpage hsize htotal hsort hsearch hlen hq hpaging g1 hno hr.cluster.1 hr.cluster.2 hr.caught hr.empty ?_ _ ?_ hr.size
  · intro id o idx hl hg hi p hp
    obtain ⟨k1, k2⟩ := hknown id o idx hl hg hi
    exact (g2 idx k1).1 k2 p hp
  · intro e hee hom idx hi
    have hin := (hmir.1 e.1.1 e.1.2 e.2).mpr (lookup_eq_some_of_mem hmir.2.1 hee)
    obtain ⟨k1, -⟩ := hknown _ _ idx hin rfl hi
    rw [(g2 idx k1).2, decide_eq_true_eq]
    constructor
    · exact fun hall => ⟨idx, hi, hall⟩
    · rintro ⟨idx', hi', hall⟩ c hc
      exact (condHolds_congr hi'.1 hi.1 (fun k => by rw [hi'.2, hi.2]) (hplain c hc)).mp (hall c hc)

/-! ## An example

The ckube of `exNs_running`, whose default cluster has the namespaces `default` and `prod`. -/

/-- The index values of the two namespaces. -/
theorem exNs_values {name : String} (hn : name = "default" ∨ name = "prod") {idx : List (Str × Str)}
    (hi : IsIndex exEval (confAt exNsConf nsGVR) (lit "c1") (exNs name) idx) :
    (∀ e ∈ idx, Printable (fun _ => true) e.2 ∧ ¬ lit "e2" <:+: e.2) ∧ lookup (lit "name") idx = some (lit name) := by
  have hname : lookup (lit "name") idx = some (lit name) := index_name (m := { name := lit name }) rfl hi
  refine ⟨?_, hname⟩
  rintro ⟨k, v⟩ he
  have hv := lookup_eq_some_of_mem hi.1 he
  rw [hi.2] at hv
  have hconf : confAt exNsConf nsGVR = [(lit "phase", lit "{.status.phase}")] := by decide +kernel
  have hp : v = lit "c1" ∨ v = lit "false" ∨ v = [] ∨ v = lit name := by
    unfold indexValueOf at hv
    simp only [exNs] at hv
    by_cases h1 : k = lit "cluster"
    · rw [if_pos h1, Option.some.injEq] at hv
      exact Or.inl hv.symm
    rw [if_neg h1] at hv
    by_cases h2 : k = lit "is_deleted"
    · rw [if_pos h2, Option.some.injEq] at hv
      exact Or.inr (Or.inl (by rw [← hv]; rfl))
    rw [if_neg h2] at hv
    by_cases h3 : k = lit "namespace"
    · rw [if_pos h3, Option.some.injEq] at hv
      exact Or.inr (Or.inr (Or.inl hv.symm))
    rw [if_neg h3] at hv
    by_cases h4 : k = lit "name"
    · rw [if_pos h4, Option.some.injEq] at hv
      exact Or.inr (Or.inr (Or.inr hv.symm))
    rw [if_neg h4, hconf] at hv
    by_cases h5 : k = lit "phase"
    · subst h5
      have h6 : lookup (lit "phase") [(lit "phase", lit "{.status.phase}")] = some (lit "{.status.phase}") := by decide +kernel
      rw [h6, Option.map_some, Option.some.injEq] at hv
      refine Or.inr (Or.inr (Or.inr ?_))
      rw [← hv]
      rcases hn with rfl | rfl <;> decide +kernel
    · rw [show lookup k [(lit "phase", lit "{.status.phase}")] = none by simp [lookup, Ne.symm h5]] at hv
      simp at hv
  show Printable _ v ∧ ¬ lit "e2" <:+: v
  clear hv he
  unfold Printable
  rcases hp with rfl | rfl | rfl | rfl
  · decide +kernel
  · decide +kernel
  · decide +kernel
  · rcases hn with rfl | rfl <;> decide +kernel

theorem exNs_latest {id : Ident} {o : Obj} (h : Latest exEval (confAt exNsConf) exNsHist id o) :
    id.cluster = lit "c1" ∧ (o = exNs "default" ∨ o = exNs "prod") := by
  obtain ⟨h1, n, h2, e, hw, -⟩ := h
  have hn : n ∈ exNsHist := by rw [e]; simp
  simp only [exNsHist, List.mem_cons, List.not_mem_nil, or_false] at hn
  rcases hn with rfl | rfl | rfl
  · exact hw.elim
  · obtain ⟨rfl, rfl⟩ := hw
    exact ⟨rfl, Or.inl rfl⟩
  · obtain ⟨rfl, rfl⟩ := hw
    exact ⟨rfl, Or.inr rfl⟩

theorem exNsSearch_says : SearchSays [.part (lit "name") false (lit "fault"), .text true (lit "e2")] (lit "name=fault ; !e2") := by
  have sp : Spaces (lit " ") := ⟨[[32]], by decide, by decide⟩
  refine ⟨[([.part (lit "name") false (lit "fault")], lit "name=fault "), ([.text true (lit "e2")], lit " !e2")], ?_, ?_, rfl, by decide +kernel⟩
  · intro e he
    simp only [List.mem_cons, List.not_mem_nil, or_false] at he
    rcases he with rfl | rfl
    · exact .cond (a := []) (x := lit "name=fault") (b := lit " ") spaces_nil (.part (k := lit "name") (neg := false) (v := lit "fault")
        (indexKey_of (by decide) (by decide +kernel)) (sought_of (by decide) (by decide))) (solid_of (by decide) (by decide +kernel)) sp
    · exact .cond (a := lit " ") (x := lit "!e2") (b := []) sp (.text (neg := true) (t := lit "e2") (sought_of (by decide) (by decide)) (by decide) (by simp))
        (solid_of (by decide) (by decide +kernel)) spaces_nil
  · intro e he r
    simp only [List.tail_cons, List.mem_cons, List.not_mem_nil, or_false] at he
    subst he
    simp [lit]

open Classical in
/-- A program that asks it for the namespaces with `fault` in their name and `e2` in no index value is told that there is one, and gets one. -/
example {tord : Nat → List (Str × Str) → List (Str × Str)} {up : Answer → UpRes} {texts : Answer → Str} {failure : Str} {rest : Handlers Answer} :
    ∃ x, listProgram (ckubeServe exEnv exNsI tord (fun r => parseQuery r.rawQuery) up rest (lit "secret") (lit "Bearer secret"))
      (ckubeBody exEnv (fun r => parseQuery r.rawQuery) (fun _ => .obj [(lit "kind", .str (lit "Namespace"))]) texts failure (coreList "namespaces"))
      (coreList "namespaces").path [] { search := lit "name=fault ; !e2" } = some (1, [x]) := by
  obtain ⟨hv, hp⟩ := coreList_valid (Or.inr rfl : "namespaces" = "pods" ∨ "namespaces" = "namespaces")
  obtain ⟨all, items, h1, -, h3, h4⟩ := C126_program_partial (t := coreList "namespaces") (tord := tord) (up := up) (texts := texts) (failure := failure) (rest := rest)
    exNs_running hv rfl rfl rfl ⟨by decide +kernel, hp⟩ (page := { search := lit "name=fault ; !e2" })
    (text := lit "ckube.daocloud.io/query notin (eyJzZWFyY2giOiJuYW1lPWZhdWx0IDsgIWUyIn0)")
    exNsSearch_says (by simp) (by intro r; simp [lit]) (by decide) (by decide) (by decide) rfl (by decide +kernel) (by decide +kernel) (by decide +kernel) (Or.inl (by decide))
    (by
      intro id o idx hl _ hi
      obtain ⟨hc, ho⟩ := exNs_latest hl
      rw [hc] at hi
      have : ∃ name, (name = "default" ∨ name = "prod") ∧ o = exNs name := by
        rcases ho with rfl | rfl
        · exact ⟨_, Or.inl rfl, rfl⟩
        · exact ⟨_, Or.inr rfl, rfl⟩
      obtain ⟨name, hn, rfl⟩ := this
      obtain ⟨k1, k2⟩ := exNs_values hn hi
      refine ⟨fun e he => (k1 e he).1, ?_⟩
      intro c hc
      simp only [List.mem_cons, List.not_mem_nil, or_false] at hc
      rcases hc with rfl | rfl
      · exact ⟨_, k2⟩
      · trivial)
  have hcm : IsMap (confAt exNsConf nsGVR) := confAt_isMap exNs_running.config _
  have hyes : Fulfils exEval (confAt exNsConf nsGVR) (lit "c1") [.part (lit "name") false (lit "fault"), .text true (lit "e2")] (exNs "default") := by
    refine ⟨_, build_index exEval hcm _ _, ?_⟩
    obtain ⟨k1, k2⟩ := exNs_values (Or.inl rfl) (build_index exEval hcm (lit "c1") (exNs "default"))
    intro c hc
    simp only [List.mem_cons, List.not_mem_nil, or_false] at hc
    rcases hc with rfl | rfl
    · exact ⟨_, k2, by decide +kernel⟩
    · refine ⟨by simp, ?_⟩
      rintro ⟨k, v, hkv, hin⟩
      exact absurd hin (k1 _ hkv).2
  have hnot : ¬ Fulfils exEval (confAt exNsConf nsGVR) (lit "c1") [.part (lit "name") false (lit "fault"), .text true (lit "e2")] (exNs "prod") := by
    rintro ⟨idx, hi, hall⟩
    obtain ⟨v, hv, hin⟩ := hall (.part (lit "name") false (lit "fault")) (by simp)
    rw [(exNs_values (Or.inr rfl) hi).2, Option.some.injEq] at hv
    subst hv
    revert hin
    decide +kernel
  have hgood : exNsObjs.filter (fun e => decide (Fulfils exEval (confAt exNsConf nsGVR) (lit "c1")
      [.part (lit "name") false (lit "fault"), .text true (lit "e2")] e.2)) = [(([], lit "default"), exNs "default")] := by
    unfold exNsObjs
    rw [List.filter_cons_of_pos (by simpa using hyes), List.filter_cons_of_neg (by simpa using hnot), List.filter_nil]
  have hgood' : exNsObjs.filter (fun e => decide (Fulfils exEval (confAt exNsConf ⟨(coreList "namespaces").group, (coreList "namespaces").version,
      (coreList "namespaces").resource⟩) exEnv.defaultCluster [.part (lit "name") false (lit "fault"), .text true (lit "e2")] e.2))
      = [(([], lit "default"), exNs "default")] := hgood
  rw [hgood'] at h1 h4
  have hli : items.length = 1 := by rw [← h3.length_eq, h1.length_eq]; rfl
  obtain ⟨o, rfl⟩ := List.length_eq_one_iff.mp hli
  rw [h4, if_neg (by simp)]
  exact ⟨_, rfl⟩

end Ckube
