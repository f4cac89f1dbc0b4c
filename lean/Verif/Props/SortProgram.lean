import Verif.Props.SortText
import Verif.Lemmas.SearchSelect

/-! # C127 for programs: a program that lists clusters through ckube with a search and an order of PAGINATE_SPEC.md -/

namespace Ckube
open Spec Json

/-- ckube runs with an empty or known token, and serves the lists of type `g` from its cache. -/
structure Spec.Answering (env : Env) (st : StoreI) (ord : HReq → Values) (obj : Obj → JV) (isPrint : Nat → Bool) (alg : SliceSort)
    (eval : Str → Obj → Str) (conf : List (GVR × List (Str × Str))) (h : List Notice) (s : Store) (token authz : Str) (g : GVR) : Prop where
  config : ConfOK conf
  run : (newStore conf).run eval h = some s
  api : ApiObjects h
  serves : Serves isPrint alg parseFloat64 s st
  order : ∀ r, (ord r).Perm (parseQuery r.rawQuery)
  auth : token = [] ∨ token <:+: authz
  stored : st.isStoreGVR g = true
  kind : validUtf8 (gvrKind env.proxies g.group g.version g.resource) = true
  json : ∀ o, Good (obj o)

/-- Objects in the order of the keys are in the order of the indexes that the keys name. -/
theorem keysLt_precede {eval : Str → Obj → Str} {cf : List (Str × Str)} {x y : (Str × Str × Str) × Obj} {ix iy : List (Str × Str)}
    (hx : IsIndex eval cf x.1.1 x.2 ix) (hy : IsIndex eval cf y.1.1 y.2 iy) :
    ∀ {ks : List SortKey}, (∀ k ∈ ks, HasKey ix k) → (∀ k ∈ ks, HasKey iy k) → KeysLt parseFloat64 (valueUnder eval cf) ks x y →
      MayPrecede ks ix iy
  | [], _, _, _ => trivial
  | k :: ks, ha, hb, h => by
    have ha0 := ha k (by simp)
    have hb0 := hb k (by simp)
    have vx : ∀ k, valueUnder eval cf x k = SObj.val ⟨ix, x.2⟩ k := by intro k; rw [valueUnder, SObj.val, hx.2]
    have vy : ∀ k, valueUnder eval cf y k = SObj.val ⟨iy, y.2⟩ k := by intro k; rw [valueUnder, SObj.val, hy.2]
    rw [KeysLt] at h
    rcases h with h | ⟨h1, h2⟩
    · left
      obtain ⟨kk, num, rev⟩ := k
      cases num <;> cases rev <;> simp only [vx, vy] at h
      · exact value_lt (k := ⟨kk, false, false⟩) (a := ⟨ix, x.2⟩) (b := ⟨iy, y.2⟩) ha0 hb0 h
      · exact value_lt (k := ⟨kk, false, true⟩) (a := ⟨iy, y.2⟩) (b := ⟨ix, x.2⟩) hb0 ha0 h
      · exact value_lt (k := ⟨kk, true, false⟩) (a := ⟨ix, x.2⟩) (b := ⟨iy, y.2⟩) ha0 hb0 h
      · exact value_lt (k := ⟨kk, true, true⟩) (a := ⟨iy, y.2⟩) (b := ⟨ix, x.2⟩) hb0 ha0 h
    · right
      refine ⟨value_eq (a := ⟨ix, x.2⟩) (b := ⟨iy, y.2⟩) ha0 hb0 ?_,
        keysLt_precede hx hy (fun k hk => ha k (List.mem_cons_of_mem _ hk)) (fun k hk => hb k (List.mem_cons_of_mem _ hk)) h2⟩
      rw [ValueEq, ← vx, ← vy]
      exact h1

variable {env : Env} {st : StoreI} {tord : Nat → List (Str × Str) → List (Str × Str)} {ord : HReq → Values} {up : Answer → UpRes}
  {obj : Obj → JV} {texts : Answer → Str} {failure : Str}
  {isPrint : Nat → Bool} {alg : SliceSort} {eval : Str → Obj → Str}
  {conf : List (GVR × List (Str × Str))} {h : List Notice} {s : Store} {token authz : Str} {rest : Handlers Answer}

/-- **C127** for programs: a program lists a type through ckube with a label selector, a search text that says the conditions `cs`, a sort text that
says the keys `ks`, restricted to some clusters or to none, which means the default cluster. It learns how many objects those clusters have, in the
namespace that it asked for, that satisfy its selector and all conditions, and gets its page of those in the order of the keys; a page behind
the last one is an error. Missing for the full claim: what is missing in `C127_answered_partial`, several selectors in the search, or
with white space around them or on clusters (`OneSelector`), a search that begins with a
semicolon, sort texts without cluster, namespace or name, selectors with other requirements than equalities (`lastEqualities`), and clusters with
objects without an index that a text names. -/
theorem C127_program_partial {t : Target} (hr : Answering env st ord obj isPrint alg eval conf h s token authz ⟨t.group, t.version, t.resource⟩)
    (hv : t.Valid) (hsub : t.sub = []) (hname : t.name = [])
    (hu : validUtf8 (apiVersionOf ⟨t.group, t.version, t.resource⟩) = true ∧ validUtf8 t.path = true)
    -- the options
    {sel text : Str} {reqs : List Req} {page : Paginate} (hc : CallerSelector sel reqs)
    (hpage : -2^63 ≤ page.page ∧ page.page < 2^63) (hsize : -2^63 ≤ page.pageSize ∧ page.pageSize < 2^63)
    (htotal : -2^63 ≤ page.total ∧ page.total < 2^63) (hsort : validUtf8 page.sort = true) (hsearch : validUtf8 page.search = true)
    (hlen : (Base64.encode page.toJson).length ≤ 10024) (hq : queryListOptions sel page = some text)
    (hpaging : (page.page = 0 ∧ page.pageSize = 0) ∨ (1 ≤ page.page ∧ 1 ≤ page.pageSize ∧ page.page * page.pageSize < 9223372036854775808))
    -- the search and the order
    {search : Str} {clusters : List Str} (hset : Restricted env search [] clusters page.search)
    {cs : List Cond} (hsays : SearchSays cs search) (hone : OneSelector cs search) (hfirst : ∀ r, search ≠ 59 :: r)
    {ks : List SortKey} (hks : SortSays ks page.sort) (htot : TotalKeys ks)
    -- the clusters
    {objs : Str → List ((Str × Str) × Obj)} (hup : ∀ c ∈ clusters, CaughtUp ⟨t.group, t.version, t.resource⟩ c h (objs c))
    -- search and order make sense for all objects
    (hknown : ∀ id o idx, Latest eval (confAt conf) h id o → id.gvr = ⟨t.group, t.version, t.resource⟩ →
      IsIndex eval (confAt conf ⟨t.group, t.version, t.resource⟩) id.cluster o idx →
      (∀ e ∈ idx, Printable isPrint e.2) ∧ ∀ c ∈ cs, CondKnown idx c)
    (hhas : ∀ c ∈ clusters, ∀ e ∈ objs c, ∀ idx, IsIndex eval (confAt conf ⟨t.group, t.version, t.resource⟩) c e.2 idx → ∀ k ∈ ks, HasKey idx k)
    (hkeys : ∀ k ∈ ks, k.key ∈ (confAt conf ⟨t.group, t.version, t.resource⟩).map Prod.fst
      ∨ k.key ∈ [lit "cluster", lit "is_deleted", lit "namespace", lit "name"]) :
    ∃ (all : List ((Str × Str × Str) × Obj)) (items : List Obj), all.Nodup
      ∧ (∀ e, e ∈ all ↔ e.1.1 ∈ clusters ∧ (e.1.2, e.2) ∈ objs e.1.1 ∧ (t.ns = [] ∨ t.ns = e.1.2.1)
        ∧ (∀ q ∈ lastEqualities reqs, ReqHolds q (labelsOf e.2)) ∧ Fulfils eval (confAt conf ⟨t.group, t.version, t.resource⟩) e.1.1 cs e.2)
      ∧ all.Pairwise (fun a b => ∀ ia ib, IsIndex eval (confAt conf ⟨t.group, t.version, t.resource⟩) a.1.1 a.2 ia →
          IsIndex eval (confAt conf ⟨t.group, t.version, t.resource⟩) b.1.1 b.2 ib → MayPrecede ks ia ib)
      ∧ List.Forall₂ (fun e o => SameButMarks e.2 o) all items
      ∧ ((all.length : Int) < 9223372036854775808 →
        listProgram (ckubeServe env st tord ord up rest token authz) (ckubeBody env ord obj texts failure t) t.path sel page
          = if page.page ≠ 0 ∧ page.page ≠ 1 ∧ (all.length : Int) ≤ (page.page - 1) * page.pageSize then none
            else some ((all.length : Int), (pageOf page.page page.pageSize items).map obj)) := by
  obtain ⟨qs, hadv, hsep, hops, -, g2⟩ := search_selecting (isPrint := isPrint) hsays hone hfirst
  have hset : Restricted env search qs clusters page.search := hset.imp_right fun ⟨h1, h2, h3, h4, h5, _⟩ => ⟨h1, h2, h3, h4, h5, hops⟩
  have hmir : ∀ c ∈ clusters, Mirrors eval conf ⟨t.group, t.version, t.resource⟩ c h (objs c) := fun c hc' => CaughtUp.mirrors (hup c hc')
  have hcm : IsMap (confAt conf ⟨t.group, t.version, t.resource⟩) := confAt_isMap hr.config _
  have hnumval : ∀ c ∈ clusters, ∀ e ∈ objs c, ∀ k ∈ ks, k.num = true →
      ∃ v x, indexValueOf eval (confAt conf ⟨t.group, t.version, t.resource⟩) c e.2 k.key = some v ∧ parseFloat64 v = some (.num x) := by
    intro c hc' e he k hk hn
    have := hhas c hc' e he _ (build_index eval hcm c e.2) k hk
    rw [HasKey, if_pos hn] at this
    obtain ⟨i, v, hv1, hv2, hv3⟩ := this
    obtain ⟨x, hx, -⟩ := C114_small hv2 (by exact_mod_cast hv3)
    exact ⟨v, x, by rw [← (build_index eval hcm c e.2).2]; exact hv1, hx⟩
  obtain ⟨all, items, a1, a2, a3, a4⟩ := C105_program_partial (env := env) (st := st) (tord := tord) (ord := ord) (up := up) (obj := obj)
    (texts := texts) (failure := failure) (rest := rest) (cs := clusters) (objs := objs)
    hr.config hr.run hr.api hr.serves hr.order hr.auth hv hsub hname hr.stored ⟨hu.1, hr.kind, hu.2⟩ hr.json hc hpage hsize htotal hsort hsearch
    hlen hq hpaging hset hadv hsep (sortSays_means hks) htot hup (by unfold EmptyNoNaN; decide +kernel)
    (by
      intro c hc' e he k hk hn
      obtain ⟨v, x, h1, h2⟩ := hnumval c hc' e he k hk hn
      rw [valueUnder, h1, Option.getD_some, h2]
      simp)
    (by
      intro id o idx h1 h2 _ h3 p hp _
      obtain ⟨k1, k2⟩ := hknown id o idx h1 h2 h3
      exact (g2 idx).1 k2 k1 p hp)
    hkeys
    (by
      intro c hc' e he k hk hn
      obtain ⟨v, x, h1, h2⟩ := hnumval c hc' e he k hk hn
      exact ⟨v, h1, by rw [number, h2]; rfl⟩)
  refine ⟨all, items, a2.imp (fun {a b} hab => by rintro rfl; exact keysLt_irrefl hab), ?_, ?_, a3, a4⟩
  · intro e
    rw [a1 e]
    refine and_congr_right fun hcl => and_congr_right fun hob => and_congr_right fun _ => and_congr_right fun _ => ?_
    have hin := ((hmir _ hcl).1 e.1.2.1 e.1.2.2 e.2).mpr (lookup_eq_some_of_mem (hmir _ hcl).2.1 hob)
    constructor
    · rintro ⟨idx, h3, h4⟩
      exact ⟨idx, h3, ((g2 idx).2 (hknown _ _ idx hin rfl h3).1).mp h4⟩
    · rintro ⟨idx, h3, h4⟩
      exact ⟨idx, h3, ((g2 idx).2 (hknown _ _ idx hin rfl h3).1).mpr h4⟩
  · refine a2.imp_of_mem fun {a b} ha hb hab ia ib hia hib => ?_
    obtain ⟨a5, a6, -⟩ := (a1 a).mp ha
    obtain ⟨b5, b6, -⟩ := (a1 b).mp hb
    exact keysLt_precede hia hib (hhas _ a5 _ a6 ia hia) (hhas _ b5 _ b6 ib hib) hab

/-! ## An example

Two clusters with pods that have a number; the program asks for all of them, those with the largest numbers first. -/

def exDuoHist : List Notice :=
  [.clean exPods (lit "c1"), .added exPods (lit "c1") (exPod "x" "9"), .clean exPods (lit "c2"), .added exPods (lit "c2") (exPod "x" "30"),
   .added exPods (lit "c1") (exPod "y" "10")]

def exDuoObjs (c : Str) : List ((Str × Str) × Obj) :=
  if c = lit "c1" then [((lit "prod", lit "x"), exPod "x" "9"), ((lit "prod", lit "y"), exPod "y" "10")] else [((lit "prod", lit "x"), exPod "x" "30")]

def exDuoStore : Store := ((newStore exConf).run exEval exDuoHist).getD (newStore exConf)

def exDuoI : StoreI := ⟨exDuoStore.isStoreGVR, exDuoStore.get, exDuoStore.query (fun _ => true) insertionSort parseFloat64⟩

def exDuoKeys : List SortKey := [⟨lit "node", true, true⟩, ⟨lit "cluster", false, false⟩, ⟨lit "namespace", false, false⟩, ⟨lit "name", false, false⟩]

def exDuoPage : Paginate :=
  { page := 1, pageSize := 2, sort := lit "node!int desc,cluster,namespace,name", search := lit "__ckube_as__:cluster in (c1,c2),name notin (z);name=!q" }

theorem exDuo_answering : Answering exEnv exDuoI (fun r => parseQuery r.rawQuery) (fun _ => .obj [(lit "kind", .str (lit "Pod"))]) (fun _ => true)
    insertionSort exEval exConf exDuoHist exDuoStore (lit "secret") (lit "Bearer secret") podGVR where
  config := ⟨by decide +kernel, by decide +kernel⟩
  run := by
    have : ((newStore exConf).run exEval exDuoHist).isSome = true := by decide +kernel
    obtain ⟨s, hs⟩ := Option.isSome_iff_exists.mp this
    unfold exDuoStore
    rw [hs, Option.getD_some]
  api := by
    intro n hn
    simp only [exDuoHist, List.mem_cons, List.not_mem_nil, or_false] at hn
    rcases hn with rfl | rfl | rfl | rfl | rfl <;> trivial
  serves := serves_self _ _ _ _
  order := fun _ => List.Perm.refl _
  auth := Or.inr ⟨lit "Bearer ", [], by decide⟩
  stored := by decide +kernel
  kind := by decide +kernel
  json := by
    intro o
    simp only [Good, GoodMembers, and_true]
    decide +kernel

theorem exDuo_caught : ∀ c ∈ [lit "c1", lit "c2"], CaughtUp podGVR c exDuoHist (exDuoObjs c) := by
  intro c hc
  simp only [List.mem_cons, List.not_mem_nil, or_false] at hc
  rcases hc with rfl | rfl
  · have s1 := SysRun.step (.refl {}) (SysStep.create (r := podGVR) (c := lit "c1") (s := {}) (o := exPod "x" "9") (k := (lit "prod", lit "x")) rfl rfl)
    have s2 := SysRun.step s1 (.opened (p := .streaming true) (out := []) (List.Perm.refl _) rfl)
    have s3 := SysRun.step s2 (.create (o := exPod "y" "10") (k := (lit "prod", lit "y")) rfl (by decide +kernel))
    have s4 := SysRun.step s3 (.deliver (p := .streaming false) (t := .added) (o := exPod "x" "9") rfl rfl)
    have s5 := SysRun.step s4 (.deliver (p := .streaming false) (t := .added) (o := exPod "y" "10") rfl rfl)
    exact ⟨_, false, s5, rfl, rfl, Or.inl rfl, rfl, by decide +kernel⟩
  · have s1 := SysRun.step (.refl {}) (SysStep.create (r := podGVR) (c := lit "c2") (s := {}) (o := exPod "x" "30") (k := (lit "prod", lit "x")) rfl rfl)
    have s2 := SysRun.step s1 (.opened (p := .streaming true) (out := []) (List.Perm.refl _) rfl)
    have s4 := SysRun.step s2 (.deliver (p := .streaming false) (t := .added) (o := exPod "x" "30") rfl rfl)
    exact ⟨_, false, s4, rfl, rfl, Or.inl rfl, rfl, by decide +kernel⟩

theorem exDuoKeys_says : SortSays exDuoKeys exDuoPage.sort := by
  refine Or.inr ⟨by decide, [([⟨lit "node", true, true⟩], lit "node!int desc"), ([⟨lit "cluster", false, false⟩], lit "cluster"),
    ([⟨lit "namespace", false, false⟩], lit "namespace"), ([⟨lit "name", false, false⟩], lit "name")], ?_, rfl, by decide +kernel⟩
  intro e he
  simp only [List.mem_cons, List.not_mem_nil, or_false] at he
  rcases he with rfl | rfl | rfl | rfl
  · exact .item (a := []) (x := lit "node!int desc") (b := []) spaces_nil (.mk (k := lit "node") (typ := lit "!int") (dir := lit " desc") (num := true) (rev := true)
      (indexKey_of (by decide) (by decide +kernel)) (by decide) (by decide)) spaces_nil
  · exact .item (a := []) (x := lit "cluster") (b := []) spaces_nil (.mk (k := lit "cluster") (typ := []) (dir := []) (num := false) (rev := false)
      (indexKey_of (by decide) (by decide +kernel)) (by decide) (by decide)) spaces_nil
  · exact .item (a := []) (x := lit "namespace") (b := []) spaces_nil (.mk (k := lit "namespace") (typ := []) (dir := []) (num := false) (rev := false)
      (indexKey_of (by decide) (by decide +kernel)) (by decide) (by decide)) spaces_nil
  · exact .item (a := []) (x := lit "name") (b := []) spaces_nil (.mk (k := lit "name") (typ := []) (dir := []) (num := false) (rev := false)
      (indexKey_of (by decide) (by decide +kernel)) (by decide) (by decide)) spaces_nil

/-- The search of the example: the name has no `q` in it and is not `z`. -/
def exDuoSearch : Str := lit "name=!q;__ckube_as__:name!=z"

def exDuoConds : List Cond := [.part (lit "name") true (lit "q"), .select [⟨lit "name", .neq, [lit "z"]⟩]]

theorem exDuoSearch_says : SearchSays exDuoConds exDuoSearch := by
  have hsel : SelectorSays [⟨lit "name", .neq, [lit "z"]⟩] (lit "name!=z") :=
    .one (a := []) (b := []) blank_nil (TermSays.compare (k := lit "name") (a := []) (u := lit "!=") (b := []) (v := lit "z") (legal_key.mpr (by decide +kernel)) blank_nil
      (by decide +kernel) blank_nil (legal_value.mpr (by decide +kernel)) (by simp)) blank_nil
  refine ⟨[([.part (lit "name") true (lit "q")], lit "name=!q"), ([.select [⟨lit "name", .neq, [lit "z"]⟩]], lit "__ckube_as__:name!=z")], ?_, ?_, rfl, by decide +kernel⟩
  · intro e he
    simp only [List.mem_cons, List.not_mem_nil, or_false] at he
    rcases he with rfl | rfl
    · exact .cond (a := []) (x := lit "name=!q") (b := []) spaces_nil (.part (k := lit "name") (neg := true) (v := lit "q") (indexKey_of (by decide) (by decide +kernel))
        (sought_of (by decide) (by decide))) (solid_of (by decide) (by decide +kernel)) spaces_nil
    · exact .cond (a := []) (x := lit "__ckube_as__:name!=z") (b := []) spaces_nil (.select (sel := lit "name!=z") (by decide) hsel ⟨by simp, by simp⟩)
        (solid_of (by decide) (by decide +kernel)) spaces_nil
  · intro e he r
    simp only [List.tail_cons, List.mem_cons, List.not_mem_nil, or_false] at he
    subst he
    simp [lit]

theorem exDuo_one : OneSelector exDuoConds exDuoSearch := by
  have hp : searchParts exDuoSearch = [lit "name=!q", lit "__ckube_as__:name!=z"] := by decide +kernel
  refine ⟨?_, ?_, ?_⟩
  · rw [exDuoConds, List.pairwise_cons]
    refine ⟨?_, List.pairwise_singleton _ _⟩
    rintro b - ⟨qs, h⟩
    cases h
  · intro p hpm a x b ha _ hb _ he
    have hs : Solid p := by
      rw [hp] at hpm
      simp only [List.mem_cons, List.not_mem_nil, or_false] at hpm
      rcases hpm with rfl | rfl
      · exact solid_of (by decide) (by decide +kernel)
      · exact solid_of (by decide) (by decide +kernel)
    rw [he] at hs
    exact solid_bare hs ha hb
  · intro qs hq q hqm
    simp only [exDuoConds, List.mem_cons, List.not_mem_nil, or_false, reduceCtorEq, false_or, Cond.select.injEq] at hq
    subst hq
    rw [List.mem_singleton] at hqm
    subst hqm
    exact ⟨by decide, fun _ => ⟨lit "z", by simp, by decide⟩⟩

/-- The pods of the example. -/
def exDuoPod (o : Obj) : Prop := ∃ name body n, o = exPod name body ∧ (name = "x" ∨ name = "y") ∧ Printable (fun _ => true) (lit body) ∧ Numeral (lit body) (n : ℕ) ∧ n ≤ 2 ^ 53

theorem exDuoPod_of : exDuoPod (exPod "x" "9") ∧ exDuoPod (exPod "y" "10") ∧ exDuoPod (exPod "x" "30") := by
  refine ⟨⟨"x", "9", 9, rfl, Or.inl rfl, by unfold Printable; decide +kernel, by exact_mod_cast numeral_digits (n := 9) (by decide +kernel), by norm_num⟩,
    ⟨"y", "10", 10, rfl, Or.inr rfl, by unfold Printable; decide +kernel, by exact_mod_cast numeral_digits (n := 10) (by decide +kernel), by norm_num⟩,
    ⟨"x", "30", 30, rfl, Or.inl rfl, by unfold Printable; decide +kernel, by exact_mod_cast numeral_digits (n := 30) (by decide +kernel), by norm_num⟩⟩

theorem exDuo_index {c : Str} (hc : c = lit "c1" ∨ c = lit "c2") {o : Obj} (ho : exDuoPod o) {idx : List (Str × Str)}
    (hi : IsIndex exEval (confAt exConf exPods) c o idx) :
    (∀ e ∈ idx, Printable (fun _ => true) e.2) ∧ (∀ x ∈ exDuoConds, CondKnown idx x ∧ CondHolds idx x) ∧ ∀ k ∈ exDuoKeys, HasKey idx k := by
  obtain ⟨name, body, n, rfl, hn, hp, hnum, hle⟩ := ho
  obtain ⟨g1, g2, g3⟩ := exIndex hi
  refine ⟨?_, ?_, ?_⟩
  · intro e he
    rcases g3 e he with h | h | h | h | h <;> rw [h]
    · rcases hc with rfl | rfl <;> (unfold Printable; decide +kernel)
    · exact (show Printable (fun _ => true) (lit "false") by unfold Printable; decide +kernel)
    · exact (show Printable (fun _ => true) (lit "prod") by unfold Printable; decide +kernel)
    · rcases hn with rfl | rfl <;> (unfold Printable; decide +kernel)
    · exact hp
  · intro x hx
    simp only [exDuoConds, List.mem_cons, List.not_mem_nil, or_false] at hx
    rcases hx with rfl | rfl
    · refine ⟨⟨_, g2⟩, _, g2, ?_⟩
      rcases hn with rfl | rfl <;> decide +kernel
    · refine ⟨trivial, fun q hq => ?_⟩
      rw [List.mem_singleton] at hq
      subst hq
      show ∀ v, lookup (lit "name") idx = some v → v ∉ [lit "z"]
      intro v hv
      rw [g2, Option.some.injEq] at hv
      subst hv
      rcases hn with rfl | rfl <;> decide +kernel
  · intro k hk
    simp only [exDuoKeys, List.mem_cons, List.not_mem_nil, or_false] at hk
    rcases hk with rfl | rfl | rfl | rfl
    · exact ⟨n, lit body, g1, by exact_mod_cast hnum, by rw [abs_of_nonneg (by positivity)]; exact_mod_cast hle⟩
    · exact ⟨c, by rw [hi.2]; rfl⟩
    · exact ⟨lit "prod", by rw [hi.2, indexValueOf]; simp only [exPod]; rw [if_neg (by decide), if_neg (by decide), if_pos trivial]⟩
    · exact ⟨_, g2⟩

theorem exDuo_latest {id : Ident} {o : Obj} (h : Latest exEval (confAt exConf) exDuoHist id o) :
    (id.cluster = lit "c1" ∨ id.cluster = lit "c2") ∧ exDuoPod o := by
  obtain ⟨h1, n, h2, e, hw, -⟩ := h
  have hn : n ∈ exDuoHist := by rw [e]; simp
  simp only [exDuoHist, List.mem_cons, List.not_mem_nil, or_false] at hn
  obtain ⟨p1, p2, p3⟩ := exDuoPod_of
  rcases hn with rfl | rfl | rfl | rfl | rfl
  · exact hw.elim
  · obtain ⟨rfl, rfl⟩ := hw
    exact ⟨Or.inl rfl, p1⟩
  · exact hw.elim
  · obtain ⟨rfl, rfl⟩ := hw
    exact ⟨Or.inr rfl, p3⟩
  · obtain ⟨rfl, rfl⟩ := hw
    exact ⟨Or.inl rfl, p2⟩

/-- It is told that there are three, and gets two. -/
example {tord : Nat → List (Str × Str) → List (Str × Str)} {up : Answer → UpRes} {texts : Answer → Str} {failure : Str} {rest : Handlers Answer} :
    ∃ x y, listProgram (ckubeServe exEnv exDuoI tord (fun r => parseQuery r.rawQuery) up rest (lit "secret") (lit "Bearer secret"))
      (ckubeBody exEnv (fun r => parseQuery r.rawQuery) (fun _ => .obj [(lit "kind", .str (lit "Pod"))]) texts failure (coreList "pods"))
      (coreList "pods").path [] exDuoPage = some (3, [x, y]) := by
  obtain ⟨hv, hp⟩ := coreList_valid (Or.inl rfl : "pods" = "pods" ∨ "pods" = "namespaces")
  obtain ⟨p1, p2, p3⟩ := exDuoPod_of
  have hfed : ∀ c ∈ [lit "c1", lit "c2"], (c = lit "c1" ∨ c = lit "c2") ∧ ∀ e ∈ exDuoObjs c, exDuoPod e.2 := by
    intro c hc
    simp only [List.mem_cons, List.not_mem_nil, or_false] at hc
    refine ⟨hc, ?_⟩
    rcases hc with rfl | rfl <;> intro e he
    · rw [exDuoObjs, if_pos rfl] at he
      simp only [List.mem_cons, List.not_mem_nil, or_false] at he
      rcases he with rfl | rfl
      · exact p1
      · exact p2
    · rw [exDuoObjs, if_neg (by decide)] at he
      simp only [List.mem_cons, List.not_mem_nil, or_false] at he
      subst he
      exact p3
  obtain ⟨all, items, h1, h2, -, h3, h4⟩ := C127_program_partial (t := coreList "pods") (tord := tord) (up := up) (texts := texts) (failure := failure) (rest := rest)
    exDuo_answering hv rfl rfl ⟨by decide +kernel, hp⟩ (sel := []) (reqs := []) (page := exDuoPage)
    (text := (queryListOptions [] exDuoPage).getD []) ⟨parseReqs_nil, by simp, by simp, by simp⟩ (by decide) (by decide) (by decide) (by decide +kernel) (by decide +kernel)
    (by decide +kernel) (by decide +kernel) (Or.inr (by decide)) (search := exDuoSearch) (clusters := [lit "c1", lit "c2"]) (Or.inl (by decide +kernel))
    exDuoSearch_says exDuo_one (by intro r; simp [exDuoSearch, lit]) exDuoKeys_says (by unfold TotalKeys; decide) exDuo_caught
    (by
      intro id o idx hl _ hi
      obtain ⟨hc, ho⟩ := exDuo_latest hl
      obtain ⟨k1, k2, -⟩ := exDuo_index hc ho hi
      exact ⟨k1, fun x hx => (k2 x hx).1⟩)
    (by
      intro c hc e he idx hi
      obtain ⟨hc, ho⟩ := hfed c hc
      exact (exDuo_index hc (ho e he) hi).2.2)
    (by decide +kernel)
  have hcm : IsMap (confAt exConf exPods) := confAt_isMap exDuo_answering.config _
  have hall : ∀ e, e ∈ all ↔ e ∈ [((lit "c1", lit "prod", lit "x"), exPod "x" "9"), ((lit "c1", lit "prod", lit "y"), exPod "y" "10"),
      ((lit "c2", lit "prod", lit "x"), exPod "x" "30")] := by
    rintro ⟨⟨c, k⟩, o⟩
    rw [h2]
    constructor
    · rintro ⟨hc, ho, -⟩
      simp only [List.mem_cons, List.not_mem_nil, or_false] at hc
      rcases hc with rfl | rfl
      · replace ho : (k, o) ∈ exDuoObjs (lit "c1") := ho
        rw [exDuoObjs, if_pos rfl] at ho
        simp only [List.mem_cons, List.not_mem_nil, or_false, Prod.mk.injEq] at ho
        rcases ho with ⟨rfl, rfl⟩ | ⟨rfl, rfl⟩ <;> simp
      · replace ho : (k, o) ∈ exDuoObjs (lit "c2") := ho
        rw [exDuoObjs, if_neg (by decide)] at ho
        simp only [List.mem_cons, List.not_mem_nil, or_false, Prod.mk.injEq] at ho
        obtain ⟨rfl, rfl⟩ := ho
        simp
    · intro he
      have hmem : c ∈ [lit "c1", lit "c2"] ∧ (k, o) ∈ exDuoObjs c := by
        simp only [List.mem_cons, List.not_mem_nil, or_false, Prod.mk.injEq] at he
        rcases he with ⟨⟨rfl, rfl⟩, rfl⟩ | ⟨⟨rfl, rfl⟩, rfl⟩ | ⟨⟨rfl, rfl⟩, rfl⟩
        · exact ⟨by simp, by simp [exDuoObjs]⟩
        · exact ⟨by simp, by simp [exDuoObjs]⟩
        · exact ⟨by simp, by rw [exDuoObjs, if_neg (by decide)]; simp⟩
      refine ⟨hmem.1, hmem.2, Or.inl rfl, by simp [lastEqualities], _, build_index exEval hcm c o, ?_⟩
      intro x hx
      obtain ⟨hc, ho⟩ := hfed c hmem.1
      exact ((exDuo_index hc (ho _ hmem.2) (build_index exEval hcm c o)).2.1 x hx).2
  have hlen : all.length = 3 := by
    have := ((List.perm_ext_iff_of_nodup h1 (by decide +kernel)).mpr hall).length_eq
    simpa using this
  have hli : items.length = 3 := by rw [← h3.length_eq, hlen]
  obtain ⟨a, b, c, rfl⟩ := List.length_eq_three.mp hli
  refine ⟨.obj [(lit "kind", .str (lit "Pod"))], .obj [(lit "kind", .str (lit "Pod"))], (h4 (by rw [hlen]; decide)).trans ?_⟩
  rw [if_neg (by simp [exDuoPage]), hlen]
  rfl

end Ckube
