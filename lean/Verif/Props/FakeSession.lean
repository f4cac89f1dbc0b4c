import Verif.Spec.FakeSession
import Verif.Props.Fake
import Verif.Props.Federation
import Verif.Props.Crash

/-! # C99: a test with the fake server -/

namespace Ckube
open Spec

variable {eval : Str → Obj → Str} {dec : Str → Option FBody} {enc : Obj → Str} {dflt : Str}
  {conf : List (GVR × List (Str × Str))} {h : List Notice} {s : Store} {r : HReq} {ord : Values} {b : FBody}

/-- The store has the objects of the world. -/
structure SInv (eval : Str → Obj → Str) (conf : List (GVR × List (Str × Str))) (s : Store) (h : List Notice) (W : List (Ident × Obj)) : Prop where
  run : (newStore conf).run eval h = some s
  api : ApiObjects h
  map : IsMap W
  latest : ∀ id o, Latest eval (confAt conf) h id o ↔ lookup id W = some o
  meta' : ∀ e ∈ W, ∃ m, e.2.om = some m ∧ m.ns = e.1.ns ∧ m.name = e.1.name

theorem SInv.read {W : List (Ident × Obj)} (hi : SInv eval conf s h W) (id : Ident) :
    readAt s id = none ↔ lookup id W = none := by
  obtain ⟨h1, h2⟩ := C20_latest hi.run id
  constructor
  · intro hr
    cases hl : lookup id W with
    | none => rfl
    | some o =>
      obtain ⟨o', h3, _⟩ := h1 o ((hi.latest id o).mpr hl)
      unfold readAt at hr
      rw [hr] at h3
      simp at h3
  · intro hl
    refine h2 fun o ho => ?_
    rw [(hi.latest id o).mp ho] at hl
    simp at hl

theorem sinv_init : SInv eval conf (newStore conf) [] [] :=
  ⟨rfl, by intro n hn; simp at hn, by simp [IsMap], by
    intro id o
    constructor
    · rintro ⟨a, n, b, e, _⟩; cases a <;> cases e
    · intro hl; simp [lookup] at hl, by simp⟩

theorem SInv.put {W : List (Ident × Obj)} {s' : Store} {n : Notice} {g : GVR} {c : Str} {o : Obj} {m : ObjMeta}
    (hi : SInv eval conf s h W) (hn : n = .added g c o ∨ n = .modified g c o) (ho : o.om = some m)
    (hr : (newStore conf).run eval (h ++ [n]) = some s') {id : Ident} (hid : id = ⟨g, c, m.ns, m.name⟩) :
    SInv eval conf s' (h ++ [n]) (insertKV id o W) := by
  have hio : identOf eval (confAt conf) g c o = id := by rw [hid]; unfold identOf objKey; rw [ho]
  have hw : ∀ id' o', Writes eval (confAt conf) n id' o' ↔ o' = o ∧ id' = id := by
    intro id' o'
    rcases hn with rfl | rfl <;>
    · simp only [Writes, hio]
      exact ⟨fun h => ⟨h.1.symm, h.2.symm⟩, fun h => ⟨h.1.symm, h.2.symm⟩⟩
  have hrm : ∀ id', ¬ Removes eval (confAt conf) n id' := by
    intro id'; rcases hn with rfl | rfl <;> simp [Removes]
  refine ⟨hr, ?_, isMap_insertKV hi.map, ?_, ?_⟩
  · intro n' hn'
    rcases List.mem_append.mp hn' with hn' | hn'
    · exact hi.api n' hn'
    · rw [List.mem_singleton] at hn'
      subst hn'
      rcases hn with rfl | rfl <;> simp [ho]
  · intro id' o'
    rw [latest_concat, hw, lookup_insertKV, hi.latest]
    by_cases he : id' = id
    · subst he
      simp only [hw, hrm]
      simp [eq_comm]
    · simp [he, Ne.symm he, hw, hrm]
  · intro e he
    rcases mem_insertKV he with rfl | he
    · exact ⟨m, ho, by rw [hid], by rw [hid]⟩
    · exact hi.meta' e he

theorem SInv.del {W : List (Ident × Obj)} {s' : Store} {g : GVR} {c : Str} {o : Obj} {m : ObjMeta}
    (hi : SInv eval conf s h W) (ho : o.om = some m)
    (hr : (newStore conf).run eval (h ++ [.deleted g c o]) = some s') {id : Ident} (hid : id = ⟨g, c, m.ns, m.name⟩) :
    SInv eval conf s' (h ++ [.deleted g c o]) (eraseKV id W) := by
  have hio : identOf eval (confAt conf) g c o = id := by rw [hid]; unfold identOf objKey; rw [ho]
  refine ⟨hr, ?_, isMap_eraseKV hi.map, ?_, ?_⟩
  · intro n' hn'
    rcases List.mem_append.mp hn' with hn' | hn'
    · exact hi.api n' hn'
    · rw [List.mem_singleton] at hn'
      subst hn'
      simp [ho]
  · intro id' o'
    rw [latest_concat, lookup_eraseKV hi.map, hi.latest]
    simp only [Writes, Removes, hio]
    by_cases he : id' = id
    · simp [he]
    · simp [he, Ne.symm he]
  · intro e he
    have hl := lookup_eq_some_of_mem (isMap_eraseKV hi.map) (show (e.1, e.2) ∈ _ from he)
    rw [lookup_eraseKV hi.map] at hl
    split at hl
    · simp at hl
    · exact hi.meta' e (mem_of_lookup hl)

/-- One call. -/
theorem session_step {W : List (Ident × Obj)} {op : FOp} (hi : SInv eval conf s h W) (ho : Orderly dec conf op) :
    ∃ x W' h', WorldStep dec dflt W op x W' ∧ Says x (fakeOp eval dec enc dflt s op).1
      ∧ SInv eval conf (fakeOp eval dec enc dflt s op).2 h' W' := by
  cases op with
  | clean conf' =>
    obtain rfl : conf' = conf := ho
    exact ⟨.cleaned, [], [], .clean, trivial, sinv_init⟩
  | write ord r =>
    obtain ⟨hord, hw, hm, hg, b, hb, hname⟩ := ho
    have hg' : s.isStoreGVR r.gvr = true := by
      unfold Store.isStoreGVR
      rw [run_types hi.run, newStore_types]
      obtain ⟨e, he, heq⟩ := hg
      exact List.mem_map.mpr ⟨e, he, heq⟩
    obtain ⟨c, ht, e1, e2, e3, e4, e5⟩ := fake_effect (enc := enc) (dflt := dflt) hi.run hord hw hb hg' hname
    have hrd := hi.read (fakeIdent r c b)
    have hnm : r.method ≠ lit "DELETE" → (fakeIdent r c b).name = b.om.name := by
      intro hd
      rcases hname with h | h | h
      · exact absurd h hd
      · simp [fakeIdent, h]
      · simp only [fakeIdent]; split
        · rfl
        · exact h
    have hid : r.method ≠ lit "DELETE" → fakeIdent r c b = ⟨r.gvr, c, r.ns, b.om.name⟩ := by
      intro hd; rw [← hnm hd]; rfl
    cases hl : lookup (fakeIdent r c b) W with
    | none =>
      have hn := hrd.mpr hl
      simp only [List.mem_cons, List.not_mem_nil, or_false] at hm
      rcases hm with hm | hm
      · obtain ⟨m, s', o, a1, -, -, -, -, a2⟩ := e1 hm hn
        refine ⟨_, _, h ++ [.added r.gvr c (bodyIn r.ns b)], .create hm hb ht hl, ?_, ?_⟩
        · simp only [fakeOp, a1]; exact ⟨rfl, rfl⟩
        · simp only [fakeOp, a1]
          exact hi.put (m := { b.om with ns := r.ns }) (Or.inl rfl) rfl a2 (hid (by rw [hm]; decide))
      · refine ⟨_, _, h, .missing hm hb ht hl, ?_, ?_⟩
        · simp only [fakeOp, e5 hm hn]; rfl
        · simp only [fakeOp, e5 hm hn]; exact hi
    | some o0 =>
      have hn : readAt s (fakeIdent r c b) ≠ none := by rw [Ne, hrd, hl]; simp
      simp only [List.mem_cons, List.not_mem_nil, or_false] at hm
      rcases hm with hm | hm | hm
      · refine ⟨_, _, h, .exists hm hb ht hl, ?_, ?_⟩
        · simp only [fakeOp, e4 hm hn]; rfl
        · simp only [fakeOp, e4 hm hn]; exact hi
      · obtain ⟨m, s', o, a1, -, -, -, -, a2⟩ := e2 hm hn
        refine ⟨_, _, h ++ [.modified r.gvr c (bodyIn r.ns b)], .replace hm hb ht hl, ?_, ?_⟩
        · simp only [fakeOp, a1]; exact ⟨rfl, rfl⟩
        · simp only [fakeOp, a1]
          exact hi.put (m := { b.om with ns := r.ns }) (Or.inr rfl) rfl a2 (hid (by rw [hm]; decide))
      · obtain ⟨o, ho⟩ := Option.ne_none_iff_exists'.mp hn
        obtain ⟨m, s', a1, -, -, a2⟩ := e3 hm o ho
        refine ⟨_, _, h ++ [.deleted r.gvr c { om := some { b.om with ns := r.ns, name := (fakeIdent r c b).name }, selector := b.selector, body := b.body }], .delete hm hb ht hl, ?_, ?_⟩
        · simp only [fakeOp, a1]; exact ⟨rfl, rfl⟩
        · simp only [fakeOp, a1]
          exact hi.del (m := { b.om with ns := r.ns, name := (fakeIdent r c b).name }) rfl a2 rfl

theorem session_run : ∀ {ops : List FOp} {s : Store} {h : List Notice} {W : List (Ident × Obj)}, SInv eval conf s h W →
    (∀ op ∈ ops, Orderly dec conf op) →
    ∃ xs W' h', WorldRun dec dflt W ops xs W' ∧ List.Forall₂ Says xs (fakeSession eval dec enc dflt s ops).1
      ∧ SInv eval conf (fakeSession eval dec enc dflt s ops).2 h' W' := by
  intro ops
  induction ops with
  | nil => intro s h W hi _; exact ⟨[], W, h, .nil, .nil, hi⟩
  | cons op ops ih =>
    intro s h W hi ho
    obtain ⟨x, W', h', a1, a2, a3⟩ := session_step (enc := enc) (dflt := dflt) hi (ho op (List.mem_cons_self ..))
    obtain ⟨xs, W'', h'', b1, b2, b3⟩ := ih a3 (fun op' hop => ho op' (List.mem_cons_of_mem _ hop))
    exact ⟨x :: xs, W'', h'', .cons a1 b1, .cons a2 b2, b3⟩

theorem isMap_objsOf {W : List (Ident × Obj)} (hW : IsMap W) (g : GVR) (c : Str) : IsMap (objsOf g c W) := by
  unfold objsOf IsMap
  rw [List.map_map]
  have hW' := hW
  unfold IsMap at hW
  refine List.Nodup.map_on ?_ (List.Nodup.of_map _ (hW.sublist (List.filter_sublist.map _)))
  rintro ⟨⟨g1, c1, n1, m1⟩, o1⟩ h1 ⟨⟨g2, c2, n2, m2⟩, o2⟩ h2 he
  simp only [List.mem_filter, decide_eq_true_eq] at h1 h2
  simp only [Function.comp, Prod.mk.injEq] at he
  obtain ⟨h1, rfl, rfl⟩ := h1
  obtain ⟨h2, rfl, rfl⟩ := h2
  obtain ⟨rfl, rfl⟩ := he
  have := lookup_eq_some_of_mem hW' h1
  rw [lookup_eq_some_of_mem hW' h2, Option.some.injEq] at this
  rw [this]

theorem mem_objsOf {W : List (Ident × Obj)} {g : GVR} {c ns name : Str} {o : Obj} :
    ((ns, name), o) ∈ objsOf g c W ↔ ((⟨g, c, ns, name⟩ : Ident), o) ∈ W := by
  unfold objsOf
  rw [List.mem_map]
  constructor
  · rintro ⟨⟨⟨g1, c1, n1, m1⟩, o1⟩, h1, he⟩
    simp only [List.mem_filter, decide_eq_true_eq] at h1
    simp only [Prod.mk.injEq] at he
    obtain ⟨h1, rfl, rfl⟩ := h1
    obtain ⟨⟨rfl, rfl⟩, rfl⟩ := he
    exact h1
  · intro hm
    exact ⟨_, by simp only [List.mem_filter]; exact ⟨hm, by simp⟩, rfl⟩

theorem lookup_objsOf {W : List (Ident × Obj)} (hW : IsMap W) (g : GVR) (c ns name : Str) (o : Obj) :
    lookup (ns, name) (objsOf g c W) = some o ↔ lookup ⟨g, c, ns, name⟩ W = some o :=
  ⟨fun h => lookup_eq_some_of_mem hW (mem_objsOf.mp (mem_of_lookup h)),
    fun h => lookup_eq_some_of_mem (isMap_objsOf hW g c) (mem_objsOf.mpr (mem_of_lookup h))⟩

theorem SInv.mirrors {W : List (Ident × Obj)} (hi : SInv eval conf s h W) (g : GVR) (c : Str) :
    Mirrors eval conf g c h (objsOf g c W) := by
  refine ⟨fun ns name o => by rw [hi.latest, lookup_objsOf hi.map], isMap_objsOf hi.map g c, ?_⟩
  rintro ⟨⟨ns, name⟩, o⟩ he
  obtain ⟨m, h1, h2, h3⟩ := hi.meta' _ (mem_objsOf.mp he)
  simp only [objKey]
  simp only at h1 h2 h3
  rw [h1, ← h2, ← h3]

/-- The events of the calls. -/
def Spec.Outcome.event : Outcome → Option (FAct × Ident)
  | .ok a id => some (a, id)
  | _ => none

theorem says_sent {x : Outcome} {y : Option FReply} (h : Says x y) :
    ((y.map FReply.sent).getD []).map (fun e => (e.action, (⟨e.gvr, e.cluster, e.ns, e.name⟩ : Ident))) = x.event.toList := by
  cases x with
  | ok a id =>
    cases y with
    | none => exact h.elim
    | some y =>
      cases y with
      | done m e => obtain ⟨rfl, rfl⟩ := h; rfl
      | watch => exact h.elim
      | refused c => exact h.elim
      | crash => exact h.elim
  | no c =>
    cases y with
    | none => exact h.elim
    | some y =>
      cases y with
      | done m e => exact h.elim
      | watch => exact h.elim
      | refused c => rfl
      | crash => exact h.elim
  | cleaned =>
    cases y with
    | none => rfl
    | some y => exact h.elim

theorem seen_all (es : List FEvent) (n : Nat) (hn : es.length ≤ n) :
    ((es.zip (List.replicate n true)).filterMap fun x => if x.2 then some x.1 else none) = es := by
  induction es generalizing n with
  | nil => simp
  | cons e es ih =>
    cases n with
    | zero => simp at hn
    | succ n =>
      simp only [List.length_cons, Nat.add_le_add_iff_right] at hn
      simp [List.replicate_succ, ih n hn]

/-- **C99**: whatever a test has done to a fake server, one call after the other, the server has answered as a map of objects would,
a test that was always waiting on `Events` has received, in order, what was done to which object and nothing else, and from then on
ckube's own handler shows exactly the objects of that map: a get finds the object or reports that there is none, and a list of
clusters shows, page by page, the objects of these clusters, strictly ordered. `Clean` makes the map empty. Missing for the full claim:
calls that are not `Orderly` (see C61 for what they do), a configuration that has been replaced (`C99_false_config`), tests and watchers
that are busy (`C99_false_events`), and watchers, which are not told of `Clean` (`C99_false_watch`). -/
theorem C99_session_partial {env : Env} {tord : Nat → List (Str × Str) → List (Str × Str)} {isPrint : Nat → Bool} {alg : SliceSort}
    {pf : Str → Option GoFloat} {st : StoreI} (hconf : ConfOK conf) (he : EmptyNoNaN pf)
    {ops : List FOp} (hops : ∀ op ∈ ops, Orderly dec conf op)
    (hst : Serves isPrint alg pf (fakeSession eval dec enc dflt (newStore conf) ops).2 st) :
    ∃ xs W, WorldRun dec dflt [] ops xs W
      ∧ List.Forall₂ Says xs (fakeSession eval dec enc dflt (newStore conf) ops).1
      ∧ (∀ n, ops.length ≤ n →
          (eventsSeen (List.replicate n true) (fakeSession eval dec enc dflt (newStore conf) ops).1).map
            (fun e => (e.action, (⟨e.gvr, e.cluster, e.ns, e.name⟩ : Ident))) = xs.filterMap Outcome.event)
      ∧ (∀ ord r, ord.Perm (parseQuery r.rawQuery) → Cacheable st r → r.resource ≠ [] →
          ∃ c, Selects env r c ∧
            ((∃ o o', lookup ⟨r.gvr, c, r.ns, r.resource⟩ W = some o ∧ SameButMarks o o' ∧ proxy env st tord ord r = .object o')
             ∨ (lookup ⟨r.gvr, c, r.ns, r.resource⟩ W = none ∧ proxy env st tord ord r = .refused .notFound)))
      ∧ (∀ (ord : Values) (r : HReq) (i : SelInfo) (cs : List Str) (all : List ((Str × Str × Str) × Obj)),
          ord.Perm (parseQuery r.rawQuery) → Cacheable st r → r.resource = [] → Reads r i →
          setClusters [] cs = some i.paginate.search → i.paginate.sort = [] → 1 ≤ i.paginate.page → 1 ≤ i.paginate.pageSize →
          i.paginate.page * i.paginate.pageSize < 9223372036854775808 → (all.length : Int) < 9223372036854775808 →
          (∀ e, e ∈ all ↔ e.1.1 ∈ cs ∧ ((⟨r.gvr, e.1.1, e.1.2.1, e.1.2.2⟩ : Ident), e.2) ∈ W ∧ (r.ns = [] ∨ r.ns = e.1.2.1)
            ∧ Satisfies i.labels e.2) →
          (all.map Prod.fst).Pairwise PlaceLt →
          if i.paginate.page ≠ 1 ∧ pageOf i.paginate.page i.paginate.pageSize all = [] then
            proxy env st tord ord r = .refused .outOfPage
          else ∃ items, List.Forall₂ (fun e o => SameButMarks e.2 o) (pageOf i.paginate.page i.paginate.pageSize all) items
            ∧ Shows tord items (proxy env st tord ord r)
            ∧ ∀ v k l rc its, proxy env st tord ord r = .list v k l rc its →
                makeupTotal (some rc) its.length i.paginate = all.length) := by
  obtain ⟨xs, W, h, h1, h2, h3⟩ := session_run (enc := enc) (dflt := dflt) (eval := eval) sinv_init hops
  refine ⟨xs, W, h1, h2, ?_, ?_, ?_⟩
  · have hsent : ∀ {xs : List Outcome} {ys : List (Option FReply)}, List.Forall₂ Says xs ys →
        (ys.flatMap fun x => (x.map FReply.sent).getD []).map
          (fun e => (e.action, (⟨e.gvr, e.cluster, e.ns, e.name⟩ : Ident))) = xs.filterMap Outcome.event := by
      intro xs ys hf
      induction hf with
      | nil => rfl
      | cons a _ ih =>
        rename_i x y _ _ _
        rw [List.flatMap_cons, List.map_append, says_sent a, ih, List.filterMap_cons]
        cases x.event <;> simp
    have hlen : ∀ {xs : List Outcome} {W W' : List (Ident × Obj)} {ops : List FOp}, WorldRun dec dflt W ops xs W' →
        xs.length = ops.length := by
      intro xs W W' ops hr
      induction hr with
      | nil => rfl
      | cons _ _ ih => simp [ih]
    intro n hn
    unfold eventsSeen
    rw [seen_all, hsent h2]
    have := congrArg List.length (hsent h2)
    rw [List.length_map] at this
    rw [this]
    exact le_trans (List.length_filterMap_le _ _) (by rw [hlen h1]; exact hn)
  · intro ord r hord hc hr
    obtain ⟨c, a1, a2⟩ := mirror_get (env := env) (tord := tord) (eval := eval) (objs := fun c => objsOf r.gvr c W) h3.run hst hord hc hr
      (fun c _ => h3.mirrors r.gvr c)
    refine ⟨c, a1, ?_⟩
    rcases a2 with ⟨o, o', b1, b2⟩ | ⟨b1, b2⟩
    · exact Or.inl ⟨o, o', (lookup_objsOf h3.map ..).mp b1, b2⟩
    · refine Or.inr ⟨?_, b2⟩
      cases hl : lookup (⟨r.gvr, c, r.ns, r.resource⟩ : Ident) W with
      | none => rfl
      | some o =>
        rw [(lookup_objsOf h3.map ..).mpr hl] at b1
        simp at b1
  · intro ord r i cs all hord hc hr hi hset hsort p1 p2 p3 p4 hall hs
    exact mirror_page (eval := eval) (objs := fun c => objsOf r.gvr c W) hconf h3.run h3.api hst hord hc hr hi hset hsort p1 p2 p3
      (fun c _ => h3.mirrors r.gvr c) he p4 (fun e => by rw [hall, ← mem_objsOf]) hs

/-! ## The hypotheses are met -/

/-- A test in cluster `c1`: it creates the pod `new`, tries it again, replaces it, cleans up, tries to replace it, and creates and deletes
another pod. -/
def exTest : List FOp :=
  [.write exFOrd (exFReq "POST" "" "new"), .write exFOrd (exFReq "POST" "" "new"), .write exFOrd (exFReq "PUT" "new" "new"),
   .clean exConf, .write exFOrd (exFReq "PUT" "new" "new"), .write exFOrd (exFReq "POST" "" "b"), .write exFOrd (exFReq "DELETE" "b" "")]

def exTested (ops : List FOp) : List (Option FReply) × Store := fakeSession exEval exDec exEnc (lit "default") (newStore exConf) ops

theorem exOrderly {method resource body : String} (hm : lit method ∈ [lit "POST", lit "PUT", lit "DELETE"])
    (hn : lit method = lit "DELETE" ∨ lit resource = [] ∨ lit resource = lit body) :
    Orderly exDec exConf (.write exFOrd (exFReq method resource body)) := by
  have hp : parseQuery (lit "fieldManager=dsm-cluster-c1") = exFOrd := by decide +kernel
  refine ⟨by show exFOrd.Perm (parseQuery (lit "fieldManager=dsm-cluster-c1")); rw [hp], ?_, hm, ?_, _, rfl, hn⟩
  · rintro ⟨v, ⟨vs, hv⟩, _⟩
    have : lookup (lit "watch") exFOrd = none := by decide +kernel
    change lookup (lit "watch") (parseQuery (lit "fieldManager=dsm-cluster-c1")) = _ at hv
    rw [hp, this] at hv
    simp at hv
  · show ∃ e ∈ exConf, e.1 = exPods
    have : exConf.any (fun e => e.1 = exPods) = true := by decide +kernel
    simpa using this

example : (∀ op ∈ exTest, Orderly exDec exConf op)
    ∧ (exTested exTest).1.map (fun x => match x with
        | some (.done _ e) => (e.action.text, e.name, 200) | some (.refused c) => ([], [], c) | _ => ([], [], 0))
      = [(lit "ADDED", lit "new", 200), ([], [], 400), (lit "MODIFIED", lit "new", 200), ([], [], 0), ([], [], 404),
         (lit "ADDED", lit "b", 200), (lit "DELETED", lit "b", 200)]
    ∧ (readAt (exTested (exTest.take 3)).2 ⟨exPods, lit "c1", lit "prod", lit "new"⟩).isSome = true
    ∧ readAt (exTested (exTest.take 4)).2 ⟨exPods, lit "c1", lit "prod", lit "new"⟩ = none := by
  refine ⟨?_, by decide +kernel, by decide +kernel, by decide +kernel⟩
  intro op hop
  simp only [exTest, List.mem_cons, List.not_mem_nil, or_false] at hop
  rcases hop with rfl | rfl | rfl | rfl | rfl | rfl | rfl
  · exact exOrderly (by decide) (by decide)
  · exact exOrderly (by decide) (by decide)
  · exact exOrderly (by decide) (by decide)
  · rfl
  · exact exOrderly (by decide) (by decide)
  · exact exOrderly (by decide) (by decide)
  · exact exOrderly (by decide) (by decide)

/-- **C99 is false** for watchers: `Clean` tells nobody, so that the last event of an object says that it was created although it is gone. -/
theorem C99_false_watch : ∃ (ops : List FOp) (id : Ident), (∀ op ∈ ops, Orderly exDec exConf op)
    ∧ (eventsSeen (List.replicate ops.length true) (exTested ops).1).map
        (fun e => (e.action, (⟨e.gvr, e.cluster, e.ns, e.name⟩ : Ident))) = [(.add, id)]
    ∧ readAt (exTested ops).2 id = none := by
  refine ⟨[.write exFOrd (exFReq "POST" "" "new"), .clean exConf], ⟨exPods, lit "c1", lit "prod", lit "new"⟩, ?_, by decide +kernel,
    by decide +kernel⟩
  intro op hop
  simp only [List.mem_cons, List.not_mem_nil, or_false] at hop
  rcases hop with rfl | rfl
  · exact exOrderly (by decide) (by decide)
  · rfl

/-- **C99 is false** for a test that is not waiting on `Events` when a write is handled: it never learns of it. A test that writes
and then reads the channel is such a test. -/
theorem C99_false_events (replies : List (Option FReply)) (n : Nat) : eventsSeen (List.replicate n false) replies = [] := by
  unfold eventsSeen
  rw [List.filterMap_eq_nil_iff]
  rintro ⟨e, b⟩ hm
  have := (List.of_mem_zip hm).2
  rw [List.mem_replicate] at this
  simp [this.2]

/-- The session of the example has events to miss. -/
example : ((exTested exTest).1.flatMap fun x => (x.map FReply.sent).getD []).length = 4 := by decide +kernel

/-- **C99 is false** when another fake server has been started in the process: the configuration is global, `Clean` uses that of
the other server, and a type that only the first one caches can no longer be written. -/
theorem C99_false_config : ∃ (conf' : List (GVR × List (Str × Str))) (op : FOp), Orderly exDec exConf op
    ∧ (exTested [op]).1.map (fun x => x != some .crash) = [true]
    ∧ (exTested [op, .clean conf', op]).1.getLast? = some (some .crash) :=
  ⟨[], .write exFOrd (exFReq "POST" "" "new"), exOrderly (by decide) (by decide), by decide +kernel, by decide +kernel⟩

end Ckube
