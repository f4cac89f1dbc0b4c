import Verif.Lemmas.Fake
import Verif.Props.Store
import Verif.Props.Clusters
import Verif.Props.ListOptions

/-! # C61, C62: the fake server

`s` is the store after any history `h` of writes, `dec` any decoder of objects, `enc` any encoder, `eval` any evaluation of
index expressions, `ord` any order in which the query parameters are iterated. -/

namespace Ckube
open Spec

variable {eval : Str → Obj → Str} {dec : Str → Option FBody} {enc : Obj → Str} {dflt : Str}
  {conf : List (GVR × List (Str × Str))} {h : List Notice} {s : Store} {r : HReq} {ord : Values} {b : FBody}

/-! ## Data of the examples -/

/-- Every body is an object with this name; index expressions yield the body. -/
def exDec : Str → Option FBody := fun t => some { om := { name := t }, body := lit "x" }
def exEnc : Obj → Str := Obj.body
def exFReq (method resource body : String) : HReq :=
  { method := lit method, path := [], rawQuery := lit "fieldManager=dsm-cluster-c1", body := lit body, accept := [],
    group := [], version := lit "v1", resourceType := lit "pods", ns := lit "prod", resource := lit resource }
def exFOrd : Values := [(lit "fieldManager", [lit "dsm-cluster-c1"])]
def exFStore : Store := ((newStore exConf).run exEval exHist).getD (newStore [])

/-! ## C61 -/

/-- **C61**, refusals: creating an existing object, and updating or deleting a missing one, is refused, and neither the
store nor the watchers notice anything. This needs no assumption about the type or the names. -/
theorem C61_refuses (hord : ord.Perm (parseQuery r.rawQuery)) (hw : ¬ AsksWatch r) (hb : dec r.body = some b) :
    ∃ c, FakeTarget dflt r c
      ∧ (r.method = lit "POST" → readAt s (fakeIdent r c b) ≠ none →
        fakeProxy eval dec enc dflt s ord r = (.refused 400, s))
      ∧ (r.method = lit "PUT" ∨ r.method = lit "DELETE" → readAt s (fakeIdent r c b) = none →
        fakeProxy eval dec enc dflt s ord r = (.refused 404, s)) := by
  have hw' : fakeWatch ord = false := by rw [Bool.eq_false_iff, ne_eq, fakeWatch_iff hord]; exact hw
  obtain ⟨ht, ht'⟩ := fake_target hord dflt
  by_cases hd : r.method = lit "DELETE"
  · refine ⟨_, ht' hd, fun hp => absurd (hd.symm.trans hp) (by decide), fun _ hn => ?_⟩
    have h1 : ¬ r.method = lit "POST" := by rw [hd]; decide
    have h2 : ¬ r.method = lit "PUT" := by rw [hd]; decide
    simp only [readAt, fakeIdent] at hn
    simp only [fakeProxy, hw', hb, h1, h2, if_false, if_pos hd, Bool.false_eq_true, hn]
  · refine ⟨_, ht hd, fun hp hn => ?_, fun hp hn => ?_⟩
    · simp only [readAt, fakeIdent] at hn
      have := Option.isSome_iff_ne_none.mpr hn
      simp only [fakeProxy, hw', hb, hp, if_true, if_false, Bool.false_eq_true, this]
    · rcases hp with hp | hp
      · have h1 : ¬ r.method = lit "POST" := by rw [hp]; decide
        simp only [readAt, fakeIdent] at hn
        simp only [fakeProxy, hw', hb, h1, if_pos hp, if_true, if_false, Bool.false_eq_true, hn, Option.isNone_none]
      · exact absurd hp hd

/-- The effect of a write, with the notification the store gets. -/
theorem fake_effect (hrun : (newStore conf).run eval h = some s) (hord : ord.Perm (parseQuery r.rawQuery))
    (hw : ¬ AsksWatch r) (hb : dec r.body = some b) (hg : s.isStoreGVR r.gvr = true)
    (hname : r.method = lit "DELETE" ∨ r.resource = [] ∨ r.resource = b.om.name) :
    ∃ c, FakeTarget dflt r c
      ∧ (r.method = lit "POST" → readAt s (fakeIdent r c b) = none →
        ∃ m s' o, fakeProxy eval dec enc dflt s ord r = (.done m ⟨.add, r.gvr, c, r.ns, (fakeIdent r c b).name, r.body⟩, s')
          ∧ readAt s' (fakeIdent r c b) = some o ∧ SameButMarks (bodyIn r.ns b) o ∧ o.om = some m
          ∧ (∀ id, id ≠ fakeIdent r c b → readAt s' id = readAt s id)
          ∧ (newStore conf).run eval (h ++ [.added r.gvr c (bodyIn r.ns b)]) = some s')
      ∧ (r.method = lit "PUT" → readAt s (fakeIdent r c b) ≠ none →
        ∃ m s' o, fakeProxy eval dec enc dflt s ord r = (.done m ⟨.update, r.gvr, c, r.ns, (fakeIdent r c b).name, r.body⟩, s')
          ∧ readAt s' (fakeIdent r c b) = some o ∧ SameButMarks (bodyIn r.ns b) o ∧ o.om = some m
          ∧ (∀ id, id ≠ fakeIdent r c b → readAt s' id = readAt s id)
          ∧ (newStore conf).run eval (h ++ [.modified r.gvr c (bodyIn r.ns b)]) = some s')
      ∧ (r.method = lit "DELETE" → ∀ o, readAt s (fakeIdent r c b) = some o →
        ∃ m s', fakeProxy eval dec enc dflt s ord r = (.done m ⟨.delete, r.gvr, c, r.ns, (fakeIdent r c b).name, enc o⟩, s')
          ∧ readAt s' (fakeIdent r c b) = none
          ∧ (∀ id, id ≠ fakeIdent r c b → readAt s' id = readAt s id)
          ∧ (newStore conf).run eval (h ++ [.deleted r.gvr c { om := some { b.om with ns := r.ns, name := (fakeIdent r c b).name }, selector := b.selector, body := b.body }]) = some s')
      ∧ (r.method = lit "POST" → readAt s (fakeIdent r c b) ≠ none →
        fakeProxy eval dec enc dflt s ord r = (.refused 400, s))
      ∧ (r.method = lit "PUT" ∨ r.method = lit "DELETE" → readAt s (fakeIdent r c b) = none →
        fakeProxy eval dec enc dflt s ord r = (.refused 404, s)) := by
  have hw' : fakeWatch ord = false := by rw [Bool.eq_false_iff, ne_eq, fakeWatch_iff hord]; exact hw
  obtain ⟨ht, ht'⟩ := fake_target hord dflt
  by_cases hd : r.method = lit "DELETE"
  · refine ⟨_, ht' hd, fun hp => absurd (hd.symm.trans hp) (by decide), fun hp => absurd (hd.symm.trans hp) (by decide), fun _ o ho => ?_,
      fun hp => absurd (hd.symm.trans hp) (by decide), fun _ hn => ?_⟩
    rotate_left
    · have h1 : ¬ r.method = lit "POST" := by rw [hd]; decide
      have h2 : ¬ r.method = lit "PUT" := by rw [hd]; decide
      simp only [readAt, fakeIdent] at hn
      simp only [fakeProxy, hw', hb, h1, h2, if_false, if_pos hd, Bool.false_eq_true, hn]
    have h1 : ¬ r.method = lit "POST" := by rw [hd]; decide
    have h2 : ¬ r.method = lit "PUT" := by rw [hd]; decide
    generalize hid : fakeIdent r (fakeDelCluster r.body (fakeCluster dflt ord)) b = id at ho ⊢
    obtain ⟨s', e1, e2, e3, e4⟩ := del_effect (c := fakeDelCluster r.body (fakeCluster dflt ord))
      (o := { om := some { b.om with ns := r.ns, name := id.name }, selector := b.selector, body := b.body }) hrun rfl hg
    have hid' : (⟨r.gvr, fakeDelCluster r.body (fakeCluster dflt ord), r.ns, id.name⟩ : Ident) = id := by rw [← hid]; rfl
    have hn : id.name = if r.resource = [] then b.om.name else r.resource := by rw [← hid]; rfl
    simp only [hid'] at e3 e4
    refine ⟨((build eval (s.confOf r.gvr) (fakeDelCluster r.body (fakeCluster dflt ord))
      { om := some { b.om with ns := r.ns, name := id.name }, selector := b.selector, body := b.body }).2.2.obj.om).getD
        { b.om with ns := r.ns, name := id.name }, s', ?_, e3, e4, e2⟩
    rw [← hid'] at ho
    simp only [readAt] at ho
    simp only [fakeProxy, hw', hb, h1, h2, if_false, if_pos hd, Bool.false_eq_true, ← hn, ho, fakeDone, FBody.toObj, e1]
  · refine ⟨_, ht hd, fun hp hn => ?_, fun hp hn => ?_, fun hp => absurd hp hd, fun hp hn => ?_, fun hp hn => ?_⟩
    rotate_left 2
    · simp only [readAt, fakeIdent] at hn
      have := Option.isSome_iff_ne_none.mpr hn
      simp only [fakeProxy, hw', hb, hp, if_true, if_false, Bool.false_eq_true, this]
    · rcases hp with hp | hp
      · have h1 : ¬ r.method = lit "POST" := by rw [hp]; decide
        simp only [readAt, fakeIdent] at hn
        simp only [fakeProxy, hw', hb, h1, if_pos hp, if_true, if_false, Bool.false_eq_true, hn, Option.isNone_none]
      · exact absurd hp hd
    all_goals
      have hnm : (fakeIdent r (fakeCluster dflt ord) b).name = b.om.name := by
        rcases hname with h | h | h
        · exact absurd h hd
        · simp [fakeIdent, h]
        · simp only [fakeIdent]; split
          · rfl
          · exact h
      have hid : (⟨r.gvr, fakeCluster dflt ord, r.ns, b.om.name⟩ : Ident) = fakeIdent r (fakeCluster dflt ord) b := by
        rw [← hnm]; rfl
    · obtain ⟨s', o', e1, e2, e3, e4, e5, e6⟩ := put_effect (o := bodyIn r.ns b) (c := fakeCluster dflt ord) hrun (Or.inl rfl) rfl hg
      simp only [hid] at e3 e6
      have hm : o'.om = some ((o'.om).getD b.om) := by rw [e5]; simp [build, bodyIn]
      refine ⟨o'.om.getD b.om, s', o', ?_, e3, e4, hm, e6, e2⟩
      simp only [readAt, fakeIdent] at hn
      have e1' : s.onAdded eval r.gvr (fakeCluster dflt ord) (bodyIn r.ns b) = some s' := e1
      simp only [fakeProxy, hw', hb, hp, if_true, if_false, Bool.false_eq_true, hn, Option.isSome_none, FBody.toObj]
      simp only [bodyIn] at e1' e5
      rw [e1', fakeDone, e5]
      rfl
    · obtain ⟨s', o', e1, e2, e3, e4, e5, e6⟩ := put_effect (o := bodyIn r.ns b) (c := fakeCluster dflt ord) hrun (Or.inr rfl) rfl hg
      simp only [hid] at e3 e6
      have hm : o'.om = some ((o'.om).getD b.om) := by rw [e5]; simp [build, bodyIn]
      refine ⟨o'.om.getD b.om, s', o', ?_, e3, e4, hm, e6, e2⟩
      simp only [readAt, fakeIdent] at hn
      have hn' := Option.isNone_eq_false_iff.mpr (Option.isSome_iff_ne_none.mpr hn)
      have h1 : ¬ r.method = lit "POST" := by rw [hp]; decide
      have e1' : s.onModified eval r.gvr (fakeCluster dflt ord) (bodyIn r.ns b) = some s' := e1
      simp only [fakeProxy, hw', hb, h1, if_pos hp, if_false, Bool.false_eq_true, hn', FBody.toObj]
      simp only [bodyIn] at e1' e5
      rw [e1', fakeDone, e5]
      rfl

/-- **C61**, partially: otherwise the write succeeds, a following read of the object finds the object of the body (up to the two
annotations ckube adds) or, after a delete, nothing, and every other object is as before; the watchers get an event that says so.
Missing: the type must be one the server caches, and a name in the path of a create or an update must be that of the body. -/
theorem C61_writes_partial (hrun : (newStore conf).run eval h = some s) (hord : ord.Perm (parseQuery r.rawQuery))
    (hw : ¬ AsksWatch r) (hb : dec r.body = some b) (hg : s.isStoreGVR r.gvr = true)
    (hname : r.method = lit "DELETE" ∨ r.resource = [] ∨ r.resource = b.om.name) :
    ∃ c, FakeTarget dflt r c
      ∧ (r.method = lit "POST" → readAt s (fakeIdent r c b) = none →
        ∃ m s' o, fakeProxy eval dec enc dflt s ord r = (.done m ⟨.add, r.gvr, c, r.ns, (fakeIdent r c b).name, r.body⟩, s')
          ∧ readAt s' (fakeIdent r c b) = some o ∧ SameButMarks (bodyIn r.ns b) o ∧ o.om = some m
          ∧ ∀ id, id ≠ fakeIdent r c b → readAt s' id = readAt s id)
      ∧ (r.method = lit "PUT" → readAt s (fakeIdent r c b) ≠ none →
        ∃ m s' o, fakeProxy eval dec enc dflt s ord r = (.done m ⟨.update, r.gvr, c, r.ns, (fakeIdent r c b).name, r.body⟩, s')
          ∧ readAt s' (fakeIdent r c b) = some o ∧ SameButMarks (bodyIn r.ns b) o ∧ o.om = some m
          ∧ ∀ id, id ≠ fakeIdent r c b → readAt s' id = readAt s id)
      ∧ (r.method = lit "DELETE" → ∀ o, readAt s (fakeIdent r c b) = some o →
        ∃ m s', fakeProxy eval dec enc dflt s ord r = (.done m ⟨.delete, r.gvr, c, r.ns, (fakeIdent r c b).name, enc o⟩, s')
          ∧ readAt s' (fakeIdent r c b) = none
          ∧ ∀ id, id ≠ fakeIdent r c b → readAt s' id = readAt s id) := by
  obtain ⟨c, h1, h2, h3, h4, -⟩ := fake_effect (enc := enc) (dflt := dflt) hrun hord hw hb hg hname
  refine ⟨c, h1, fun hm hn => ?_, fun hm hn => ?_, fun hm o ho => ?_⟩
  · obtain ⟨m, s', o, a1, a2, a3, a4, a5, _⟩ := h2 hm hn
    exact ⟨m, s', o, a1, a2, a3, a4, a5⟩
  · obtain ⟨m, s', o, a1, a2, a3, a4, a5, _⟩ := h3 hm hn
    exact ⟨m, s', o, a1, a2, a3, a4, a5⟩
  · obtain ⟨m, s', a1, a2, a3, _⟩ := h4 hm o ho
    exact ⟨m, s', a1, a2, a3⟩

/-- A create, an update and a delete in cluster `c1` of a store with the pod `web`; creating it again and deleting another one
is refused. -/
example : exFOrd.Perm (parseQuery (exFReq "POST" "" "new").rawQuery) ∧ ¬ AsksWatch (exFReq "POST" "" "new")
    ∧ ((newStore exConf).run exEval exHist).isSome = true ∧ exFStore.isStoreGVR exPods = true
    ∧ FakeTarget (lit "default") (exFReq "POST" "" "new") (lit "c1")
    ∧ ((fakeProxy exEval exDec exEnc (lit "default") exFStore exFOrd (exFReq "POST" "" "new")).2.get exPods (lit "c1") (lit "prod")
        (lit "new")).map Obj.body = some (lit "x")
    ∧ ((fakeProxy exEval exDec exEnc (lit "default") exFStore exFOrd (exFReq "PUT" "web" "web")).2.get exPods (lit "c1") (lit "prod")
        (lit "web")).map Obj.body = some (lit "x")
    ∧ (fakeProxy exEval exDec exEnc (lit "default") exFStore exFOrd (exFReq "DELETE" "web" "")).2.get exPods (lit "c1") (lit "prod")
        (lit "web") = none
    ∧ (fakeProxy exEval exDec exEnc (lit "default") exFStore exFOrd (exFReq "POST" "" "web")).1 = .refused 400
    ∧ (fakeProxy exEval exDec exEnc (lit "default") exFStore exFOrd (exFReq "DELETE" "db" "")).1 = .refused 404 := by
  have hp : parseQuery (exFReq "POST" "" "new").rawQuery = exFOrd := by decide +kernel
  refine ⟨by rw [hp], ?_, by decide +kernel, by decide +kernel, .query ⟨lit "fieldManager", by decide, [], by rw [hp]; rfl⟩ ?_,
    by decide +kernel, by decide +kernel, by decide +kernel, by decide +kernel, by decide +kernel⟩
  · rintro ⟨v, ⟨vs, hv⟩, _⟩
    rw [hp] at hv
    exact absurd hv (by rw [show lookup (lit "watch") exFOrd = none by decide +kernel]; simp)
  · rintro c ⟨h, _⟩
    exact absurd h (by decide)

/-- What **C61** asks of an update: it does not change other objects. -/
def Spec.UpdateIsolated : Prop :=
  ∀ (eval : Str → Obj → Str) (dec : Str → Option FBody) (enc : Obj → Str) (dflt : Str) (conf : List (GVR × List (Str × Str)))
    (h : List Notice) (s s' : Store) (ord : Values) (r : HReq) (b : FBody) (m : ObjMeta) (e : FEvent) (id : Ident),
    (newStore conf).run eval h = some s → ord.Perm (parseQuery r.rawQuery) → dec r.body = some b →
    fakeProxy eval dec enc dflt s ord r = (.done m e, s') → id.name ≠ (if r.resource = [] then b.om.name else r.resource) →
    readAt s' id = readAt s id

/-- **C61** is false for an update whose body has another name than the path: it is stored under the name of the body, and
a read of the updated object finds the old one. -/
theorem C61_false_name : ¬ UpdateIsolated := by
  intro H
  have hp : parseQuery (exFReq "PUT" "web" "db").rawQuery = exFOrd := by decide +kernel
  have hrun : (newStore exConf).run exEval exHist = some exFStore := by
    have : ((newStore exConf).run exEval exHist).isSome = true := by decide +kernel
    obtain ⟨s, hs⟩ := Option.isSome_iff_exists.mp this
    unfold exFStore; rw [hs]; rfl
  cases ho : fakeProxy exEval exDec exEnc (lit "default") exFStore exFOrd (exFReq "PUT" "web" "db") with
  | mk rep s' =>
    have h1 : (match (fakeProxy exEval exDec exEnc (lit "default") exFStore exFOrd (exFReq "PUT" "web" "db")).1 with
      | .done _ _ => true | _ => false) = true := by decide +kernel
    have h2 : ((fakeProxy exEval exDec exEnc (lit "default") exFStore exFOrd (exFReq "PUT" "web" "db")).2.get exPods (lit "c1")
      (lit "prod") (lit "db")).isSome = true := by decide +kernel
    have h3 : exFStore.get exPods (lit "c1") (lit "prod") (lit "db") = none := by decide +kernel
    rw [ho] at h1 h2
    cases rep with
    | done m e =>
      have := H exEval exDec exEnc (lit "default") exConf exHist exFStore s' exFOrd (exFReq "PUT" "web" "db")
        { om := { name := lit "db" }, body := lit "x" } m e ⟨exPods, lit "c1", lit "prod", lit "db"⟩ hrun (by rw [hp]) rfl ho (by decide)
      simp only [readAt] at this
      rw [h3] at this
      rw [this] at h2
      cases h2
    | watch => cases h1
    | refused c => cases h1
    | crash => cases h1

/-- **C61** is false for a create with a name in the path: the check looks for that name, the object is stored under the
name of the body, and an existing object is replaced. -/
theorem C61_false_overwrite : ∃ (s : Store) (r : HReq) (b : FBody), exDec r.body = some b ∧ r.method = lit "POST"
    ∧ (s.get r.gvr (lit "c1") r.ns b.om.name).map Obj.body = some (lit "n3")
    ∧ ((fakeProxy exEval exDec exEnc (lit "default") s exFOrd r).2.get r.gvr (lit "c1") r.ns b.om.name).map Obj.body = some (lit "x") :=
  ⟨exFStore, exFReq "POST" "new" "web", { om := { name := lit "web" }, body := lit "x" }, rfl, rfl, by decide +kernel, by decide +kernel⟩

/-- **C61** is false for a type the server does not cache: a create panics, and net/http closes the connection. -/
theorem C61_false_type (hg : s.isStoreGVR r.gvr = false) (hp : r.method = lit "POST") (hord : ord.Perm (parseQuery r.rawQuery))
    (hw : ¬ AsksWatch r) (hb : dec r.body = some b) : fakeProxy eval dec enc dflt s ord r = (.crash, s) := by
  have hw' : fakeWatch ord = false := by rw [Bool.eq_false_iff, ne_eq, fakeWatch_iff hord]; exact hw
  have hl : lookup r.gvr s.data = none := by
    unfold Store.isStoreGVR at hg
    exact Option.not_isSome_iff_eq_none.mp (by simp [hg])
  simp only [fakeProxy, hw', hb, hp, if_true, if_false, Bool.false_eq_true, Store.get, hl, Option.bind_none, Option.isSome_none,
    Store.onAdded, Store.put, Store.notify, fakeDone]

/-- A server that caches nothing. -/
example : (newStore []).isStoreGVR (exFReq "POST" "" "new").gvr = false
    ∧ (fakeProxy exEval exDec exEnc (lit "default") (newStore []) exFOrd (exFReq "POST" "" "new")).1 = .crash := by
  constructor <;> decide +kernel

/-! ## C62 -/

theorem watchStart_eq {sel : Str} {i : SelInfo} (hsel : parseSelector sel = some i) : watchStart sel = .stream i.paginate := by
  unfold parseSelector at hsel
  unfold watchStart
  by_cases h0 : sel = []
  · rw [if_pos h0] at hsel ⊢
    rw [Option.some.injEq] at hsel
    rw [← hsel]
  · rw [if_neg h0] at hsel ⊢
    cases hl : parseToLabelSelector sel with
    | none => rw [hl] at hsel; simp at hsel
    | some l =>
      rw [hl] at hsel
      simp only [Option.bind_some] at hsel ⊢
      cases ht : takePaginate l with
      | none => rw [ht] at hsel; simp at hsel
      | some x =>
        obtain ⟨l', ps⟩ := x
        rw [ht] at hsel
        simp only [Option.bind_some] at hsel ⊢
        by_cases hp : ps = []
        · rw [if_pos hp] at hsel ⊢
          rw [Option.some.injEq] at hsel
          rw [← hsel]; rfl
        · rw [if_neg hp] at hsel ⊢
          cases hb : Base64.decode ps with
          | none => rw [hb] at hsel; simp at hsel
          | some rr =>
            rw [hb] at hsel
            simp only [Option.map_some, Option.some.injEq] at hsel
            rw [← hsel]; rfl

theorem watchLine_eq (e : FEvent) : watchLine e = eventText e := by
  have h1 : lit "{\"type\": " ++ [34] = lit "{\"type\": \"" := by decide
  have h2 : [34] ++ lit ", \"object\": " = lit "\", \"object\": " := by decide
  have h3 : lit "}" ++ [10] = lit "}\n" := by decide
  unfold watchLine eventText
  rw [h1, List.append_assoc _ [34], h2, List.append_assoc _ (lit "}"), h3]
  cases e.action <;> rfl

theorem watchPasses_iff (p : Paginate) (e : FEvent) : watchPasses r p e = true ↔ Wants r (getClusters p.search) e := by
  have hg : e.gvr = r.gvr ↔ e.gvr.group = r.group ∧ e.gvr.version = r.version ∧ e.gvr.resource = r.resourceType := by
    unfold HReq.gvr
    cases e.gvr
    simp
  have hc : (!(decide ((getClusters p.search).length > 0) && !(getClusters p.search).any fun c => decide (e.cluster = c))) = true
      ↔ getClusters p.search = [] ∨ e.cluster ∈ getClusters p.search := by
    cases getClusters p.search with
    | nil => simp
    | cons a l => simp
  unfold watchPasses Wants
  rw [Bool.and_eq_true, hc, hg]
  simp only [Bool.and_eq_true, Bool.or_eq_true, decide_eq_true_eq]
  constructor
  · rintro ⟨⟨⟨⟨a, b⟩, c⟩, d⟩, e⟩; exact ⟨⟨a, b, c⟩, d.symm, e⟩
  · rintro ⟨⟨a, b, c⟩, d, e⟩; exact ⟨⟨⟨⟨a, b⟩, c⟩, d.symm⟩, e⟩

instance (clusters : List Str) (e : FEvent) : Decidable (Wants r clusters e) := by unfold Wants; infer_instance

/-- **C62**, partially: a watch without a label selector, or with one that ckube can read, writes the text of those events, in
order and each once, that it asked for and that happened while it was waiting. `evs`: the events of all writes in order, each with
whether the watcher was waiting then. Missing: an unreadable selector (`C62_false_selector`); and an event that happens while
the watcher is busy is lost (`C62_false_busy`). -/
theorem C62_watch_partial {sel : Str} {i : SelInfo} (hsel : parseSelector sel = some i) (evs : List (FEvent × Bool)) :
    ∃ p, watchStart sel = .stream p
      ∧ watchLoop r p evs
        = ((evs.filter fun x => x.2 && decide (Wants r (getClusters i.paginate.search) x.1)).map fun x => eventText x.1).flatten := by
  refine ⟨_, watchStart_eq hsel, ?_⟩
  induction evs with
  | nil => rfl
  | cons x rest ih =>
    obtain ⟨e, ready⟩ := x
    have hp := watchPasses_iff (r := r) i.paginate e
    rw [watchLoop, ih]
    cases ready with
    | false => simp
    | true =>
      by_cases h : Wants r (getClusters i.paginate.search) e
      · rw [if_pos rfl, if_pos (hp.mpr h), List.filter_cons_of_pos (by simpa using h), watchLine_eq]
        simp
      · rw [if_pos rfl, if_neg (fun h' => h (hp.mp h')), List.filter_cons_of_neg (by simpa using h)]
        simp

/-- **C62**, partially: a watch whose options the client library made for the clusters `cs` passes on the events of these clusters
only. -/
theorem C62_clusters_partial {cs : List Str} {search text : Str} (hset : setClusters [] cs = some search)
    (hutf : validUtf8 search = true) (hlen : (Base64.encode (Paginate.toJson { search := search })).length ≤ 10024)
    (htext : queryListOptions [] { search := search } = some text) (evs : List (FEvent × Bool)) :
    ∃ p, watchStart text = .stream p
      ∧ watchLoop r p evs = ((evs.filter fun x => x.2 && decide (x.1.gvr = r.gvr ∧ (r.ns = [] ∨ x.1.ns = r.ns) ∧ x.1.cluster ∈ cs)).map
        fun x => eventText x.1).flatten := by
  obtain ⟨i, hi, hp⟩ := C05_delivered_partial [] text [] { search := search } ⟨by decide +kernel, by simp, by simp, by simp⟩
    (by simp) (by simp) (by simp) (show validUtf8 [] = true by decide +kernel) hutf hlen htext
  obtain ⟨p, h1, h2⟩ := C62_watch_partial (r := r) hi evs
  refine ⟨p, h1, ?_⟩
  obtain ⟨h3, _⟩ := C19_read_back_partial [] search cs [] hset (Or.inl ⟨by decide +kernel, rfl⟩) ⟨by
      rw [show searchParts [] = [] by decide +kernel]
      simp, by simp, by simp, by simp⟩
  obtain ⟨_, c, hc, _⟩ := setClusters_ok hset
  rw [h2, hp]
  congr 2
  refine List.filter_congr fun x _ => ?_
  congr 1
  rw [decide_eq_decide]
  unfold Wants
  rw [h3]
  constructor
  · rintro ⟨a, b, h | h⟩
    · have := (h3 c).mpr hc
      rw [h] at this
      simp at this
    · exact ⟨a, b, h⟩
  · rintro ⟨a, b, h⟩; exact ⟨a, b, Or.inr h⟩

/-- A watch of the pods of cluster `c1` in namespace `prod`: of four events it passes two on, one is of another cluster and
one came too early. -/
def exWatchReq : HReq := { exFReq "GET" "" "" with rawQuery := lit "watch=true" }
def exFEvents : List (FEvent × Bool) :=
  [(⟨.add, exPods, lit "c1", lit "prod", lit "a", lit "1"⟩, false), (⟨.add, exPods, lit "c1", lit "prod", lit "b", lit "2"⟩, true),
   (⟨.update, exPods, lit "c2", lit "prod", lit "b", lit "3"⟩, true), (⟨.delete, exPods, lit "c1", lit "prod", lit "b", lit "4"⟩, true)]

example : ∃ search text, setClusters [] [lit "c1"] = some search ∧ validUtf8 search = true
    ∧ (Base64.encode (Paginate.toJson { search := search })).length ≤ 10024
    ∧ queryListOptions [] { search := search } = some text
    ∧ (match watchStart text with | .stream p => watchLoop exWatchReq p exFEvents | _ => [])
      = lit "{\"type\": \"ADDED\", \"object\": 2}\n{\"type\": \"DELETED\", \"object\": 4}\n" := by
  refine ⟨_, _, show setClusters [] [lit "c1"] = some (lit "__ckube_as__:cluster in (c1)") by decide +kernel, by decide +kernel,
    by decide +kernel,
    show queryListOptions [] { search := lit "__ckube_as__:cluster in (c1)" }
      = some ((queryListOptions [] { search := lit "__ckube_as__:cluster in (c1)" }).getD []) by decide +kernel, by decide +kernel⟩

/-- **C62** is false for a label selector that does not parse: the watch panics. -/
theorem C62_false_selector {sel : Str} (h0 : sel ≠ []) (h : parseToLabelSelector sel = none) : watchStart sel = .crash := by
  unfold watchStart
  rw [if_neg h0, h]

example : lit "a in" ≠ [] ∧ parseToLabelSelector (lit "a in") = none := by decide +kernel

/-- **C62** is false while the watcher is busy: the same events with and without a watcher that waits. -/
theorem C62_false_busy : ∃ (r : HReq) (e : FEvent), Wants r [] e ∧ watchLoop r {} [(e, true)] = eventText e
    ∧ watchLoop r {} [(e, false)] = [] :=
  ⟨exWatchReq, ⟨.add, exPods, lit "c1", lit "prod", lit "a", lit "1"⟩, by decide +kernel, by decide +kernel, by decide +kernel⟩

end Ckube
