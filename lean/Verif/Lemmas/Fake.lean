import Verif.Spec.Fake
import Verif.Lemmas.Proxy
import Verif.Lemmas.Query

/-! # Lemmas about the fake server -/

namespace Ckube
open Spec

theorem fakeCluster_spec (raw : Str) : ∀ (ord : Values) (dflt : Str), (∀ e ∈ ord, e ∈ parseQuery raw) →
    ((∃ k ∈ markerKeys, First raw k (marker (fakeCluster dflt ord)) ∧ ∃ e ∈ ord, e.1 = k)
      ∨ (fakeCluster dflt ord = dflt ∧ ∀ e ∈ ord, e.1 ∈ markerKeys → ∀ c, e.2.headD [] ≠ marker c)) := by
  intro ord
  induction ord with
  | nil => intro dflt _; exact Or.inr ⟨rfl, by simp⟩
  | cons e ord ih =>
    intro dflt hin
    have hin' : ∀ x ∈ ord, x ∈ parseQuery raw := fun x hx => hin x (List.mem_cons_of_mem _ hx)
    have hk : (e.1 = lit "fieldManager" ∨ e.1 = lit "resourceVersion") ↔ e.1 ∈ markerKeys := by
      simp [markerKeys]
    by_cases hc : (e.1 = lit "fieldManager" ∨ e.1 = lit "resourceVersion") ∧ hasPrefix (e.2.headD []) clusterPrefix = true
    · obtain ⟨c, hc'⟩ := hasPrefix_iff.mp hc.2
      have hd : (e.2.headD []).drop clusterPrefix.length = c := by rw [← hc', List.drop_left]
      have he : fakeCluster dflt (e :: ord) = fakeCluster c ord := by
        unfold fakeCluster; rw [List.foldl_cons, if_pos hc, hd]
      rw [he]
      rcases ih c hin' with ⟨k, h1, h2, x, hx, h3⟩ | ⟨h1, _⟩
      · exact Or.inl ⟨k, h1, h2, x, List.mem_cons_of_mem _ hx, h3⟩
      · refine Or.inl ⟨e.1, hk.mp hc.1, ?_, e, List.mem_cons_self .., rfl⟩
        rw [h1]
        have := mem_first (hin e (List.mem_cons_self ..))
        rw [← hc'] at this
        exact this
    · have he : fakeCluster dflt (e :: ord) = fakeCluster dflt ord := by
        unfold fakeCluster; rw [List.foldl_cons, if_neg hc]
      rw [he]
      rcases ih dflt hin' with ⟨k, h1, h2, x, hx, h3⟩ | ⟨h1, h2⟩
      · exact Or.inl ⟨k, h1, h2, x, List.mem_cons_of_mem _ hx, h3⟩
      · refine Or.inr ⟨h1, ?_⟩
        intro x hx hxk c hxc
        rcases List.mem_cons.mp hx with rfl | hx
        · exact hc ⟨hk.mpr hxk, hasPrefix_iff.mpr ⟨c, hxc.symm⟩⟩
        · exact h2 x hx hxk c hxc

/-- The cluster of the query. -/
theorem fakeCluster_query {r : HReq} {ord : Values} (hord : ord.Perm (parseQuery r.rawQuery)) (dflt : Str) :
    QueryNames r (fakeCluster dflt ord) ∨ (fakeCluster dflt ord = dflt ∧ ∀ c, ¬ QueryNames r c) := by
  rcases fakeCluster_spec r.rawQuery ord dflt (fun e he => hord.subset he) with ⟨k, h1, h2, _⟩ | ⟨h1, h2⟩
  · exact Or.inl ⟨k, h1, h2⟩
  · refine Or.inr ⟨h1, ?_⟩
    rintro c ⟨k, hk, hf⟩
    obtain ⟨vs, hvs⟩ := first_head hf
    exact h2 _ (hord.symm.subset hvs) hk c rfl

theorem fakeWatch_iff {r : HReq} {ord : Values} (hord : ord.Perm (parseQuery r.rawQuery)) :
    fakeWatch ord = true ↔ AsksWatch r := by
  unfold fakeWatch AsksWatch
  rw [List.any_eq_true]
  simp only [Bool.and_eq_true, Bool.or_eq_true, decide_eq_true_eq, List.mem_cons, List.not_mem_nil, or_false]
  constructor
  · rintro ⟨e, he, h1, h2⟩
    exact ⟨_, h1 ▸ mem_first (hord.subset he), h2⟩
  · rintro ⟨v, hv, h2⟩
    obtain ⟨vs, hvs⟩ := first_head hv
    exact ⟨_, hord.symm.subset hvs, rfl, h2⟩

theorem fakeDel_spec {r : HReq} (hm : r.method = lit "DELETE") (c : Str) :
    OptionsName r (fakeDelCluster r.body c) ∨ (fakeDelCluster r.body c = c ∧ ∀ c', ¬ OptionsName r c') := by
  unfold fakeDelCluster OptionsName
  split
  · rename_i d hd
    split
    · rename_i hp
      obtain ⟨c', hc'⟩ := hasPrefix_iff.mp hp
      refine Or.inl ⟨hm, ?_⟩
      rw [hd, ← hc', List.drop_left]; rfl
    · rename_i hp
      refine Or.inr ⟨rfl, ?_⟩
      rintro c' ⟨_, h⟩
      rw [hd] at h
      simp only [List.cons.injEq, and_true] at h
      exact hp (hasPrefix_iff.mpr ⟨c', h.symm⟩)
  · rename_i h0
    exact Or.inr ⟨rfl, fun c' h => h0 _ h.2⟩

/-- The cluster of the write the code uses is a target of the request. -/
theorem fake_target {r : HReq} {ord : Values} (hord : ord.Perm (parseQuery r.rawQuery)) (dflt : Str) :
    (r.method ≠ lit "DELETE" → FakeTarget dflt r (fakeCluster dflt ord))
    ∧ (r.method = lit "DELETE" → FakeTarget dflt r (fakeDelCluster r.body (fakeCluster dflt ord))) := by
  constructor
  · intro hm
    have hno : ∀ c', ¬ OptionsName r c' := fun c' h => hm h.1
    rcases fakeCluster_query hord dflt with h | ⟨h, h'⟩
    · exact .query h hno
    · exact .default h hno h'
  · intro hm
    rcases fakeDel_spec hm (fakeCluster dflt ord) with h | ⟨h, hno⟩
    · exact .options h
    · rw [h]
      rcases fakeCluster_query hord dflt with h | ⟨h, h'⟩
      · exact .query h hno
      · exact .default h hno h'

variable {eval : Str → Obj → Str} {conf : List (GVR × List (Str × Str))} {h : List Notice} {s : Store}

/-- The effect of writing an object with metadata. -/
theorem put_effect (hrun : (newStore conf).run eval h = some s) {n : Notice} {g : GVR} {c : Str} {o : Obj} {m : ObjMeta}
    (hn : n = .added g c o ∨ n = .modified g c o) (ho : o.om = some m) (hg : s.isStoreGVR g = true) :
    ∃ s' o', s.step eval n = some s' ∧ (newStore conf).run eval (h ++ [n]) = some s'
      ∧ readAt s' ⟨g, c, m.ns, m.name⟩ = some o' ∧ SameButMarks o o'
      ∧ o' = (build eval (s.confOf g) c o).2.2.obj
      ∧ ∀ id, id ≠ ⟨g, c, m.ns, m.name⟩ → readAt s' id = readAt s id := by
  obtain ⟨hw, _, _⟩ := run_look h hrun
  have hex : ∃ s', s.step eval n = some s' := by
    rcases hn with rfl | rfl
    all_goals exact Option.isSome_iff_exists.mp (by
      show (s.put eval g c o).isSome = true
      unfold Store.put; rw [notify_isSome]; exact hg)
  obtain ⟨s', hs'⟩ := hex
  obtain ⟨_, _, hl⟩ := step_look hw hs'
  have hid : identOf eval s.confOf g c o = ⟨g, c, m.ns, m.name⟩ := by unfold identOf objKey; rw [ho]
  have hwr : Writes eval s.confOf n ⟨g, c, m.ns, m.name⟩ o := by
    rcases hn with rfl | rfl <;> exact ⟨rfl, hid⟩
  refine ⟨s', _, hs', ?_, ?_, ?_, rfl, ?_⟩
  · rw [run_append, hrun]
    simp [Store.run, hs']
  · unfold readAt
    rw [get_look, (hl _).1 o hwr]
    rfl
  · exact build_same eval _ _ o
  · intro id hne
    unfold readAt
    rw [get_look, get_look, (hl id).2.2]
    · intro o' ho'
      rcases hn with rfl | rfl
      all_goals exact hne (ho'.2 ▸ hid)
    · intro hr
      rcases hn with rfl | rfl <;> exact hr

/-- The effect of removing an object with metadata. -/
theorem del_effect (hrun : (newStore conf).run eval h = some s) {g : GVR} {c : Str} {o : Obj} {m : ObjMeta}
    (ho : o.om = some m) (hg : s.isStoreGVR g = true) :
    ∃ s', s.onDeleted eval g c o = some s' ∧ (newStore conf).run eval (h ++ [.deleted g c o]) = some s'
      ∧ readAt s' ⟨g, c, m.ns, m.name⟩ = none
      ∧ ∀ id, id ≠ ⟨g, c, m.ns, m.name⟩ → readAt s' id = readAt s id := by
  obtain ⟨hw, _, _⟩ := run_look h hrun
  obtain ⟨s', hs'⟩ : ∃ s', s.step eval (.deleted g c o) = some s' := Option.isSome_iff_exists.mp (by
    show (s.onDeleted eval g c o).isSome = true
    unfold Store.onDeleted; rw [notify_isSome]; exact hg)
  obtain ⟨_, _, hl⟩ := step_look hw hs'
  have hid : identOf eval s.confOf g c o = ⟨g, c, m.ns, m.name⟩ := by unfold identOf objKey; rw [ho]
  refine ⟨s', hs', ?_, ?_, ?_⟩
  · rw [run_append, hrun]
    simp [Store.run, hs']
  · unfold readAt
    rw [get_look, (hl _).2.1 hid]
    rfl
  · intro id hne
    unfold readAt
    rw [get_look, get_look, (hl id).2.2]
    · exact fun _ h => h
    · intro hr
      exact hne ((hid.symm.trans hr).symm)

end Ckube
