import Verif.Lemmas.Query

/-! # What the answer of a query is made of -/

namespace Ckube
open Spec

theorem latest_det {eval : Str → Obj → Str} {cf : GVR → List (Str × Str)} {h : List Notice} {id : Ident} {o o' : Obj}
    (h1 : Latest eval cf h id o) (h2 : Latest eval cf h id o') : o = o' := by
  obtain ⟨a1, n1, b1, q1, w1, z1⟩ := h1
  obtain ⟨a2, n2, b2, q2, w2, z2⟩ := h2
  have wdet : ∀ {n : Notice} {x y : Obj}, Writes eval cf n id x → Writes eval cf n id y → x = y := by
    intro n x y hx hy
    cases n with
    | added _ _ _ => exact hx.1.symm.trans hy.1
    | modified _ _ _ => exact hx.1.symm.trans hy.1
    | deleted _ _ _ => exact hx.elim
    | clean _ _ => exact hx.elim
  rw [q1] at q2
  rcases List.append_eq_append_iff.mp q2 with ⟨as, ha, hb⟩ | ⟨as, ha, hb⟩
  · cases as with
    | nil => simp only [List.nil_append, List.cons.injEq] at hb; exact wdet (hb.1 ▸ w1) w2
    | cons x as =>
      simp only [List.cons_append, List.cons.injEq] at hb
      exact absurd w2 ((z1 n2 (by rw [hb.2]; simp)).1 _)
  · cases as with
    | nil => simp only [List.nil_append, List.cons.injEq] at hb; exact wdet w1 (hb.1 ▸ w2)
    | cons x as =>
      simp only [List.cons_append, List.cons.injEq] at hb
      exact absurd w1 ((z2 n1 (by rw [hb.2]; simp)).1 _)

variable {isPrint : Nat → Bool} {eval : Str → Obj → Str} {alg : SliceSort} {pf : Str → Option GoFloat}
  {conf : List (GVR × List (Str × Str))} {h : List Notice} {s : Store}

/-- An answer without error: the matching identities with the received and the stored object, in the order of
the sorted result. -/
theorem answer_found (hconf : ConfOK conf) (hrun : (newStore conf).run eval h = some s) (g : GVR) (q : Query)
    (res : QueryResult) (hans : s.mayAnswer isPrint alg pf g q (some res)) (hok : res.error = false) :
    ∃ found : List (Ident × Obj × SObj), (found.map Prod.fst).Nodup
      ∧ (∀ id o, (∃ so, (id, o, so) ∈ found) ↔ Matching isPrint eval conf h g q id o)
      ∧ (∀ e ∈ found, e.2.2 = (build eval (confAt conf g) e.1.cluster e.2.1).2.2 ∧ look s e.1 = some e.2.2)
      ∧ res.total = found.length
      ∧ ((found = [] ∧ res.items = []) ∨ ∃ rs : List SObj, rs.Perm (found.map fun e => e.2.2)
          ∧ sortObjs alg pf rs q.page.sort = (found.map (fun e => e.2.2), false)
          ∧ ∃ items, slice (found.map fun e => e.2.2) (bounds q.page.page q.page.pageSize found.length).1
              (bounds q.page.page q.page.pageSize found.length).2 = some items ∧ res.items = items.map SObj.obj) := by
  unfold Store.mayAnswer at hans
  cases hg : lookup g s.data with
  | none => rw [hg] at hans; simp at hans
  | some cm =>
    rw [hg] at hans
    obtain ⟨vs, hvs, hq⟩ := hans
    obtain ⟨_, sorted, hperm, hcase, htotal⟩ := queryList_cases hq.symm hok
    obtain ⟨hw, hc, hl⟩ := run_look h hrun
    have hcf : s.confOf = confAt conf := by unfold Store.confOf confAt; rw [hc]
    have hwcm := hw.cl g cm (mem_of_lookup hg)
    -- the matching entries, in the order of the answer
    have hvis : ((visited q.ns cm).filter fun o => q.page.matches isPrint o.index == some true)
        = ((entries q.ns cm).filter fun e => q.page.matches isPrint e.2.index == some true).map Prod.snd := by
      rw [visited_entries, List.filter_map]
      rfl
    have hperm0 := hperm
    replace hperm := hperm.trans (hvs.filter _)
    rw [hvis] at hperm
    obtain ⟨es, hes1, hes2⟩ := perm_map_exists Prod.snd hperm.symm _ rfl
    have hes3 : es.Perm ((entries q.ns cm).filter fun e => q.page.matches isPrint e.2.index == some true) :=
      hes2.symm
    have hmem : ∀ c n name so, ((c, n, name), so) ∈ es ↔
        ∃ o, Matching isPrint eval conf h g q ⟨g, c, n, name⟩ o ∧ so = (build eval (confAt conf g) c o).2.2 := by
      intro c n name so
      rw [hes3.mem_iff, List.mem_filter, ← matching_entry hconf hrun hg q]
      simp
    have hnd : (es.map Prod.fst).Nodup := by
      rw [(hes3.map Prod.fst).nodup_iff]
      exact (entries_nodup hwcm q.ns).sublist ((List.filter_sublist).map _)
    have hch : ∀ e ∈ es, ∃ o, Matching isPrint eval conf h g q ⟨g, e.1.1, e.1.2.1, e.1.2.2⟩ o
        ∧ e.2 = (build eval (confAt conf g) e.1.1 o).2.2 := fun e he => (hmem _ _ _ _).mp he
    -- attach the received objects
    have hatt : ∃ found : List (Ident × Obj × SObj), found.map (fun e => ((e.1.cluster, e.1.ns, e.1.name), e.2.2)) = es
        ∧ ∀ f ∈ found, f.1.gvr = g ∧ Matching isPrint eval conf h g q f.1 f.2.1
          ∧ f.2.2 = (build eval (confAt conf g) f.1.cluster f.2.1).2.2 := by
      clear hes1 hes2 hes3 hmem hnd hperm hvis
      induction es with
      | nil => exact ⟨[], rfl, by simp⟩
      | cons e es ih =>
        obtain ⟨o, ho, heq⟩ := hch e (by simp)
        obtain ⟨f, hf1, hf2⟩ := ih (fun e he => hch e (by simp [he]))
        refine ⟨(⟨g, e.1.1, e.1.2.1, e.1.2.2⟩, o, e.2) :: f, by simp [hf1], ?_⟩
        intro x hx
        rcases List.mem_cons.mp hx with rfl | hx
        · exact ⟨rfl, ho, heq⟩
        · exact hf2 x hx
    obtain ⟨found, hf1, hf2⟩ := hatt
    have hobj : found.map (fun e => e.2.2) = sorted := by
      have := congrArg (List.map Prod.snd) hf1
      simp only [List.map_map, Function.comp_def] at this
      rw [this, ← hes1]
    have hkeys : found.map (fun e => (e.1.cluster, e.1.ns, e.1.name)) = es.map Prod.fst := by
      have := congrArg (List.map Prod.fst) hf1
      simpa only [List.map_map, Function.comp_def] using this
    have hsl : sorted.length = found.length := by rw [← hobj]; simp
    refine ⟨found, ?_, ?_, ?_, by rw [htotal, hsl], ?_⟩
    · have : (found.map fun e => (e.1.cluster, e.1.ns, e.1.name))
          = (found.map Prod.fst).map fun i => (i.cluster, i.ns, i.name) := by
        rw [List.map_map]; rfl
      rw [← hkeys, this] at hnd
      exact hnd.of_map _
    · intro id o
      constructor
      · rintro ⟨o', ho'⟩
        exact (hf2 _ ho').2.1
      · intro hm
        have hgid : id.gvr = g := hm.2.1
        have hid : id = ⟨g, id.cluster, id.ns, id.name⟩ := by cases id; simp_all
        have h1 := (hmem id.cluster id.ns id.name _).mpr ⟨o, hid ▸ hm, rfl⟩
        have h2 : (id.cluster, id.ns, id.name) ∈ found.map (fun e => (e.1.cluster, e.1.ns, e.1.name)) := by
          rw [hkeys]; exact List.mem_map.mpr ⟨_, h1, rfl⟩
        obtain ⟨f, hf, hfe⟩ := List.mem_map.mp h2
        obtain ⟨k1, k2, _⟩ := hf2 f hf
        have hfid : f.1 = id := by
          rw [hid, ← k1]
          simp only [Prod.mk.injEq] at hfe
          obtain ⟨e1, e2, e3⟩ := hfe
          rw [← e1, ← e2, ← e3]
        have e1 := k2.1
        rw [hfid] at e1
        have := latest_det e1 hm.1
        exact ⟨f.2.2, by rw [← hfid, ← this]; exact hf⟩
    · intro e he
      obtain ⟨k1, k2, k3⟩ := hf2 e he
      have := (hl e.1).1 e.2.1 (by rw [hcf]; exact k2.1)
      exact ⟨k3, by rw [this, k3, hcf, k1]⟩
    · rcases hcase with ⟨_, rfl, hi⟩ | ⟨hs, items, h1, h2⟩
      · exact Or.inl ⟨by simpa using hobj, hi⟩
      · refine Or.inr ⟨vs.filter fun o => q.page.matches isPrint o.index == some true, ?_, ?_, items, ?_, h2⟩
        · rw [hobj]; exact hperm0.symm
        · rw [hobj]; exact hs
        · rw [hobj, ← hsl]; exact h1

end Ckube
