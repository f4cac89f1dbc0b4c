import Verif.Model.DeleteOpts
import Verif.Lemmas.JsonVal
import Verif.Lemmas.Num

/-! # Delete options are read back -/

namespace Ckube
open Json

theorem okNum_intDigits (i : Int) : okNum (intDigits i) := by
  have hform : intDigits i = (if i < 0 then [45] else []) ++ natDigits i.natAbs := by
    unfold intDigits; split <;> rfl
  refine ⟨?_, ?_⟩
  · have := validNum_natDigits i.natAbs (decide (i < 0))
    rw [hform]; simpa using this
  · have := natDigits_all i.natAbs
    rw [hform, List.all_append, Bool.and_eq_true]
    refine ⟨by split <;> decide, ?_⟩
    rw [List.all_eq_true] at this ⊢
    intro c hc; simp [isNumByte, this c hc]

/-- Options that JSON can carry: strings are valid UTF-8, the grace period is an `int64`. -/
structure DelOpts.WF (o : DelOpts) : Prop where
  kind : validUtf8 o.kind = true
  apiVersion : validUtf8 o.apiVersion = true
  grace : ∀ i, o.grace = some i → minInt64 ≤ i ∧ i ≤ maxInt64
  pre : ∀ p, o.pre = some p → (∀ s, p.1 = some s → validUtf8 s = true) ∧ (∀ s, p.2 = some s → validUtf8 s = true)
  policy : ∀ s, o.policy = some s → validUtf8 s = true
  dryRun : ∀ s ∈ o.dryRun, validUtf8 s = true

theorem members_good {o : DelOpts} (h : o.WF) : Good (.obj o.members) := by
  rw [Good, goodMembers_iff]
  intro e he
  unfold DelOpts.members at he
  simp only [List.mem_append] at he
  have lits : ∀ k ∈ [lit "kind", lit "apiVersion", lit "gracePeriodSeconds", lit "preconditions", lit "orphanDependents",
      lit "propagationPolicy", lit "dryRun", lit "uid", lit "resourceVersion"], validUtf8 k = true := by decide +kernel
  rcases he with (((((he | he) | he) | he) | he) | he) | he
  · unfold strMember at he
    split at he
    · simp at he
    · simp only [List.mem_singleton] at he; subst he
      exact ⟨lits _ (by simp), by rw [Good]; exact h.kind⟩
  · unfold strMember at he
    split at he
    · simp at he
    · simp only [List.mem_singleton] at he; subst he
      exact ⟨lits _ (by simp), by rw [Good]; exact h.apiVersion⟩
  · cases hg : o.grace with
    | none => simp [hg, optMember] at he
    | some i =>
      simp only [hg, optMember, List.mem_singleton] at he; subst he
      exact ⟨lits _ (by simp), by rw [Good]; exact okNum_intDigits i⟩
  · cases hg : o.pre with
    | none => simp [hg, optMember] at he
    | some p =>
      simp only [hg, optMember, List.mem_singleton] at he; subst he
      refine ⟨lits _ (by simp), ?_⟩
      simp only
      rw [Good, goodMembers_iff]
      intro e he
      obtain ⟨h1, h2⟩ := h.pre p hg
      unfold preMembers at he
      simp only [List.mem_append] at he
      rcases he with he | he
      · cases hp : p.1 with
        | none => simp [hp, optMember] at he
        | some s =>
          simp only [hp, optMember, List.mem_singleton] at he; subst he
          exact ⟨lits _ (by simp), by rw [Good]; exact h1 s hp⟩
      · cases hp : p.2 with
        | none => simp [hp, optMember] at he
        | some s =>
          simp only [hp, optMember, List.mem_singleton] at he; subst he
          exact ⟨lits _ (by simp), by rw [Good]; exact h2 s hp⟩
  · cases hg : o.orphan with
    | none => simp [hg, optMember] at he
    | some b =>
      simp only [hg, optMember, List.mem_singleton] at he; subst he
      exact ⟨lits _ (by simp), by simp only [Good]⟩
  · cases hg : o.policy with
    | none => simp [hg, optMember] at he
    | some b =>
      simp only [hg, optMember, List.mem_singleton] at he; subst he
      exact ⟨lits _ (by simp), by rw [Good]; exact h.policy b hg⟩
  · split at he
    · simp at he
    · simp only [List.mem_singleton] at he; subst he
      refine ⟨lits _ (by simp), ?_⟩
      simp only
      rw [Good, goodElems_iff]
      intro x hx
      obtain ⟨s, hs, rfl⟩ := List.mem_map.mp hx
      rw [Good]
      exact h.dryRun s hs

/-- `Unmarshal` of what `Marshal` wrote. -/
theorem decodeDelete_toJson {o : DelOpts} (h : o.WF) : decodeDelete o.toJson = o := by
  unfold decodeDelete DelOpts.toJson
  rw [parse_enc (members_good h)]
  simp only
  obtain ⟨kind, apiVersion, grace, pre, orphan, policy, dryRun⟩ := o
  have k1 : foldKey 0 (lit "kind") = lit "kind" := by decide +kernel
  have k2 : foldKey 0 (lit "apiVersion") = lit "apiversion" := by decide +kernel
  have k3 : foldKey 0 (lit "gracePeriodSeconds") = lit "graceperiodseconds" := by decide +kernel
  have k4 : foldKey 0 (lit "preconditions") = lit "preconditions" := by decide +kernel
  have k5 : foldKey 0 (lit "orphanDependents") = lit "orphandependents" := by decide +kernel
  have k6 : foldKey 0 (lit "propagationPolicy") = lit "propagationpolicy" := by decide +kernel
  have k7 : foldKey 0 (lit "dryRun") = lit "dryrun" := by decide +kernel
  have s1 : ∀ (o : DelOpts) (t : Str), (strMember (lit "kind") t).foldl setDelMember o
      = { o with kind := if t = [] then o.kind else t } := by
    intro o t; unfold strMember; split
    · simp
    · simp [setDelMember, k1, setStr]
  have s2 : ∀ (o : DelOpts) (t : Str), (strMember (lit "apiVersion") t).foldl setDelMember o
      = { o with apiVersion := if t = [] then o.apiVersion else t } := by
    intro o t; unfold strMember; split
    · simp
    · simp [setDelMember, k2, setStr, show lit "apiversion" ≠ lit "kind" by decide +kernel]
  have s3 : ∀ (o : DelOpts) (t : Option Int), (∀ i, t = some i → minInt64 ≤ i ∧ i ≤ maxInt64) →
      (optMember (lit "gracePeriodSeconds") (fun i => JV.num (intDigits i)) t).foldl setDelMember o
      = { o with grace := t.or o.grace } := by
    intro o t ht; cases t with
    | none => simp [optMember]
    | some i => simp [optMember, setDelMember, k3, setPtrInt, parseInt64_intDigits (ht i rfl),
        show lit "graceperiodseconds" ≠ lit "kind" by decide +kernel,
        show lit "graceperiodseconds" ≠ lit "apiversion" by decide +kernel]
  have p1 : foldKey 0 (lit "uid") = lit "uid" := by decide +kernel
  have p2 : foldKey 0 (lit "resourceVersion") = lit "resourceversion" := by decide +kernel
  have sp : ∀ (t : Option Str × Option Str), (preMembers t).foldl setPre (none, none) = t := by
    rintro ⟨a, b⟩
    cases a <;> cases b <;> simp [preMembers, optMember, setPre, p1, p2, setPtrStr,
      show lit "resourceversion" ≠ lit "uid" by decide +kernel]
  have s4 : ∀ (o : DelOpts) (t : Option (Option Str × Option Str)), o.pre = none →
      (optMember (lit "preconditions") (fun p => JV.obj (preMembers p)) t).foldl setDelMember o
      = { o with pre := t } := by
    intro o t ho; cases t with
    | none => simp [optMember, ← ho]
    | some p => simp [optMember, setDelMember, k4, setPtrPre, ho, sp,
        show lit "preconditions" ≠ lit "kind" by decide +kernel,
        show lit "preconditions" ≠ lit "apiversion" by decide +kernel,
        show lit "preconditions" ≠ lit "graceperiodseconds" by decide +kernel]
  have s5 : ∀ (o : DelOpts) (t : Option Bool), (optMember (lit "orphanDependents") JV.bool t).foldl setDelMember o
      = { o with orphan := t.or o.orphan } := by
    intro o t; cases t with
    | none => simp [optMember]
    | some i => simp [optMember, setDelMember, k5, setPtrBool,
        show lit "orphandependents" ≠ lit "kind" by decide +kernel,
        show lit "orphandependents" ≠ lit "apiversion" by decide +kernel,
        show lit "orphandependents" ≠ lit "graceperiodseconds" by decide +kernel,
        show lit "orphandependents" ≠ lit "preconditions" by decide +kernel]
  have s6 : ∀ (o : DelOpts) (t : Option Str), (optMember (lit "propagationPolicy") JV.str t).foldl setDelMember o
      = { o with policy := t.or o.policy } := by
    intro o t; cases t with
    | none => simp [optMember]
    | some i => simp [optMember, setDelMember, k6, setPtrStr,
        show lit "propagationpolicy" ≠ lit "kind" by decide +kernel,
        show lit "propagationpolicy" ≠ lit "apiversion" by decide +kernel,
        show lit "propagationpolicy" ≠ lit "graceperiodseconds" by decide +kernel,
        show lit "propagationpolicy" ≠ lit "preconditions" by decide +kernel,
        show lit "propagationpolicy" ≠ lit "orphandependents" by decide +kernel]
  have s7 : ∀ (o : DelOpts) (t : List Str), o.dryRun = [] →
      ((if t = [] then [] else [(lit "dryRun", JV.arr (t.map JV.str))]) : List (Str × JV)).foldl setDelMember o
      = { o with dryRun := t } := by
    intro o t ho
    have hm : t.map (strElem ∘ JV.str) = t := by
      have : (strElem ∘ JV.str) = id := by funext s; rfl
      rw [this, List.map_id]
    split
    · rename_i h0; subst h0; simp [← ho]
    · simp [setDelMember, k7, setStrs, hm,
        show lit "dryrun" ≠ lit "kind" by decide +kernel,
        show lit "dryrun" ≠ lit "apiversion" by decide +kernel,
        show lit "dryrun" ≠ lit "graceperiodseconds" by decide +kernel,
        show lit "dryrun" ≠ lit "preconditions" by decide +kernel,
        show lit "dryrun" ≠ lit "orphandependents" by decide +kernel,
        show lit "dryrun" ≠ lit "propagationpolicy" by decide +kernel]
  unfold DelOpts.members
  simp only [List.foldl_append]
  rw [s1, s2, s3 _ _ h.grace, s4 _ _ rfl, s5, s6, s7 _ _ rfl]
  simp only [Option.or_none]
  congr 1 <;> (split <;> simp_all)

theorem parseInt64_range {s : Str} {i : Int} (h : parseInt64 s = some i) : minInt64 ≤ i ∧ i ≤ maxInt64 := by
  unfold parseInt64 at h
  simp only at h
  repeat' split at h
  all_goals first
    | (simp at h; done)
    | (simp only [Option.some.injEq] at h; subst h; simp only [minInt64, maxInt64] at *; omega)

/-- Everything `Unmarshal` returns can be written. -/
theorem decodeDelete_wf (s : Str) : (decodeDelete s).WF := by
  have h0 : ({} : DelOpts).WF := ⟨rfl, rfl, by simp, by simp, by simp, by simp⟩
  unfold decodeDelete
  split
  · rename_i ms hp
    have hg := good_of_parse hp
    rw [Good, goodMembers_iff] at hg
    clear hp
    have strOk : ∀ (old : Str) (v : JV), validUtf8 old = true → Good v → validUtf8 (setStr old v) = true := by
      intro old v ho hv
      cases v <;> simp only [setStr] <;> try exact ho
      rwa [Good] at hv
    have ptrOk : ∀ (old : Option Str) (v : JV), (∀ s, old = some s → validUtf8 s = true) → Good v →
        ∀ s, setPtrStr old v = some s → validUtf8 s = true := by
      intro old v ho hv s hs
      have hd : validUtf8 (old.getD []) = true := by
        cases old with
        | none => rfl
        | some x => exact ho x rfl
      cases v <;> simp only [setPtrStr, Option.some.injEq] at hs <;> first
        | (simp at hs)
        | (rw [← hs]; exact hd)
        | (rw [← hs]; rwa [Good] at hv)
    have step : ∀ (o : DelOpts) (kv : Str × JV), o.WF → Good kv.2 → (setDelMember o kv).WF := by
      intro o kv ho hv
      unfold setDelMember
      simp only
      split
      · exact { ho with kind := strOk _ _ ho.kind hv }
      split
      · exact { ho with apiVersion := strOk _ _ ho.apiVersion hv }
      split
      · refine { ho with grace := ?_ }
        intro i hi
        have hd : minInt64 ≤ o.grace.getD 0 ∧ o.grace.getD 0 ≤ maxInt64 := by
          cases hg : o.grace with
          | none => simp [minInt64, maxInt64]
          | some x => exact ho.grace x hg
        simp only at hi
        cases hk : kv.2 with
        | num raw =>
          rw [hk] at hi
          simp only [setPtrInt, Option.some.injEq] at hi
          cases hr : parseInt64 raw with
          | none => rw [hr] at hi; rw [← hi]; exact hd
          | some x => rw [hr] at hi; rw [← hi]; exact parseInt64_range hr
        | null => rw [hk] at hi; simp [setPtrInt] at hi
        | _ => rw [hk] at hi; simp only [setPtrInt, Option.some.injEq] at hi; rw [← hi]; exact hd
      split
      · refine { ho with pre := ?_ }
        intro p hp
        have hd : (∀ s, (o.pre.getD (none, none)).1 = some s → validUtf8 s = true)
            ∧ (∀ s, (o.pre.getD (none, none)).2 = some s → validUtf8 s = true) := by
          cases hg : o.pre with
          | none => simp
          | some x => exact ho.pre x hg
        simp only at hp
        cases hk : kv.2 with
        | null => rw [hk] at hp; simp [setPtrPre] at hp
        | obj ms =>
          rw [hk] at hp hv
          rw [Good, goodMembers_iff] at hv
          simp only [setPtrPre, Option.some.injEq] at hp
          rw [← hp]
          clear hp hk
          generalize o.pre.getD (none, none) = q at hd
          induction ms generalizing q with
          | nil => exact hd
          | cons e ms ih =>
            rw [List.foldl_cons]
            refine ih (fun x hx => hv x (by simp [hx])) _ ?_
            have hge := (hv e (by simp)).2
            unfold setPre
            simp only
            split
            · exact ⟨ptrOk _ _ hd.1 hge, hd.2⟩
            split
            · exact ⟨hd.1, ptrOk _ _ hd.2 hge⟩
            · exact hd
        | _ => rw [hk] at hp; simp only [setPtrPre, Option.some.injEq] at hp; rw [← hp]; exact hd
      split
      · exact { ho with }
      split
      · exact { ho with policy := ptrOk _ _ ho.policy hv }
      split
      · refine { ho with dryRun := ?_ }
        intro s hs
        simp only at hs
        cases hk : kv.2 with
        | null => rw [hk] at hs; simp [setStrs] at hs
        | arr xs =>
          rw [hk] at hs hv
          rw [Good, goodElems_iff] at hv
          simp only [setStrs] at hs
          obtain ⟨x, hx, rfl⟩ := List.mem_map.mp hs
          have := hv x hx
          cases x <;> simp only [strElem] <;> try rfl
          rwa [Good] at this
        | _ => rw [hk] at hs; simp only [setStrs] at hs; exact ho.dryRun s hs
      · exact ho
    have : ∀ (ms : List (Str × JV)) (o : DelOpts), o.WF → (∀ e ∈ ms, validUtf8 e.1 = true ∧ Good e.2) →
        (ms.foldl setDelMember o).WF := by
      intro ms
      induction ms with
      | nil => intro o ho _; exact ho
      | cons e ms ih =>
        intro o ho hm
        exact ih _ (step o e ho (hm e (by simp)).2) (fun x hx => hm x (by simp [hx]))
    exact this ms {} h0 hg
  · exact h0

end Ckube
