import Verif.Spec.DeleteBody
import Verif.Lemmas.DeleteOpts
import Verif.Props.ConfigFile

/-! # Delete options: what `Unmarshal` reads is what the text says -/

namespace Ckube
open Spec Json

theorem decimal_eq (ds : Str) : decimal ds = digitsVal ds := by
  unfold decimal digitsVal
  congr 1
  funext n c
  rw [Nat.mul_comm]

theorem isDigits_iff {ds : Str} : IsDigits ds ↔ ds ≠ [] ∧ ds.all isDigit = true := by
  unfold IsDigits
  rw [List.all_eq_true]
  simp [isDigit]

theorem parseInt64_means {raw : Str} {i : Int} : parseInt64 raw = some i ↔ MeansInt64 raw i := by
  unfold MeansInt64
  simp only [isDigits_iff, decimal_eq]
  cases raw with
  | nil => simp [parseInt64]
  | cons c r =>
    by_cases hc : c = 45
    · subst hc
      have h0 : isDigit 45 = false := by decide
      simp only [parseInt64, if_true]
      by_cases hr : r = []
      · simp [hr, h0]
      · by_cases ha : r.all isDigit = true
        · simp only [hr, if_false, ha, if_true]
          constructor
          · intro h
            split at h
            · rename_i hb
              simp only [Option.some.injEq] at h
              subst h
              exact ⟨hb.1, hb.2, Or.inr ⟨r, rfl, ⟨hr, ha⟩, rfl⟩⟩
            · simp at h
          · rintro ⟨h1, h2, ⟨⟨_, h3⟩, _⟩ | ⟨ds, e, _, rfl⟩⟩
            · rw [List.all_cons, h0] at h3; simp at h3
            · simp only [List.cons.injEq, true_and] at e
              subst e
              rw [if_pos ⟨h1, h2⟩]
        · simp only [hr, if_false, ha, Bool.false_eq_true]
          constructor
          · simp
          · rintro ⟨h1, h2, ⟨⟨_, h3⟩, _⟩ | ⟨ds, e, ⟨_, h3⟩, rfl⟩⟩
            · rw [List.all_cons, h0] at h3; simp at h3
            · simp only [List.cons.injEq, true_and] at e
              subst e
              exact absurd h3 ha
    · simp only [parseInt64, hc, if_false]
      by_cases ha : (c :: r).all isDigit = true
      · simp only [reduceCtorEq, if_false, ha, if_true, Bool.false_eq_true]
        constructor
        · intro h
          split at h
          · rename_i hb
            simp only [Option.some.injEq] at h
            subst h
            exact ⟨hb.1, hb.2, Or.inl ⟨⟨by simp, trivial⟩, rfl⟩⟩
          · simp at h
        · rintro ⟨h1, h2, ⟨_, rfl⟩ | ⟨ds, e, _⟩⟩
          · rw [if_pos ⟨h1, h2⟩]
          · exact absurd (List.cons.inj e).1 hc
      · simp only [reduceCtorEq, if_false, ha, Bool.false_eq_true]
        constructor
        · simp
        · rintro ⟨h1, h2, ⟨⟨_, h3⟩, _⟩ | ⟨ds, e, _⟩⟩
          · simp at h3
          · exact absurd (List.cons.inj e).1 hc

/-- A field after all members: `S` is what a member with its name does. -/
theorem fold_absent {β α : Type} {step : β → Str × JV → β} {get : β → α} {S : α → JV → α} {name : Str}
    (hstep : ∀ o kv, (∀ b ∈ kv.1, b.toNat < 128) → get (step o kv) = if asciiLower kv.1 = name then S (get o) kv.2 else get o) :
    ∀ (ms : List (Str × JV)) (o : β), (∀ e ∈ ms, ∀ b ∈ e.1, b.toNat < 128) → (∀ e ∈ ms, asciiLower e.1 ≠ name) → get (ms.foldl step o) = get o
  | [], _, _, _ => rfl
  | e :: ms, o, ha, hn => by
    rw [List.foldl_cons, fold_absent hstep ms _ (fun x hx => ha x (by simp [hx])) (fun x hx => hn x (by simp [hx])), hstep _ _ (ha e (by simp)),
      if_neg (hn e (by simp))]

theorem fold_member {β α : Type} {step : β → Str × JV → β} {get : β → α} {S : α → JV → α} {name : Str}
    (hstep : ∀ o kv, (∀ b ∈ kv.1, b.toNat < 128) → get (step o kv) = if asciiLower kv.1 = name then S (get o) kv.2 else get o) :
    ∀ (ms : List (Str × JV)) (o : β), PlainNames ms → ∀ k x, (k, x) ∈ ms → asciiLower k = name → get (ms.foldl step o) = S (get o) x
  | e :: ms, o, hp, k, x, hm, hk => by
    obtain ⟨h1, h2⟩ := plain_tail hp
    rw [List.foldl_cons]
    rcases List.mem_cons.mp hm with rfl | hm
    · rw [fold_absent hstep ms _ h1.1 (fun y hy => by rw [← hk]; exact h2 y hy), hstep _ _ (hp.1 _ (by simp)), if_pos hk]
    · rw [fold_member hstep ms _ h1 k x hm hk, hstep _ _ (hp.1 e (by simp)), if_neg]
      intro he
      exact h2 _ hm (hk.trans he.symm)

theorem member_fold {β α : Type} {step : β → Str × JV → β} {get : β → α} {S : α → JV → α} {name : String} {means : JV → α → Prop} {zero : α}
    (hstep : ∀ o kv, (∀ b ∈ kv.1, b.toNat < 128) → get (step o kv) = if asciiLower kv.1 = lit name then S (get o) kv.2 else get o)
    {ms : List (Str × JV)} {o : β} (h0 : get o = zero) (hp : PlainNames ms)
    (hS : ∀ k x, (k, x) ∈ ms → asciiLower k = lit name → ∀ v, means x v → S zero x = v) {v : α} (h : Member means zero ms name v) :
    get (ms.foldl step o) = v := by
  rcases h with ⟨rfl, h⟩ | ⟨k, x, hm, hk, h⟩
  · rw [fold_absent hstep ms o hp.1 h, h0]
  · rw [fold_member hstep ms o hp k x hm hk, h0, hS k x hm hk v h]

theorem fold_is_member {β α : Type} {step : β → Str × JV → β} {get : β → α} {S : α → JV → α} {name : String} {means : JV → α → Prop} {zero : α}
    (hstep : ∀ o kv, (∀ b ∈ kv.1, b.toNat < 128) → get (step o kv) = if asciiLower kv.1 = lit name then S (get o) kv.2 else get o)
    {ms : List (Str × JV)} {o : β} (h0 : get o = zero) (hp : PlainNames ms)
    (hS : ∀ k x, (k, x) ∈ ms → asciiLower k = lit name → means x (S zero x)) :
    Member means zero ms name (get (ms.foldl step o)) := by
  by_cases h : ∀ e ∈ ms, asciiLower e.1 ≠ lit name
  · exact Or.inl ⟨by rw [fold_absent hstep ms o hp.1 h, h0], h⟩
  · push Not at h
    obtain ⟨⟨k, x⟩, hm, hk⟩ := h
    refine Or.inr ⟨k, x, hm, hk, ?_⟩
    rw [fold_member hstep ms o hp k x hm hk, h0]
    exact hS k x hm hk

/-! ## The fields -/

theorem setDelMember_fields (o : DelOpts) (kv : Str × JV) (ha : ∀ b ∈ kv.1, b.toNat < 128) :
    (setDelMember o kv).kind = (if asciiLower kv.1 = lit "kind" then setStr o.kind kv.2 else o.kind)
    ∧ (setDelMember o kv).apiVersion = (if asciiLower kv.1 = lit "apiversion" then setStr o.apiVersion kv.2 else o.apiVersion)
    ∧ (setDelMember o kv).grace = (if asciiLower kv.1 = lit "graceperiodseconds" then setPtrInt o.grace kv.2 else o.grace)
    ∧ (setDelMember o kv).pre = (if asciiLower kv.1 = lit "preconditions" then setPtrPre o.pre kv.2 else o.pre)
    ∧ (setDelMember o kv).orphan = (if asciiLower kv.1 = lit "orphandependents" then setPtrBool o.orphan kv.2 else o.orphan)
    ∧ (setDelMember o kv).policy = (if asciiLower kv.1 = lit "propagationpolicy" then setPtrStr o.policy kv.2 else o.policy)
    ∧ (setDelMember o kv).dryRun = (if asciiLower kv.1 = lit "dryrun" then setStrs o.dryRun kv.2 else o.dryRun) := by
  unfold setDelMember
  rw [foldKey_ascii ha]
  have hd : optionNames.Nodup := by decide +kernel
  simp only [optionNames, List.map_cons, List.map_nil, List.nodup_cons, List.mem_cons, List.not_mem_nil, or_false, not_or] at hd
  obtain ⟨⟨a1, a2, a3, a4, a5, a6⟩, ⟨b2, b3, b4, b5, b6⟩, ⟨c3, c4, c5, c6⟩, ⟨d4, d5, d6⟩, ⟨e5, e6⟩, f6, -, -⟩ := hd
  generalize asciiLower kv.1 = k
  by_cases h1 : k = lit "kind"
  · subst h1; simp [a1, a2, a3, a4, a5, a6]
  by_cases h2 : k = lit "apiversion"
  · subst h2; simp [Ne.symm a1, b2, b3, b4, b5, b6]
  by_cases h3 : k = lit "graceperiodseconds"
  · subst h3; simp [Ne.symm a2, Ne.symm b2, c3, c4, c5, c6]
  by_cases h4 : k = lit "preconditions"
  · subst h4; simp [Ne.symm a3, Ne.symm b3, Ne.symm c3, d4, d5, d6]
  by_cases h5 : k = lit "orphandependents"
  · subst h5; simp [Ne.symm a4, Ne.symm b4, Ne.symm c4, Ne.symm d4, e5, e6]
  by_cases h6 : k = lit "propagationpolicy"
  · subst h6; simp [Ne.symm a5, Ne.symm b5, Ne.symm c5, Ne.symm d5, Ne.symm e5, f6]
  by_cases h7 : k = lit "dryrun"
  · subst h7; simp [Ne.symm a6, Ne.symm b6, Ne.symm c6, Ne.symm d6, Ne.symm e6, Ne.symm f6]
  simp [h1, h2, h3, h4, h5, h6, h7]

theorem setPre_fields (p : Option Str × Option Str) (kv : Str × JV) (ha : ∀ b ∈ kv.1, b.toNat < 128) :
    (setPre p kv).1 = (if asciiLower kv.1 = lit "uid" then setPtrStr p.1 kv.2 else p.1)
    ∧ (setPre p kv).2 = (if asciiLower kv.1 = lit "resourceversion" then setPtrStr p.2 kv.2 else p.2) := by
  unfold setPre
  rw [foldKey_ascii ha]
  have hd : lit "uid" ≠ lit "resourceversion" := by decide +kernel
  generalize asciiLower kv.1 = k
  by_cases h1 : k = lit "uid"
  · subst h1; simp [hd]
  by_cases h2 : k = lit "resourceversion"
  · subst h2; simp [Ne.symm hd]
  simp [h1, h2]

theorem setStr_says {x : JV} {v : Str} (h : MeansStr x v) : setStr [] x = v := by
  rcases h with rfl | ⟨rfl, rfl⟩ <;> rfl

theorem setPtrStr_means {x : JV} {v : Option Str} (h : MeansOpt (fun x s => x = .str s) x v) : setPtrStr none x = v := by
  rcases h with ⟨a, rfl, rfl⟩ | ⟨rfl, rfl⟩ <;> rfl

theorem setPtrBool_means {x : JV} {v : Option Bool} (h : MeansOpt (fun x s => x = .bool s) x v) : setPtrBool none x = v := by
  rcases h with ⟨a, rfl, rfl⟩ | ⟨rfl, rfl⟩ <;> rfl

theorem setPtrInt_means {x : JV} {v : Option Int} (h : MeansOpt (fun x i => ∃ raw, x = .num raw ∧ MeansInt64 raw i) x v) : setPtrInt none x = v := by
  rcases h with ⟨a, rfl, raw, rfl, h⟩ | ⟨rfl, rfl⟩
  · rw [setPtrInt, parseInt64_means.mpr h, Option.getD_some]
  · rfl

theorem setStrs_means {x : JV} {v : List Str} (h : MeansStrs x v) : setStrs [] x = v := by
  rcases h with ⟨xs, rfl, h⟩ | ⟨rfl, rfl⟩
  · rw [setStrs]
    induction h with
    | nil => rfl
    | cons h _ ih =>
      rw [List.map_cons, ih]
      rcases h with rfl | ⟨rfl, rfl⟩ <;> rfl
  · rfl

theorem setPtrPre_means {x : JV} {v : Option (Option Str × Option Str)} (hp : ∀ es, x = .obj es → PlainNames es) (h : MeansOpt MeansPre x v) :
    setPtrPre none x = v := by
  rcases h with ⟨p, rfl, ms, rfl, h1, h2⟩ | ⟨rfl, rfl⟩
  · rw [setPtrPre, Option.getD_none]
    congr 1
    refine Prod.ext ?_ ?_
    · exact member_fold (get := Prod.fst) (fun o kv ha => (setPre_fields o kv ha).1) rfl (hp _ rfl) (fun _ _ _ _ _ h => setPtrStr_means h) h1
    · exact member_fold (get := Prod.snd) (fun o kv ha => (setPre_fields o kv ha).2) rfl (hp _ rfl) (fun _ _ _ _ _ h => setPtrStr_means h) h2
  · rfl

/-- `Unmarshal` reads what the members say. -/
theorem fold_means {ms : List (Str × JV)} {o : DelOpts} (hp : PlainDelete ms) (h : MeansDelete ms o) : ms.foldl setDelMember {} = o := by
  have e1 := member_fold (get := DelOpts.kind) (o := {}) (fun o kv ha => (setDelMember_fields o kv ha).1) rfl hp.1 (fun _ _ _ _ _ h => setStr_says h) h.kind
  have e2 := member_fold (get := DelOpts.apiVersion) (o := {}) (fun o kv ha => (setDelMember_fields o kv ha).2.1) rfl hp.1 (fun _ _ _ _ _ h => setStr_says h) h.apiVersion
  have e3 := member_fold (get := DelOpts.grace) (o := {}) (fun o kv ha => (setDelMember_fields o kv ha).2.2.1) rfl hp.1 (fun _ _ _ _ _ h => setPtrInt_means h) h.grace
  have e4 := member_fold (get := DelOpts.pre) (o := {}) (fun o kv ha => (setDelMember_fields o kv ha).2.2.2.1) rfl hp.1
    (fun k x hm hk _ h => setPtrPre_means (fun es e => hp.2 k es (e ▸ hm) hk) h) h.pre
  have e5 := member_fold (get := DelOpts.orphan) (o := {}) (fun o kv ha => (setDelMember_fields o kv ha).2.2.2.2.1) rfl hp.1 (fun _ _ _ _ _ h => setPtrBool_means h) h.orphan
  have e6 := member_fold (get := DelOpts.policy) (o := {}) (fun o kv ha => (setDelMember_fields o kv ha).2.2.2.2.2.1) rfl hp.1 (fun _ _ _ _ _ h => setPtrStr_means h) h.policy
  have e7 := member_fold (get := DelOpts.dryRun) (o := {}) (fun o kv ha => (setDelMember_fields o kv ha).2.2.2.2.2.2) rfl hp.1 (fun _ _ _ _ _ h => setStrs_means h) h.dryRun
  cases o
  generalize ms.foldl setDelMember {} = o' at *
  cases o'
  simp_all

theorem says_decode {text : Str} {o : DelOpts} (h : SaysOptions text o) : decodeDelete text = o := by
  obtain ⟨ms, h1, h2, h3⟩ := h
  unfold decodeDelete
  rw [h1]
  exact fold_means h2 h3

/-! ## What is written -/

theorem preMembers_plain (p : Option Str × Option Str) : PlainNames (preMembers p) := by
  obtain ⟨a, b⟩ := p
  have h1 : (∀ c ∈ lit "uid", c.toNat < 128) ∧ (∀ c ∈ lit "resourceVersion", c.toNat < 128) := by decide +kernel
  have h2 : asciiLower (lit "uid") ≠ asciiLower (lit "resourceVersion") := by decide +kernel
  have h3 : ∀ (e : Str × JV), e.1 = lit "uid" ∨ e.1 = lit "resourceVersion" → ∀ c ∈ e.1, c.toNat < 128 := by
    rintro ⟨k, x⟩ (rfl | rfl)
    · exact h1.1
    · exact h1.2
  refine ⟨fun e he => h3 e ?_, ?_⟩
  · cases a <;> cases b <;> simp [preMembers, optMember] at he
    · exact Or.inr (by rw [he])
    · exact Or.inl (by rw [he])
    · rcases he with rfl | rfl
      · exact Or.inl rfl
      · exact Or.inr rfl
  · cases a <;> cases b <;> simp [preMembers, optMember, h2]

theorem members_sub (o : DelOpts) : (o.members.map Prod.fst).Sublist
    (["kind", "apiVersion", "gracePeriodSeconds", "preconditions", "orphanDependents", "propagationPolicy", "dryRun"].map lit) := by
  have s1 : ∀ k s, ((strMember k s).map Prod.fst).Sublist [k] := by
    intro k s; unfold strMember; split <;> simp
  have s2 : ∀ {α : Type} (k : Str) (f : α → JV) (a : Option α), ((optMember k f a).map Prod.fst).Sublist [k] := by
    intro α k f a; cases a <;> simp [optMember]
  have s3 : (((if o.dryRun = [] then [] else [(lit "dryRun", JV.arr (o.dryRun.map JV.str))]) : List (Str × JV)).map Prod.fst).Sublist [lit "dryRun"] := by
    split <;> simp
  have := ((((((s1 (lit "kind") o.kind).append (s1 (lit "apiVersion") o.apiVersion)).append
    (s2 (lit "gracePeriodSeconds") (fun i => JV.num (intDigits i)) o.grace)).append
    (s2 (lit "preconditions") (fun p => JV.obj (preMembers p)) o.pre)).append
    (s2 (lit "orphanDependents") JV.bool o.orphan)).append
    (s2 (lit "propagationPolicy") JV.str o.policy)).append s3
  simpa [DelOpts.members] using this

theorem members_plainNames (o : DelOpts) : PlainNames o.members := by
  have hs := members_sub o
  refine ⟨?_, ?_⟩
  · intro e he
    have : e.1 ∈ (["kind", "apiVersion", "gracePeriodSeconds", "preconditions", "orphanDependents", "propagationPolicy", "dryRun"].map lit) :=
      hs.subset (List.mem_map_of_mem he)
    have h : ∀ k ∈ (["kind", "apiVersion", "gracePeriodSeconds", "preconditions", "orphanDependents", "propagationPolicy", "dryRun"].map lit),
        ∀ b ∈ k, b.toNat < 128 := by decide +kernel
    exact h _ this
  · have e : (o.members.map fun e => asciiLower e.1) = (o.members.map Prod.fst).map asciiLower := by rw [List.map_map]; rfl
    rw [e]
    exact (hs.map asciiLower).nodup (by decide +kernel)

/-- The seven kinds of members. -/
theorem mem_members {o : DelOpts} {k : Str} {x : JV} (h : (k, x) ∈ o.members) :
    (k = lit "kind" ∧ x = .str o.kind) ∨ (k = lit "apiVersion" ∧ x = .str o.apiVersion)
    ∨ (k = lit "gracePeriodSeconds" ∧ ∃ i, o.grace = some i ∧ x = .num (intDigits i))
    ∨ (k = lit "preconditions" ∧ ∃ p, o.pre = some p ∧ x = .obj (preMembers p))
    ∨ (k = lit "orphanDependents" ∧ ∃ b, o.orphan = some b ∧ x = .bool b)
    ∨ (k = lit "propagationPolicy" ∧ ∃ s, o.policy = some s ∧ x = .str s)
    ∨ (k = lit "dryRun" ∧ x = .arr (o.dryRun.map .str)) := by
  unfold DelOpts.members at h
  simp only [List.mem_append] at h
  have hs : ∀ {n s}, (k, x) ∈ strMember n s → k = n ∧ x = .str s := by
    intro n s h
    unfold strMember at h
    split at h
    · simp at h
    · simpa using h
  have ho : ∀ {α : Type} {n : Str} {f : α → JV} {a : Option α}, (k, x) ∈ optMember n f a → k = n ∧ ∃ i, a = some i ∧ x = f i := by
    intro α n f a h
    cases a with
    | none => simp [optMember] at h
    | some a => simpa [optMember] using h
  rcases h with (((((h | h) | h) | h) | h) | h) | h
  · exact Or.inl (hs h)
  · exact Or.inr (Or.inl (hs h))
  · exact Or.inr (Or.inr (Or.inl (ho h)))
  · exact Or.inr (Or.inr (Or.inr (Or.inl (ho h))))
  · exact Or.inr (Or.inr (Or.inr (Or.inr (Or.inl (ho h)))))
  · exact Or.inr (Or.inr (Or.inr (Or.inr (Or.inr (Or.inl (ho h))))))
  · refine Or.inr (Or.inr (Or.inr (Or.inr (Or.inr (Or.inr ?_)))))
    split at h
    · simp at h
    · simpa using h

theorem memPre {p : Option Str × Option Str} {k : Str} {x : JV} (h : (k, x) ∈ preMembers p) :
    (k = lit "uid" ∧ ∃ s, p.1 = some s ∧ x = .str s) ∨ (k = lit "resourceVersion" ∧ ∃ s, p.2 = some s ∧ x = .str s) := by
  obtain ⟨a, b⟩ := p
  cases a <;> cases b <;> simp [preMembers, optMember] at h ⊢ <;> simpa using h

theorem members_plain (o : DelOpts) : PlainDelete o.members := by
  refine ⟨members_plainNames o, ?_⟩
  intro k es hm _
  rcases mem_members hm with ⟨_, h⟩ | ⟨_, h⟩ | ⟨_, _, _, h⟩ | ⟨_, p, _, h⟩ | ⟨_, _, _, h⟩ | ⟨_, _, _, h⟩ | ⟨_, h⟩
  all_goals first
    | (simp at h; done)
    | (simp only [JV.obj.injEq] at h; subst h; exact preMembers_plain p)

/-- What `Marshal` writes says what was written. -/
theorem toJson_says {o : DelOpts} (h : o.WF) : SaysOptions o.toJson o := by
  have hpar : Json.parse o.toJson = some (.obj o.members) := parse_enc (members_good h)
  have hfold : o.members.foldl setDelMember {} = o := by
    have := decodeDelete_toJson h
    unfold decodeDelete at this
    rwa [hpar] at this
  have hp := members_plain o
  refine ⟨o.members, hpar, hp, ?_⟩
  have key : MeansDelete o.members (o.members.foldl setDelMember {}) := by
    constructor
    · refine fold_is_member (get := DelOpts.kind) (o := {}) (fun o kv ha => (setDelMember_fields o kv ha).1) rfl hp.1 ?_
      intro k x hm hk
      rcases mem_members hm with ⟨rfl, rfl⟩ | ⟨rfl, _⟩ | ⟨rfl, _⟩ | ⟨rfl, _⟩ | ⟨rfl, _⟩ | ⟨rfl, _⟩ | ⟨rfl, _⟩
      all_goals first | exact absurd hk (by decide +kernel) | skip
      · exact Or.inl rfl
    · refine fold_is_member (get := DelOpts.apiVersion) (o := {}) (fun o kv ha => (setDelMember_fields o kv ha).2.1) rfl hp.1 ?_
      intro k x hm hk
      rcases mem_members hm with ⟨rfl, rfl⟩ | ⟨rfl, rfl⟩ | ⟨rfl, _⟩ | ⟨rfl, _⟩ | ⟨rfl, _⟩ | ⟨rfl, _⟩ | ⟨rfl, _⟩
      all_goals first | exact absurd hk (by decide +kernel) | skip
      · exact Or.inl rfl
    · refine fold_is_member (get := DelOpts.grace) (o := {}) (fun o kv ha => (setDelMember_fields o kv ha).2.2.1) rfl hp.1 ?_
      intro k x hm hk
      rcases mem_members hm with ⟨rfl, rfl⟩ | ⟨rfl, rfl⟩ | ⟨rfl, i, hi, rfl⟩ | ⟨rfl, _⟩ | ⟨rfl, _⟩ | ⟨rfl, _⟩ | ⟨rfl, _⟩
      all_goals first | exact absurd hk (by decide +kernel) | skip
      · have e := parseInt64_intDigits (h.grace i hi)
        rw [setPtrInt, e]
        exact Or.inl ⟨i, rfl, _, rfl, parseInt64_means.mp e⟩
    · refine fold_is_member (get := DelOpts.pre) (o := {}) (fun o kv ha => (setDelMember_fields o kv ha).2.2.2.1) rfl hp.1 ?_
      intro k x hm hk
      rcases mem_members hm with ⟨rfl, rfl⟩ | ⟨rfl, rfl⟩ | ⟨rfl, _⟩ | ⟨rfl, p, hi, rfl⟩ | ⟨rfl, _⟩ | ⟨rfl, _⟩ | ⟨rfl, _⟩
      all_goals first | exact absurd hk (by decide +kernel) | skip
      · refine Or.inl ⟨_, rfl, preMembers p, rfl, ?_, ?_⟩
        · refine fold_is_member (get := Prod.fst) (fun o kv ha => (setPre_fields o kv ha).1) rfl (preMembers_plain p) ?_
          intro k x hm _
          rcases memPre hm with ⟨_, s, _, rfl⟩ | ⟨_, s, _, rfl⟩ <;> exact Or.inl ⟨s, rfl, rfl⟩
        · refine fold_is_member (get := Prod.snd) (fun o kv ha => (setPre_fields o kv ha).2) rfl (preMembers_plain p) ?_
          intro k x hm _
          rcases memPre hm with ⟨_, s, _, rfl⟩ | ⟨_, s, _, rfl⟩ <;> exact Or.inl ⟨s, rfl, rfl⟩
    · refine fold_is_member (get := DelOpts.orphan) (o := {}) (fun o kv ha => (setDelMember_fields o kv ha).2.2.2.2.1) rfl hp.1 ?_
      intro k x hm hk
      rcases mem_members hm with ⟨rfl, rfl⟩ | ⟨rfl, rfl⟩ | ⟨rfl, _⟩ | ⟨rfl, _⟩ | ⟨rfl, b, _, rfl⟩ | ⟨rfl, _⟩ | ⟨rfl, _⟩
      all_goals first | exact absurd hk (by decide +kernel) | skip
      · exact Or.inl ⟨b, rfl, rfl⟩
    · refine fold_is_member (get := DelOpts.policy) (o := {}) (fun o kv ha => (setDelMember_fields o kv ha).2.2.2.2.2.1) rfl hp.1 ?_
      intro k x hm hk
      rcases mem_members hm with ⟨rfl, rfl⟩ | ⟨rfl, rfl⟩ | ⟨rfl, _⟩ | ⟨rfl, _⟩ | ⟨rfl, _⟩ | ⟨rfl, s, _, rfl⟩ | ⟨rfl, _⟩
      all_goals first | exact absurd hk (by decide +kernel) | skip
      · exact Or.inl ⟨s, rfl, rfl⟩
    · refine fold_is_member (get := DelOpts.dryRun) (o := {}) (fun o kv ha => (setDelMember_fields o kv ha).2.2.2.2.2.2) rfl hp.1 ?_
      intro k x hm hk
      rcases mem_members hm with ⟨rfl, rfl⟩ | ⟨rfl, rfl⟩ | ⟨rfl, _⟩ | ⟨rfl, _⟩ | ⟨rfl, _⟩ | ⟨rfl, _⟩ | ⟨rfl, rfl⟩
      all_goals first | exact absurd hk (by decide +kernel) | skip
      · refine Or.inl ⟨_, rfl, ?_⟩
        rw [setStrs]
        generalize o.dryRun = ds
        induction ds with
        | nil => exact .nil
        | cons d ds ih => exact .cons (Or.inl rfl) ih
  rwa [hfold] at key

end Ckube
