import Verif.Lemmas.Str
import Verif.Spec.Sort

/-! # Lemmas about sorting -/

namespace Ckube
open Spec

variable {pf : Str → Option GoFloat}

/-! ## The order -/

theorem numLt_irrefl (a : Option Int) : ¬ NumLt a a := by
  cases a <;> simp [NumLt]

theorem numLt_trans {a b c : Option Int} (h1 : NumLt a b) (h2 : NumLt b c) : NumLt a c := by
  cases a <;> cases b <;> cases c <;> simp_all [NumLt]
  omega

theorem numLt_tri (a b : Option Int) : NumLt a b ∨ a = b ∨ NumLt b a := by
  cases a <;> cases b <;> simp [NumLt]
  omega

theorem strLt_irrefl (a : Str) : strLt a a = false := by simp [strLt, strLe_refl]

theorem strLt_tri (a b : Str) : strLt a b = true ∨ a = b ∨ strLt b a = true := by
  unfold strLt
  cases h1 : strLe b a
  · simp
  · cases h2 : strLe a b
    · simp
    · exact Or.inr (Or.inl (strLe_antisymm _ _ h2 h1))

theorem strLt_trans {a b c : Str} (h1 : strLt a b = true) (h2 : strLt b c = true) : strLt a c = true := by
  have h3 := strLe_of_strLt h1
  unfold strLt at *
  simp only [Bool.not_eq_true'] at *
  rw [← Bool.not_eq_true] at *
  intro h
  exact h2 (strLe_trans _ _ _ h h3)

theorem valueLt_irrefl (k : SortKey) (a : SObj) : ¬ ValueLt pf k a a := by
  unfold ValueLt
  split
  · exact numLt_irrefl _
  · simp [strLt_irrefl]

theorem valueLt_trans {k : SortKey} {a b c : SObj} (h1 : ValueLt pf k a b) (h2 : ValueLt pf k b c) :
    ValueLt pf k a c := by
  unfold ValueLt at *
  split at h1
  · rename_i hk; rw [if_pos hk] at h2 ⊢; exact numLt_trans h1 h2
  · rename_i hk; rw [if_neg hk] at h2 ⊢; exact strLt_trans h1 h2

theorem value_tri (k : SortKey) (a b : SObj) : ValueLt pf k a b ∨ ValueEq pf k a b ∨ ValueLt pf k b a := by
  unfold ValueLt ValueEq
  split
  · exact numLt_tri _ _
  · exact strLt_tri _ _

theorem valueEq_symm {k : SortKey} {a b : SObj} (h : ValueEq pf k a b) : ValueEq pf k b a := by
  unfold ValueEq at *
  split at h
  · rename_i hk; rw [if_pos hk]; exact h.symm
  · rename_i hk; rw [if_neg hk]; exact h.symm

theorem valueEq_trans {k : SortKey} {a b c : SObj} (h1 : ValueEq pf k a b) (h2 : ValueEq pf k b c) :
    ValueEq pf k a c := by
  unfold ValueEq at *
  split at h1
  · rename_i hk; rw [if_pos hk] at h2 ⊢; exact h1.trans h2
  · rename_i hk; rw [if_neg hk] at h2 ⊢; exact h1.trans h2

theorem valueLt_congr {k : SortKey} {a b c : SObj} (h : ValueEq pf k a b) :
    (ValueLt pf k a c ↔ ValueLt pf k b c) ∧ (ValueLt pf k c a ↔ ValueLt pf k c b) := by
  unfold ValueEq at h
  unfold ValueLt
  split at h
  · rename_i hk; simp only [if_pos hk, h]; exact ⟨trivial, trivial⟩
  · rename_i hk; simp only [if_neg hk, h]; exact ⟨trivial, trivial⟩

/-- `a` strictly before `b` by key `k` in its direction. -/
def KeyLt (pf : Str → Option GoFloat) (k : SortKey) (a b : SObj) : Prop :=
  if k.reverse then ValueLt pf k b a else ValueLt pf k a b

theorem lexLe_cons {k : SortKey} {ks : List SortKey} {a b : SObj} :
    LexLe pf (k :: ks) a b ↔ KeyLt pf k a b ∨ (ValueEq pf k a b ∧ LexLe pf ks a b) := Iff.rfl

theorem keyLt_irrefl (k : SortKey) (a : SObj) : ¬ KeyLt pf k a a := by
  unfold KeyLt; split <;> exact valueLt_irrefl _ _

theorem keyLt_trans {k : SortKey} {a b c : SObj} (h1 : KeyLt pf k a b) (h2 : KeyLt pf k b c) : KeyLt pf k a c := by
  unfold KeyLt at *
  split at h1
  · rename_i hk; rw [if_pos hk] at h2 ⊢; exact valueLt_trans h2 h1
  · rename_i hk; rw [if_neg hk] at h2 ⊢; exact valueLt_trans h1 h2

theorem key_tri (k : SortKey) (a b : SObj) : KeyLt pf k a b ∨ ValueEq pf k a b ∨ KeyLt pf k b a := by
  unfold KeyLt
  split
  · rcases value_tri (pf := pf) k b a with h | h | h
    · exact Or.inl h
    · exact Or.inr (Or.inl (valueEq_symm h))
    · exact Or.inr (Or.inr h)
  · exact value_tri k a b

theorem keyLt_congr_left {k : SortKey} {a b c : SObj} (h : ValueEq pf k a b) : KeyLt pf k b c → KeyLt pf k a c := by
  unfold KeyLt
  split
  · exact (valueLt_congr h).2.mpr
  · exact (valueLt_congr h).1.mpr

theorem keyLt_congr_right {k : SortKey} {a b c : SObj} (h : ValueEq pf k a b) : KeyLt pf k c a → KeyLt pf k c b := by
  unfold KeyLt
  split
  · exact (valueLt_congr h).1.mp
  · exact (valueLt_congr h).2.mp

theorem lexLe_total : ∀ (ks : List SortKey) (a b : SObj), LexLe pf ks a b ∨ LexLe pf ks b a
  | [], _, _ => Or.inl trivial
  | k :: ks, a, b => by
    simp only [lexLe_cons]
    rcases key_tri (pf := pf) k a b with h | h | h
    · exact Or.inl (Or.inl h)
    · rcases lexLe_total ks a b with h' | h'
      · exact Or.inl (Or.inr ⟨h, h'⟩)
      · exact Or.inr (Or.inr ⟨valueEq_symm h, h'⟩)
    · exact Or.inr (Or.inl h)

theorem lexLe_trans : ∀ (ks : List SortKey) (a b c : SObj), LexLe pf ks a b → LexLe pf ks b c → LexLe pf ks a c
  | [], _, _, _, _, _ => trivial
  | k :: ks, a, b, c, h1, h2 => by
    rw [lexLe_cons] at *
    rcases h1 with h1 | ⟨e1, h1⟩ <;> rcases h2 with h2 | ⟨e2, h2⟩
    · exact Or.inl (keyLt_trans h1 h2)
    · exact Or.inl (keyLt_congr_right e2 h1)
    · exact Or.inl (keyLt_congr_left e1 h2)
    · exact Or.inr ⟨valueEq_trans e1 e2, lexLe_trans ks a b c h1 h2⟩

/-- Objects that may stand in either order have the same values under every key. -/
theorem lexLe_antisymm : ∀ (ks : List SortKey) (a b : SObj), LexLe pf ks a b → LexLe pf ks b a →
    ∀ k ∈ ks, ValueEq pf k a b
  | [], _, _, _, _ => by simp
  | k :: ks, a, b, h1, h2 => by
    rw [lexLe_cons] at h1 h2
    have hno : ∀ {x y : SObj}, ValueEq pf k x y → ¬ KeyLt pf k x y :=
      fun e h => keyLt_irrefl _ _ (keyLt_congr_left (valueEq_symm e) h)
    rcases h1 with h1 | ⟨e1, h1⟩
    · rcases h2 with h2 | ⟨e2, h2⟩
      · exact absurd (keyLt_trans h1 h2) (keyLt_irrefl _ _)
      · exact absurd h1 (hno (valueEq_symm e2))
    · rcases h2 with h2 | ⟨e2, h2⟩
      · exact absurd h2 (hno (valueEq_symm e1))
      · intro k' hk
        rcases List.mem_cons.mp hk with rfl | hk
        · exact e1
        · exact lexLe_antisymm ks a b h1 h2 k' hk

/-! ## The comparison function -/

theorem goFloat_cases (pf : Str → Option GoFloat) (v : Str) (h : pf v ≠ some .nan) :
    (pf v = none ∧ number pf v = none) ∨ ∃ n, pf v = some (.num n) ∧ number pf v = some n := by
  unfold number
  cases hv : pf v with
  | none => exact Or.inl ⟨rfl, rfl⟩
  | some x =>
    cases x with
    | nan => exact absurd hv h
    | num n => exact Or.inr ⟨n, rfl, rfl⟩

theorem cmpKey_eq {k : SortKey} {a b : SObj} (ha : k.num = true → pf (a.val k.key) ≠ some .nan)
    (hb : k.num = true → pf (b.val k.key) ≠ some .nan) (h : cmpKey pf k a b = .eq) : ValueEq pf k a b := by
  unfold cmpKey at h
  unfold ValueEq
  cases hk : k.num with
  | false => simp only [hk, Bool.false_eq_true, if_false] at h ⊢; split at h <;> simp_all
  | true =>
    simp only [hk, if_true] at h ⊢
    rcases goFloat_cases pf _ (ha hk) with ⟨h1, h1'⟩ | ⟨n, h1, h1'⟩ <;>
      rcases goFloat_cases pf _ (hb hk) with ⟨h2, h2'⟩ | ⟨m, h2, h2'⟩ <;>
      simp_all [GoFloat.eq]

theorem cmpKey_lt {k : SortKey} {a b : SObj} {r : Bool} (ha : k.num = true → pf (a.val k.key) ≠ some .nan)
    (hb : k.num = true → pf (b.val k.key) ≠ some .nan) (h : cmpKey pf k a b = .lt r) :
    (r = true → KeyLt pf k a b) ∧ (r = false → KeyLt pf k b a) := by
  unfold cmpKey at h
  unfold KeyLt ValueLt
  cases hk : k.num with
  | false =>
    simp only [hk, Bool.false_eq_true, if_false] at h ⊢
    split at h
    · simp at h
    · rename_i hne
      have tri := strLt_tri (a.val k.key) (b.val k.key)
      cases hr : k.reverse with
      | false =>
        simp only [hr, Bool.false_eq_true, if_false, Cmp.lt.injEq] at h ⊢
        refine ⟨fun e => by rw [h, e], fun e => ?_⟩
        rw [e] at h
        rcases tri with t | t | t
        · rw [t] at h; simp at h
        · exact absurd t hne
        · exact t
      | true =>
        simp only [hr, if_true, Cmp.lt.injEq] at h ⊢
        refine ⟨fun e => ?_, fun e => ?_⟩
        · rw [e] at h
          rcases tri with t | t | t
          · rw [t] at h; simp at h
          · exact absurd t hne
          · exact t
        · rw [e] at h; simpa using h
  | true =>
    simp only [hk, if_true] at h ⊢
    rcases goFloat_cases pf _ (ha hk) with ⟨h1, h1'⟩ | ⟨n, h1, h1'⟩ <;>
      rcases goFloat_cases pf _ (hb hk) with ⟨h2, h2'⟩ | ⟨m, h2, h2'⟩
    · rw [h1] at h; simp at h
    · rw [h1] at h; simp at h
    · rw [h1, h2] at h; simp at h
    · rw [h1, h2] at h
      rw [h1', h2']
      simp only [GoFloat.eq, GoFloat.lt, NumLt, decide_eq_true_eq] at h ⊢
      split at h
      · simp at h
      · cases hr : k.reverse <;> simp only [hr, Bool.false_eq_true, if_false, if_true, Cmp.lt.injEq] at h ⊢ <;>
          subst h <;> simp <;> omega

theorem cmpObjs_order : ∀ (ks : List SortKey) (a b : SObj),
    (∀ k ∈ ks, k.num = true → pf (a.val k.key) ≠ some .nan) →
    (∀ k ∈ ks, k.num = true → pf (b.val k.key) ≠ some .nan) → (cmpObjs pf ks a b).2 = false →
    ((cmpObjs pf ks a b).1 = true → LexLe pf ks a b) ∧ ((cmpObjs pf ks a b).1 = false → LexLe pf ks b a)
  | [], _, _, _, _, _ => ⟨fun _ => trivial, fun _ => trivial⟩
  | k :: ks, a, b, ha, hb, h => by
    simp only [cmpObjs, lexLe_cons] at h ⊢
    cases hc : cmpKey pf k a b with
    | fail => rw [hc] at h; simp at h
    | eq =>
      rw [hc] at h
      have e := cmpKey_eq (ha k (by simp)) (hb k (by simp)) hc
      obtain ⟨i1, i2⟩ := cmpObjs_order ks a b (fun k hk => ha k (by simp [hk])) (fun k hk => hb k (by simp [hk])) h
      exact ⟨fun h => Or.inr ⟨e, i1 h⟩, fun h => Or.inr ⟨valueEq_symm e, i2 h⟩⟩
    | lt r =>
      obtain ⟨i1, i2⟩ := cmpKey_lt (ha k (by simp)) (hb k (by simp)) hc
      exact ⟨fun h => Or.inl (i1 h), fun h => Or.inl (i2 h)⟩

theorem cmpObjs_ok : ∀ (ks : List SortKey) (a b : SObj),
    (∀ k ∈ ks, k.num = true → (number pf (a.val k.key)).isSome = true ∧ (number pf (b.val k.key)).isSome = true) →
    (cmpObjs pf ks a b).2 = false
  | [], _, _, _ => rfl
  | k :: ks, a, b, h => by
    simp only [cmpObjs]
    have ih := cmpObjs_ok ks a b (fun k hk => h k (by simp [hk]))
    cases hc : cmpKey pf k a b with
    | fail =>
      exfalso
      unfold cmpKey at hc
      split at hc
      · rename_i hk
        obtain ⟨h1, h2⟩ := h k (by simp) hk
        unfold number at h1 h2
        split at hc
        · split at hc <;> simp at hc
        · rename_i hne
          cases e1 : pf (a.val k.key) with
          | none => rw [e1] at h1; simp at h1
          | some x =>
            cases e2 : pf (b.val k.key) with
            | none => rw [e2] at h2; simp at h2
            | some y => exact hne x y e1 e2
      · split at hc <;> simp at hc
    | eq => exact ih
    | lt r => rfl

theorem numbers_noNaN {ks : List SortKey} {objs : List SObj} (h : Numbers pf ks objs) : NoNaN pf ks objs := by
  intro k hk hn o ho e
  have := h k hk hn o ho
  unfold number at this
  rw [e] at this
  simp at this

/-! ## `sort.Slice` with the comparison function -/

theorem run_sorted (alg : SliceSort) {ks : List SortKey} {objs : List SObj} (hn : NoNaN pf ks objs)
    (herr : ((alg.run (fun a b => (cmpObjs pf ks a b).1) objs).trace.any fun p => (cmpObjs pf ks p.1 p.2).2) = false) :
    (alg.run (fun a b => (cmpObjs pf ks a b).1) objs).result.Pairwise (LexLe pf ks) := by
  refine alg.sorted _ objs (LexLe pf ks) (lexLe_total ks) (lexLe_trans ks) ?_
  intro a b hab
  obtain ⟨ha, hb⟩ := alg.mem _ _ _ _ hab
  refine cmpObjs_order ks a b (fun k hk hnum => hn k hk hnum a ha) (fun k hk hnum => hn k hk hnum b hb) ?_
  rw [List.any_eq_false] at herr
  simpa using herr (a, b) hab

theorem run_noerr (alg : SliceSort) {ks : List SortKey} {objs : List SObj} (hn : Numbers pf ks objs) :
    ((alg.run (fun a b => (cmpObjs pf ks a b).1) objs).trace.any fun p => (cmpObjs pf ks p.1 p.2).2) = false := by
  rw [List.any_eq_false]
  rintro ⟨a, b⟩ hab
  obtain ⟨ha, hb⟩ := alg.mem _ _ _ _ hab
  simp only [Bool.not_eq_true]
  exact cmpObjs_ok ks a b (fun k hk hnum => ⟨hn k hk hnum a ha, hn k hk hnum b hb⟩)

/-! ## Reading sort expressions -/

theorem join_splitByte (c : UInt8) (s : Str) : join [c] (splitByte c s) = s := by
  induction s with
  | nil => rfl
  | cons a s ih =>
    simp only [splitByte]
    obtain ⟨p, ps, hps⟩ := List.exists_cons_of_ne_nil (splitByte_ne_nil c s)
    rw [hps] at ih ⊢
    split
    · rename_i hc; rw [join, hc, ih]; rfl
    · cases ps with
      | nil => simp only [join] at ih ⊢; rw [ih]
      | cons q ps => simp only [join] at ih ⊢; rw [← ih]; simp

theorem not_mem_of_splitByte (c : UInt8) : ∀ (s p : Str), p ∈ splitByte c s → c ∉ p
  | [], p, h => by
    simp only [splitByte, List.mem_singleton] at h
    simp [h]
  | a :: s, p, h => by
    simp only [splitByte] at h
    split at h
    · rcases List.mem_cons.mp h with rfl | h
      · simp
      · exact not_mem_of_splitByte c s p h
    · rename_i hne
      split at h
      · rename_i hs; simp only [List.mem_singleton] at h; subst h; simpa using Ne.symm hne
      · rename_i q ps hs
        rcases List.mem_cons.mp h with rfl | h
        · have := not_mem_of_splitByte c s q (by rw [hs]; simp)
          simp [this, Ne.symm hne]
        · exact not_mem_of_splitByte c s p (by rw [hs]; simp [h])

theorem splitByte_two {c : UInt8} {s a b : Str} (h : splitByte c s = [a, b]) : s = a ++ c :: b ∧ c ∉ a ∧ c ∉ b := by
  have h1 := join_splitByte c s
  rw [h] at h1
  simp only [join] at h1
  exact ⟨by rw [← h1]; simp, not_mem_of_splitByte c s a (by rw [h]; simp), not_mem_of_splitByte c s b (by rw [h]; simp)⟩

theorem splitByte_join (c : UInt8) : ∀ (ps : List Str), ps ≠ [] → (∀ p ∈ ps, c ∉ p) → splitByte c (join [c] ps) = ps
  | [], h, _ => absurd rfl h
  | [p], _, h => by
    have := h p (by simp)
    simpa [join] using splitByte_of_not_mem c p this
  | p :: q :: ps, _, h => by
    have ih := splitByte_join c (q :: ps) (by simp) (fun x hx => h x (by simp [hx]))
    have hp := h p (by simp)
    rw [join]
    have : p ++ [c] ++ join [c] (q :: ps) = p ++ c :: join [c] (q :: ps) := by simp
    rw [this, splitByte_append c _ _ hp, ih]

theorem sortType_eq {k : SortKey} {typ s : Str} (h33 : (33 : UInt8) ∉ k.key)
    (htyp : (typ = [] ∧ k.num = false) ∨ (typ = lit "!str" ∧ k.num = false) ∨ (typ = lit "!int" ∧ k.num = true))
    (hs : s = k.key ++ typ) : sortType s = some (k.key, k.num) := by
  subst hs
  unfold sortType keyTypeSep
  rcases htyp with ⟨rfl, hn⟩ | ⟨rfl, hn⟩ | ⟨rfl, hn⟩
  · rw [List.append_nil, if_neg h33, hn]
  · have e : k.key ++ lit "!str" = k.key ++ 33 :: lit "str" := by simp [lit]
    rw [if_pos (by rw [e]; simp), e, splitByte_append _ _ _ h33, splitByte_of_not_mem _ _ (by decide)]
    simp [keyTypeInt, keyTypeStr, lit, hn]
  · have e : k.key ++ lit "!int" = k.key ++ 33 :: lit "int" := by simp [lit]
    rw [if_pos (by rw [e]; simp), e, splitByte_append _ _ _ h33, splitByte_of_not_mem _ _ (by decide)]
    simp [keyTypeInt, lit, hn]

theorem sortType_some {s key : Str} {num : Bool} (h : sortType s = some (key, num)) : (33 : UInt8) ∉ key
    ∧ ∃ typ, s = key ++ typ ∧
      ((typ = [] ∧ num = false) ∨ (typ = lit "!str" ∧ num = false) ∨ (typ = lit "!int" ∧ num = true)) := by
  unfold sortType keyTypeSep at h
  split at h
  · split at h
    · rename_i a b hs
      obtain ⟨rfl, ha, _⟩ := splitByte_two hs
      split at h
      · rename_i hb
        simp only [Option.some.injEq, Prod.mk.injEq] at h
        obtain ⟨rfl, rfl⟩ := h
        subst hb
        exact ⟨ha, lit "!int", by simp [lit, keyTypeInt], Or.inr (Or.inr ⟨rfl, rfl⟩)⟩
      · split at h
        · rename_i hb
          simp only [Option.some.injEq, Prod.mk.injEq] at h
          obtain ⟨rfl, rfl⟩ := h
          subst hb
          exact ⟨ha, lit "!str", by simp [lit, keyTypeStr], Or.inr (Or.inl ⟨rfl, rfl⟩)⟩
        · simp at h
    · simp at h
  · rename_i hno
    simp only [Option.some.injEq, Prod.mk.injEq] at h
    obtain ⟨rfl, rfl⟩ := h
    exact ⟨hno, [], by simp, Or.inl ⟨rfl, rfl⟩⟩

theorem sortDirection_eq {x s dir : Str} {rev : Bool} (h32 : (32 : UInt8) ∉ x)
    (hdir : (dir = [] ∧ rev = false) ∨ (dir = lit " asc" ∧ rev = false) ∨ (dir = lit " desc" ∧ rev = true))
    (hs : s = x ++ dir) : sortDirection s = some (some (x, rev)) := by
  subst hs
  unfold sortDirection
  rcases hdir with ⟨rfl, hn⟩ | ⟨rfl, hn⟩ | ⟨rfl, hn⟩
  · rw [List.append_nil, if_neg h32, hn]
  · have e : x ++ lit " asc" = x ++ 32 :: lit "asc" := by simp [lit]
    rw [if_pos (by rw [e]; simp), e, splitByte_append _ _ _ h32, splitByte_of_not_mem _ _ (by decide)]
    simp [sortDesc, sortAsc, lit, hn]
  · have e : x ++ lit " desc" = x ++ 32 :: lit "desc" := by simp [lit]
    rw [if_pos (by rw [e]; simp), e, splitByte_append _ _ _ h32, splitByte_of_not_mem _ _ (by decide)]
    simp [sortDesc, lit, hn]

theorem sortDirection_some {s x : Str} {rev : Bool} (h : sortDirection s = some (some (x, rev))) :
    (32 : UInt8) ∉ x ∧ ∃ dir, s = x ++ dir ∧
      ((dir = [] ∧ rev = false) ∨ (dir = lit " asc" ∧ rev = false) ∨ (dir = lit " desc" ∧ rev = true)) := by
  unfold sortDirection at h
  split at h
  · split at h
    · rename_i a b hs
      obtain ⟨rfl, ha, _⟩ := splitByte_two hs
      split at h
      · rename_i hb
        simp only [Option.some.injEq, Prod.mk.injEq] at h
        obtain ⟨rfl, rfl⟩ := h
        subst hb
        exact ⟨ha, lit " desc", by simp [lit, sortDesc], Or.inr (Or.inr ⟨rfl, rfl⟩)⟩
      · split at h
        · rename_i hb
          simp only [Option.some.injEq, Prod.mk.injEq] at h
          obtain ⟨rfl, rfl⟩ := h
          subst hb
          exact ⟨ha, lit " asc", by simp [lit, sortAsc], Or.inr (Or.inl ⟨rfl, rfl⟩)⟩
        · simp at h
    · simp at h
  · rename_i hno
    simp only [Option.some.injEq, Prod.mk.injEq] at h
    obtain ⟨rfl, rfl⟩ := h
    exact ⟨hno, [], by simp, Or.inl ⟨rfl, rfl⟩⟩

theorem sortDirection_none {s : Str} (h : sortDirection s = none) : (splitByte 32 s).length ≠ 2
    ∧ (splitByte 32 s).length ≠ 1 := by
  unfold sortDirection at h
  split at h
  · rename_i h32
    split at h
    · split at h
      · simp at h
      · split at h <;> simp at h
    · rename_i hne
      refine ⟨?_, ?_⟩
      · intro hl
        match hs : splitByte 32 s, hl with
        | [a, b], _ => exact hne a b hs
      · intro hl
        match hs : splitByte 32 s, hl with
        | [a], _ =>
          have h1 := join_splitByte 32 s
          have h2 := not_mem_of_splitByte 32 s a (by rw [hs]; simp)
          rw [hs] at h1
          simp only [join] at h1
          exact h2 (h1 ▸ h32)
  · simp at h

theorem typ_no_blank {typ : Str} {n : Bool}
    (h : (typ = [] ∧ n = false) ∨ (typ = lit "!str" ∧ n = false) ∨ (typ = lit "!int" ∧ n = true)) :
    (32 : UInt8) ∉ typ := by
  rcases h with ⟨rfl, _⟩ | ⟨rfl, _⟩ | ⟨rfl, _⟩ <;> decide

theorem sortItem_means {idx : List (Str × Str)} {item : Str} {k : SortKey} (h : ItemMeans item k)
    (hne : trimSpace item ≠ []) (hk : lookup k.key idx ≠ none) : sortItem idx item = .key k := by
  obtain ⟨h32, h33, typ, dir, ht, htyp, hdir⟩ := h
  unfold sortItem
  simp only
  rw [if_neg hne, sortDirection_eq (x := k.key ++ typ) (rev := k.reverse) (dir := dir)
    (by simp [h32, typ_no_blank htyp]) hdir ht]
  simp only
  rw [sortType_eq h33 htyp rfl]
  simp only
  cases hl : lookup k.key idx with
  | none => exact absurd hl hk
  | some _ => rfl

theorem sortItem_key {idx : List (Str × Str)} {item : Str} {k : SortKey} (h : sortItem idx item = .key k) :
    ItemMeans item k ∧ trimSpace item ≠ [] ∧ lookup k.key idx ≠ none := by
  unfold sortItem at h
  simp only at h
  split at h
  · simp at h
  · rename_i hne
    split at h
    · simp at h
    · simp at h
    · rename_i x rev hd
      split at h
      · simp at h
      · rename_i key num ht
        split at h
        · simp at h
        · rename_i v hl
          simp only [SortItem.key.injEq] at h
          subst h
          obtain ⟨h32, dir, hs, hdir⟩ := sortDirection_some hd
          obtain ⟨h33, typ, rfl, htyp⟩ := sortType_some ht
          refine ⟨⟨?_, h33, typ, dir, hs, htyp, hdir⟩, hne, by rw [hl]; simp⟩
          intro h
          exact h32 (by simp [h])

theorem sortItem_skip {idx : List (Str × Str)} {item : Str} : sortItem idx item = .skip ↔ trimSpace item = [] := by
  unfold sortItem
  simp only
  constructor
  · intro h
    split at h
    · assumption
    · split at h
      · simp at h
      · simp at h
      · split at h
        · simp at h
        · split at h <;> simp at h
  · intro h; rw [if_pos h]

theorem sortItem_giveUp {idx : List (Str × Str)} {item : Str} (h : sortItem idx item = .giveUp) :
    2 < (splitByte 32 (trimSpace item)).length := by
  unfold sortItem at h
  simp only at h
  split at h
  · simp at h
  · split at h
    · rename_i hd
      obtain ⟨h2, h1⟩ := sortDirection_none hd
      have : (splitByte 32 (trimSpace item)).length ≠ 0 := by
        intro h0
        exact splitByte_ne_nil 32 _ (List.length_eq_zero_iff.mp h0)
      omega
    · simp at h
    · split at h
      · simp at h
      · split at h <;> simp at h

/-- The keys read are those the items that are not blank ask for. -/
theorem sortLoop_keys {idx : List (Str × Str)} : ∀ (items : List Str) (acc ks : List SortKey),
    sortLoop idx items acc = .keys ks → ∃ ks', ks = acc ++ ks'
      ∧ List.Forall₂ ItemMeans (items.filter fun i => trimSpace i ≠ []) ks'
      ∧ ∀ k ∈ ks', lookup k.key idx ≠ none
  | [], acc, ks, h => by
    simp only [sortLoop, SortSpec.keys.injEq] at h
    exact ⟨[], by simp [h], by simp, by simp⟩
  | i :: is, acc, ks, h => by
    simp only [sortLoop] at h
    cases hi : sortItem idx i with
    | skip =>
      rw [hi] at h
      have he := sortItem_skip.mp hi
      obtain ⟨ks', h1, h2, h3⟩ := sortLoop_keys is acc ks h
      refine ⟨ks', h1, ?_, h3⟩
      rw [List.filter_cons_of_neg (by simp [he])]
      exact h2
    | giveUp => rw [hi] at h; simp at h
    | bad => rw [hi] at h; simp at h
    | key k =>
      rw [hi] at h
      obtain ⟨hm, hne, hl⟩ := sortItem_key hi
      obtain ⟨ks', h1, h2, h3⟩ := sortLoop_keys is (acc ++ [k]) ks h
      refine ⟨k :: ks', by simp [h1], ?_, ?_⟩
      · rw [List.filter_cons_of_pos (by simp [hne])]
        exact List.Forall₂.cons hm h2
      · intro k' hk'
        rcases List.mem_cons.mp hk' with rfl | hk'
        · exact hl
        · exact h3 k' hk'

theorem sortLoop_means {idx : List (Str × Str)} : ∀ (items : List Str) (ks acc : List SortKey),
    List.Forall₂ ItemMeans items ks → (∀ i ∈ items, trimSpace i ≠ []) → (∀ k ∈ ks, lookup k.key idx ≠ none) →
    sortLoop idx items acc = .keys (acc ++ ks)
  | [], _, acc, h, _, _ => by cases h; simp [sortLoop]
  | i :: is, _, acc, h, hne, hk => by
    cases h with
    | @cons _ k _ ks h1 h2 =>
      simp only [sortLoop]
      rw [sortItem_means h1 (hne i (by simp)) (hk k (by simp))]
      simp only
      rw [sortLoop_means is ks (acc ++ [k]) h2 (fun i hi => hne i (by simp [hi])) (fun k hk' => hk k (by simp [hk']))]
      simp

theorem sortLoop_giveUp {idx : List (Str × Str)} : ∀ (items : List Str) (acc : List SortKey),
    sortLoop idx items acc = .giveUp → ∃ i ∈ items, 2 < (splitByte 32 (trimSpace i)).length
  | [], acc, h => by simp [sortLoop] at h
  | i :: is, acc, h => by
    simp only [sortLoop] at h
    cases hi : sortItem idx i with
    | skip =>
      rw [hi] at h
      obtain ⟨x, hx, hl⟩ := sortLoop_giveUp is acc h
      exact ⟨x, by simp [hx], hl⟩
    | giveUp => exact ⟨i, by simp, sortItem_giveUp hi⟩
    | bad => rw [hi] at h; simp at h
    | key k =>
      rw [hi] at h
      obtain ⟨x, hx, hl⟩ := sortLoop_giveUp is _ h
      exact ⟨x, by simp [hx], hl⟩

/-- When the reading of the expression is given up. -/
theorem sortLoop_giveUp_pre {idx : List (Str × Str)} : ∀ (items : List Str) (acc : List SortKey),
    sortLoop idx items acc = .giveUp → ∃ pre i post ks, items = pre ++ i :: post ∧ 2 < (splitByte 32 (trimSpace i)).length
      ∧ List.Forall₂ ItemMeans (pre.filter fun i => trimSpace i ≠ []) ks ∧ ∀ k ∈ ks, lookup k.key idx ≠ none
  | [], acc, h => by simp [sortLoop] at h
  | i :: is, acc, h => by
    simp only [sortLoop] at h
    cases hi : sortItem idx i with
    | skip =>
      rw [hi] at h
      obtain ⟨pre, x, post, ks, h1, h2, h3, h4⟩ := sortLoop_giveUp_pre is acc h
      refine ⟨i :: pre, x, post, ks, by rw [h1]; rfl, h2, ?_, h4⟩
      rw [List.filter_cons_of_neg (by simp [sortItem_skip.mp hi])]
      exact h3
    | giveUp => exact ⟨[], i, is, [], rfl, sortItem_giveUp hi, .nil, by simp⟩
    | bad => rw [hi] at h; simp at h
    | key k =>
      rw [hi] at h
      obtain ⟨hm, hne, hl⟩ := sortItem_key hi
      obtain ⟨pre, x, post, ks, h1, h2, h3, h4⟩ := sortLoop_giveUp_pre is _ h
      refine ⟨i :: pre, x, post, k :: ks, by rw [h1]; rfl, h2, ?_, ?_⟩
      · rw [List.filter_cons_of_pos (by simp [hne])]
        exact .cons hm h3
      · intro k' hk'
        rcases List.mem_cons.mp hk' with rfl | hk'
        · exact hl
        · exact h4 k' hk'

theorem sortItem_long {idx : List (Str × Str)} {i : Str} (h : 2 < (splitByte 32 (trimSpace i)).length) : sortItem idx i = .giveUp := by
  have h0 : trimSpace i ≠ [] := by
    intro h0
    rw [h0] at h
    simp [splitByte] at h
  have h1 : sortDirection (trimSpace i) = none := by
    unfold sortDirection
    split
    · split
      · rename_i hs
        rw [hs] at h
        simp at h
      · rfl
    · rename_i hn
      have hn' : (32 : UInt8) ∉ trimSpace i := by simpa using hn
      rw [splitByte_of_not_mem _ _ hn'] at h
      simp at h
  unfold sortItem
  simp only
  rw [if_neg h0, h1]

theorem sortLoop_passed {idx : List (Str × Str)} {i : Str} {post : List Str} (hi : 2 < (splitByte 32 (trimSpace i)).length) :
    ∀ (pre : List Str) (ks acc : List SortKey), List.Forall₂ ItemMeans (pre.filter fun i => trimSpace i ≠ []) ks →
    (∀ k ∈ ks, lookup k.key idx ≠ none) → sortLoop idx (pre ++ i :: post) acc = .giveUp
  | [], _, acc, _, _ => by
    simp only [List.nil_append, sortLoop]
    rw [sortItem_long hi]
  | x :: pre, ks, acc, hf, hk => by
    simp only [List.cons_append, sortLoop]
    by_cases hx : trimSpace x = []
    · rw [sortItem_skip.mpr hx]
      rw [List.filter_cons_of_neg (by simp [hx])] at hf
      exact sortLoop_passed hi pre ks acc hf hk
    · rw [List.filter_cons_of_pos (by simp [hx])] at hf
      cases hf with
      | @cons _ k _ ks h1 h2 =>
        rw [sortItem_means h1 hx (hk k (by simp))]
        exact sortLoop_passed hi pre ks _ h2 (fun k' hk' => hk k' (by simp [hk']))

theorem sortItem_congr {idx idx' : List (Str × Str)} (h : ∀ k, (lookup k idx).isSome = (lookup k idx').isSome)
    (item : Str) : sortItem idx item = sortItem idx' item := by
  unfold sortItem
  simp only
  split
  · rfl
  · split
    · rfl
    · rfl
    · split
      · rfl
      · rename_i k num _
        have := h k
        cases h1 : lookup k idx <;> cases h2 : lookup k idx' <;> simp_all

theorem sortLoop_congr {idx idx' : List (Str × Str)} (h : ∀ k, (lookup k idx).isSome = (lookup k idx').isSome) :
    ∀ (items : List Str) (acc : List SortKey), sortLoop idx items acc = sortLoop idx' items acc
  | [], _ => rfl
  | i :: is, acc => by
    simp only [sortLoop, sortItem_congr h i]
    cases sortItem idx' i <;> simp only [sortLoop_congr h is]

/-- The default expression. -/
theorem sortLoop_default {idx : List (Str × Str)} (h : ∀ k ∈ defaultKeys, lookup k.key idx ≠ none) :
    sortLoop idx (sortItems []) [] = .keys defaultKeys := by
  have hi : sortItems [] = [lit "cluster", lit " namespace", lit " name"] := by decide +kernel
  rw [hi]
  refine sortLoop_means _ defaultKeys [] ?_ ?_ h
  · refine .cons ⟨by decide, by decide, [], [], by decide +kernel, Or.inl ⟨rfl, rfl⟩, Or.inl ⟨rfl, rfl⟩⟩
      (.cons ⟨by decide, by decide, [], [], by decide +kernel, Or.inl ⟨rfl, rfl⟩, Or.inl ⟨rfl, rfl⟩⟩
        (.cons ⟨by decide, by decide, [], [], by decide +kernel, Or.inl ⟨rfl, rfl⟩, Or.inl ⟨rfl, rfl⟩⟩ .nil))
  · decide +kernel

end Ckube
