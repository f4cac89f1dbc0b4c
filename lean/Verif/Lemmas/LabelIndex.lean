import Verif.Lemmas.Index
import Verif.Lemmas.Extend

/-! # Lemmas for C82: the index of the labels -/

namespace Ckube
open Spec Json

/-- A label as it appears in the quoted index. -/
def labelItem (e : Str × Str) : Str := [92, 34] ++ e.1 ++ [92, 34, 58, 92, 34] ++ e.2 ++ [92, 34]

def labelBody : List (Str × Str) → Str
  | [] => []
  | e :: l => labelItem e ++ (if l = [] then [] else 44 :: labelBody l)

theorem labelByte_ok : ∀ b : UInt8, labelByte b = true →
    0x20 ≤ b ∧ b ≤ 0x7E ∧ b ≠ 34 ∧ b ≠ 92 ∧ b ≠ 59 ∧ b ≠ 33 ∧ b ≠ 58 ∧ b ≠ 44 ∧ visible b = true ∧ b < 0x80 ∧ htmlSafe b = true :=
  forall_byte (by decide +kernel)

theorem infix_skip {c : UInt8} {P : Str} : ∀ {A R : Str}, c ∉ A → c :: P <:+: A ++ R → c :: P <:+: R
  | [], R, _, h => h
  | a :: A, R, ha, h => by
    rw [List.cons_append, List.infix_cons_iff] at h
    rcases h with h | h
    · rw [List.cons_prefix_cons] at h
      exact absurd (by simp [h.1]) ha
    · exact infix_skip (fun hm => ha (List.mem_cons_of_mem _ hm)) h

theorem prefix_split {k x A R : Str} (hk : (92 : UInt8) ∉ k) (hx : (92 : UInt8) ∉ x) (h : k ++ 92 :: A <+: x ++ 92 :: R) :
    k = x ∧ A <+: R := by
  obtain ⟨post, h⟩ := h
  rw [List.append_assoc, List.cons_append] at h
  obtain ⟨a', h1, h2⟩ := append_cons_split hk h
  have : a' = [] := by
    cases a' with
    | nil => rfl
    | cons y a' =>
      simp only [List.cons_append, List.cons.injEq] at h2
      exact absurd (by rw [h1, ← h2.1]; simp) hx
  subst this
  simp only [List.nil_append, List.cons.injEq, true_and] at h2
  exact ⟨by simpa using h1.symm, post, h2⟩

theorem label_mem {k v : Str} (hk : ∀ b ∈ k, labelByte b = true) (hv : ∀ b ∈ v, labelByte b = true) :
    ∀ (l : List (Str × Str)), (∀ e ∈ l, (∀ b ∈ e.1, labelByte b = true) ∧ ∀ b ∈ e.2, labelByte b = true) →
    labelItem (k, v) <:+: labelBody l ++ [125, 34] → (k, v) ∈ l := by
  have n92 : ∀ s : Str, (∀ b ∈ s, labelByte b = true) → (92 : UInt8) ∉ s := fun s hs hm => (labelByte_ok _ (hs _ hm)).2.2.2.1 rfl
  have eP : labelItem (k, v) = 92 :: (34 :: k ++ 92 :: 34 :: 58 :: 92 :: 34 :: v ++ [92, 34]) := by simp [labelItem]
  have kk : ∀ c : UInt8, k = [c] → c ≠ 58 ∧ c ≠ 44 := by
    intro c h
    have := labelByte_ok c (hk c (by rw [h]; simp))
    exact ⟨this.2.2.2.2.2.2.1, this.2.2.2.2.2.2.2.1⟩
  intro l
  induction l with
  | nil =>
    intro _ h
    rw [eP] at h
    have := infix_skip (c := 92) (A := [125, 34]) (R := []) (by decide) (by simpa [labelBody] using h)
    simp at this
  | cons e l ih =>
    intro hl h
    obtain ⟨k1, v1⟩ := e
    obtain ⟨hk1, hv1⟩ := hl _ List.mem_cons_self
    simp only at hk1 hv1
    have ih := ih (fun x hx => hl x (List.mem_cons_of_mem _ hx))
    -- what follows the item
    obtain ⟨Z, hZ, hZ1⟩ : ∃ Z, labelBody ((k1, v1) :: l) ++ [125, 34] = labelItem (k1, v1) ++ Z
        ∧ (Z = [125, 34] ∧ l = [] ∨ Z = 44 :: (labelBody l ++ [125, 34]) ∧ l ≠ []) := by
      by_cases h0 : l = []
      · exact ⟨[125, 34], by simp [labelBody, h0], Or.inl ⟨rfl, h0⟩⟩
      · exact ⟨44 :: (labelBody l ++ [125, 34]), by simp [labelBody, h0], Or.inr ⟨rfl, h0⟩⟩
    rw [hZ] at h
    have e1 : labelItem (k1, v1) ++ Z = 92 :: (34 :: k1 ++ 92 :: 34 :: 58 :: 92 :: 34 :: v1 ++ 92 :: 34 :: Z) := by simp [labelItem]
    rw [e1, eP, List.infix_cons_iff] at h
    rcases h with h | h
    · simp only [List.cons_append, List.append_assoc, List.cons_prefix_cons, true_and] at h
      obtain ⟨rfl, h2⟩ := prefix_split (n92 k hk) (n92 k1 hk1) h
      simp only [List.cons_prefix_cons, true_and] at h2
      obtain ⟨rfl, -⟩ := prefix_split (n92 v hv) (n92 v1 hv1) h2
      exact List.mem_cons_self
    have h := infix_skip (c := 92) (A := 34 :: k1) (R := 92 :: 34 :: 58 :: 92 :: 34 :: v1 ++ 92 :: 34 :: Z)
      (by simp [n92 k1 hk1]) (by simpa using h)
    rw [List.cons_append, List.infix_cons_iff] at h
    rcases h with h | h
    · exfalso
      simp only [List.cons_append, List.append_assoc, List.cons_prefix_cons, true_and] at h
      obtain ⟨rfl, -⟩ := prefix_split (x := [58]) (n92 k hk) (by decide) h
      exact (kk 58 rfl).1 rfl
    have h := infix_skip (c := 92) (A := [34, 58]) (R := 92 :: 34 :: v1 ++ 92 :: 34 :: Z) (by decide) (by simpa using h)
    rw [List.cons_append, List.infix_cons_iff] at h
    rcases h with h | h
    · exfalso
      simp only [List.cons_append, List.append_assoc, List.cons_prefix_cons, true_and] at h
      obtain ⟨rfl, h2⟩ := prefix_split (n92 k hk) (n92 v1 hv1) h
      rcases hZ1 with ⟨rfl, -⟩ | ⟨rfl, -⟩ <;> simp [List.cons_prefix_cons] at h2
    have h := infix_skip (c := 92) (A := 34 :: v1) (R := 92 :: 34 :: Z) (by simp [n92 v1 hv1]) (by simpa using h)
    rw [List.infix_cons_iff] at h
    rcases h with h | h
    · exfalso
      simp only [List.cons_append, List.append_assoc, List.cons_prefix_cons, true_and] at h
      rcases hZ1 with ⟨rfl, -⟩ | ⟨rfl, hne⟩
      · have := h.subset (show (92 : UInt8) ∈ _ by simp)
        revert this; decide
      · obtain ⟨Y, hY⟩ : ∃ Y, labelBody l ++ [125, 34] = 92 :: Y := by
          cases l with
          | nil => exact absurd rfl hne
          | cons e l => exact ⟨_, by simp [labelBody, labelItem]; rfl⟩
        rw [hY] at h
        obtain ⟨rfl, -⟩ := prefix_split (x := [44]) (n92 k hk) (by decide) h
        exact (kk 44 rfl).2 rfl
    have h := infix_skip (c := 92) (A := [34]) (R := Z) (by decide) (by simpa using h)
    refine List.mem_cons_of_mem _ (ih ?_)
    rw [eP]
    rcases hZ1 with ⟨rfl, rfl⟩ | ⟨rfl, -⟩
    · simpa [labelBody] using h
    · exact infix_skip (c := 92) (A := [44]) (by decide) (by simpa using h)

theorem label_infix {e : Str × Str} {l : List (Str × Str)} (h : e ∈ l) : labelItem e <:+: labelBody l := by
  induction l with
  | nil => simp at h
  | cons x l ih =>
    rcases List.mem_cons.mp h with rfl | h
    · exact ⟨[], _, by rw [List.nil_append, labelBody]⟩
    · obtain ⟨a, b, hab⟩ := ih h
      have hne : l ≠ [] := List.ne_nil_of_mem h
      refine ⟨labelItem x ++ [44] ++ a, b, ?_⟩
      rw [labelBody, if_neg hne, ← hab]
      simp

/-! ## Quoting printable ASCII -/

def quoteByte (b : UInt8) : Str := if b = 34 ∨ b = 92 then [92, b] else [b]

theorem chunks_cons_ascii {b : UInt8} (h : b < 0x80) (s : Str) : chunks (b :: s) = .ascii b :: chunks s := by
  have e := chunks_append_ascii h [] s
  rw [List.nil_append] at e
  rw [e]; rfl

theorem quoteBody_ascii {isPrint : Nat → Bool} : ∀ {s : Str}, (∀ b ∈ s, 0x20 ≤ b ∧ b ≤ 0x7E) →
    quoteBody isPrint s = s.flatMap quoteByte
  | [], _ => rfl
  | b :: s, h => by
    obtain ⟨h1, h2⟩ := h b List.mem_cons_self
    have hlt : b < 0x80 := (forall_byte (P := fun b => b ≤ 0x7E → b < 0x80) (by decide +kernel)) b h2
    have ih := quoteBody_ascii (isPrint := isPrint) (s := s) (fun x hx => h x (List.mem_cons_of_mem _ hx))
    unfold quoteBody at ih ⊢
    rw [chunks_cons_ascii hlt, List.flatMap_cons, List.flatMap_cons, ih]
    congr 1
    simp only [quoteChunk, quoteByte]
    split
    · rfl
    · rw [if_pos ⟨h1, h2⟩]

theorem encStr_label : ∀ {s : Str}, (∀ b ∈ s, labelByte b = true) → encStr s = [34] ++ s ++ [34] := by
  have key : ∀ {s : Str}, (∀ b ∈ s, labelByte b = true) → (chunks s).flatMap escChunk = s := by
    intro s h
    induction s with
    | nil => rfl
    | cons b s ih =>
      have hb := labelByte_ok b (h b List.mem_cons_self)
      rw [chunks_cons_ascii hb.2.2.2.2.2.2.2.2.2.1, List.flatMap_cons, ih (fun x hx => h x (List.mem_cons_of_mem _ hx))]
      simp [escChunk, hb.2.2.2.2.2.2.2.2.2.2]
  intro s h
  rw [encStr, key h]

/-- The labels as JSON. -/
def labelJson : List (Str × Str) → Str
  | [] => []
  | e :: l => [34] ++ e.1 ++ [34, 58, 34] ++ e.2 ++ [34] ++ (if l = [] then [] else 44 :: labelJson l)

theorem encMembers_labels : ∀ (l : List (Str × Str)), (∀ e ∈ l, (∀ b ∈ e.1, labelByte b = true) ∧ ∀ b ∈ e.2, labelByte b = true) →
    encMembers (l.map fun e => (e.1, .str e.2)) = labelJson l
  | [], _ => by simp [encMembers, labelJson]
  | e :: l, h => by
    obtain ⟨h1, h2⟩ := h e List.mem_cons_self
    have ih := encMembers_labels l (fun x hx => h x (List.mem_cons_of_mem _ hx))
    rw [List.map_cons, encMembers.eq_def]
    simp only
    rw [enc, encStr_label h1, encStr_label h2, labelJson]
    cases l with
    | nil => simp
    | cons x l =>
      rw [List.map_cons] at ih ⊢
      simp [ih]

theorem quoteByte_label {s : Str} (h : ∀ b ∈ s, labelByte b = true) : s.flatMap quoteByte = s := by
  induction s with
  | nil => rfl
  | cons b s ih =>
    have hb := labelByte_ok b (h b List.mem_cons_self)
    rw [List.flatMap_cons, ih (fun x hx => h x (List.mem_cons_of_mem _ hx))]
    simp [quoteByte, hb.2.2.1, hb.2.2.2.1]

theorem labelJson_quote : ∀ (l : List (Str × Str)), (∀ e ∈ l, (∀ b ∈ e.1, labelByte b = true) ∧ ∀ b ∈ e.2, labelByte b = true) →
    (labelJson l).flatMap quoteByte = labelBody l ∧ ∀ b ∈ labelJson l, 0x20 ≤ b ∧ b ≤ 0x7E
  | [], _ => by simp [labelJson, labelBody]
  | e :: l, h => by
    obtain ⟨h1, h2⟩ := h e List.mem_cons_self
    obtain ⟨i1, i2⟩ := labelJson_quote l (fun x hx => h x (List.mem_cons_of_mem _ hx))
    have q : ∀ b ∈ [(34 : UInt8), 58, 44], 0x20 ≤ b ∧ b ≤ 0x7E := by decide
    have e1 : quoteByte 34 = [92, 34] := by decide
    have e2 : quoteByte 58 = [58] := by decide
    have e3 : quoteByte 44 = [44] := by decide
    constructor
    · rw [labelJson, labelBody, labelItem]
      by_cases hl : l = []
      · simp [hl, List.flatMap_append, quoteByte_label h1, quoteByte_label h2, e1, e2]
      · simp [hl, List.flatMap_append, quoteByte_label h1, quoteByte_label h2, e1, e2, e3, i1]
    · intro b hb
      rw [labelJson] at hb
      have l1 : ∀ b ∈ e.1, 0x20 ≤ b ∧ b ≤ 0x7E := fun b hb => ⟨(labelByte_ok b (h1 b hb)).1, (labelByte_ok b (h1 b hb)).2.1⟩
      have l2 : ∀ b ∈ e.2, 0x20 ≤ b ∧ b ≤ 0x7E := fun b hb => ⟨(labelByte_ok b (h2 b hb)).1, (labelByte_ok b (h2 b hb)).2.1⟩
      simp only [List.mem_append, List.mem_cons, List.not_mem_nil, or_false] at hb
      rcases hb with ((((hb | hb) | hb) | hb) | hb) | hb
      · exact q b (by simp [hb])
      · exact l1 b hb
      · exact q b (by rcases hb with hb | hb | hb <;> simp [hb])
      · exact l2 b hb
      · exact q b (by simp [hb])
      · by_cases hl : l = []
        · simp [hl] at hb
        · rw [if_neg hl, List.mem_cons] at hb
          rcases hb with hb | hb
          · exact q b (by simp [hb])
          · exact i2 b hb

/-- A quoted label is part of the quoted JSON exactly if it is one of the labels. -/
theorem label_quoted {isPrint : Nat → Bool} {k v : Str} (hk : ∀ b ∈ k, labelByte b = true) (hv : ∀ b ∈ v, labelByte b = true)
    (l : List (Str × Str)) (hl : ∀ e ∈ l, (∀ b ∈ e.1, labelByte b = true) ∧ ∀ b ∈ e.2, labelByte b = true) :
    labelItem (k, v) <:+: quote isPrint (enc (.obj (l.map fun e => (e.1, .str e.2)))) ↔ (k, v) ∈ l := by
  obtain ⟨q1, q2⟩ := labelJson_quote l hl
  have e : quote isPrint (enc (.obj (l.map fun e => (e.1, .str e.2)))) = [34, 123] ++ (labelBody l ++ [125, 34]) := by
    rw [enc, encMembers_labels l hl, quote, quoteBody_ascii]
    · simp [List.flatMap_append, q1, quoteByte]
    · intro b hb
      simp only [List.mem_append, List.mem_cons, List.not_mem_nil, or_false] at hb
      rcases hb with (hb | hb) | hb
      · subst hb; decide
      · exact q2 b hb
      · subst hb; decide
  rw [e]
  constructor
  · intro h
    refine label_mem hk hv l hl ?_
    have eP : labelItem (k, v) = 92 :: (34 :: k ++ 92 :: 34 :: 58 :: 92 :: 34 :: v ++ [92, 34]) := by simp [labelItem]
    rw [eP] at h ⊢
    exact infix_skip (c := 92) (A := [34, 123]) (by decide) h
  · intro h
    exact (label_infix h).trans ⟨[34, 123], [125, 34], by simp⟩

end Ckube
