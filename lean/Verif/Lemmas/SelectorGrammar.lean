import Verif.Lemmas.SelParse
import Verif.Lemmas.Sort
import Verif.Lemmas.TemplateRun
import Verif.Lemmas.GoSortStable
import Verif.Lemmas.DeleteBody
import Verif.Props.ListOptions
import Verif.Spec.SelectorGrammar

/-! # Selector texts and their items -/

namespace Ckube
open Spec

theorem mem_nameChars (c : UInt8) : (c ∈ alnum ∨ c ∈ lit "-_.") ↔ isNameChar c = true := by
  revert c; exact forall_byte (by decide +kernel)

theorem legal_value {v : Str} : LegalLabelValue v ↔ validLabelValue v = true := by
  refine ⟨valid_of_legal, fun h => ?_⟩
  simp only [validLabelValue, Bool.and_eq_true, Bool.or_eq_true, decide_eq_true_eq, nameOk, List.all_eq_true] at h
  refine ⟨h.1, ?_⟩
  rcases h.2 with h0 | ⟨⟨h1, h2⟩, h3⟩
  · exact Or.inl (by simpa using h0)
  · right
    refine ⟨fun b hb => (mem_nameChars b).mpr (h1 b hb), ?_, ?_⟩
    · cases v with
      | nil => simp at h2
      | cons a r => exact ⟨a, r, rfl, (mem_alnum_iff a).mpr (by simpa using h2)⟩
    · rcases List.eq_nil_or_concat v with rfl | ⟨r, z, rfl⟩
      · simp at h3
      · exact ⟨r, z, by simp, (mem_alnum_iff z).mpr (by simpa using h3)⟩

theorem qname_legal {n : Str} : qnameOk n = true ↔ n ≠ [] ∧ LegalLabelValue n := by
  rw [legal_value]
  unfold qnameOk validLabelValue
  cases n with
  | nil => simp [nameOk]
  | cons c r => simp

theorem lowerAlnum_iff (c : UInt8) : (c ∈ lowerAlnum ↔ isDnsChar c = true) := by
  revert c; exact forall_byte (by decide +kernel)

theorem part_legal {p : Str} : dnsPartOk p = true ↔ LegalDomainPart p := by
  unfold dnsPartOk LegalDomainPart
  simp only [Bool.and_eq_true, List.all_eq_true, Bool.or_eq_true, decide_eq_true_eq, lowerAlnum_iff]
  constructor
  · rintro ⟨⟨h1, h2⟩, h3⟩
    refine ⟨h1, ?_, ?_⟩
    · cases p with
      | nil => simp at h2
      | cons a r => exact ⟨a, r, rfl, by simpa using h2⟩
    · rcases List.eq_nil_or_concat p with rfl | ⟨r, z, rfl⟩
      · simp at h3
      · exact ⟨r, z, by simp, by simpa using h3⟩
  · rintro ⟨h1, ⟨a, r, ha, ha'⟩, r', z, hz, hz'⟩
    refine ⟨⟨h1, ?_⟩, ?_⟩
    · rw [ha]; simpa using ha'
    · rw [hz]; simpa using hz'

theorem part_dot {p : Str} (h : LegalDomainPart p) : (46 : UInt8) ∉ p := by
  intro hm
  rcases h.1 _ hm with h | h
  · exact absurd h (by decide +kernel)
  · exact absurd h (by decide)

theorem part_slash {p : Str} (h : LegalDomainPart p) : (47 : UInt8) ∉ p := by
  intro hm
  rcases h.1 _ hm with h | h
  · exact absurd h (by decide +kernel)
  · exact absurd h (by decide)

theorem domain_legal {d : Str} : dnsOk d = true ↔ LegalDomain d := by
  unfold dnsOk LegalDomain
  simp only [Bool.and_eq_true, List.all_eq_true, decide_eq_true_eq, part_legal]
  constructor
  · rintro ⟨h1, h2⟩
    exact ⟨h1, splitByte 46 d, splitByte_ne_nil _ _, by rw [← join_intercalate, join_splitByte], h2⟩
  · rintro ⟨h1, ps, h2, rfl, h3⟩
    refine ⟨h1, ?_⟩
    rw [← join_intercalate, splitByte_join _ _ h2 (fun p hp => part_dot (h3 p hp))]
    exact h3

theorem domain_slash {d : Str} (h : LegalDomain d) : (47 : UInt8) ∉ d := by
  intro hm
  obtain ⟨-, ps, -, rfl, h3⟩ := h
  rw [← join_intercalate] at hm
  rcases mem_splitByte (sep := 46) hm with h | ⟨p, hp, hc⟩
  · exact absurd h (by decide)
  · by_cases hps : ps = []
    · subst hps; simp [join] at hm
    · rw [splitByte_join _ _ hps (fun p hp => part_dot (h3 p hp))] at hp
      exact part_slash (h3 p hp) hc

theorem value_slash {v : Str} (h : LegalLabelValue v) : (47 : UInt8) ∉ v := by
  intro hm
  rcases h.2 with rfl | ⟨h, -⟩
  · simp at hm
  · exact absurd (h _ hm) (by decide +kernel)

theorem legal_key {k : Str} : LegalLabelKey k ↔ validLabelKey k = true := by
  unfold validLabelKey LegalLabelKey
  constructor
  · rintro (⟨h1, h2⟩ | ⟨d, n, rfl, h1, h2, h3⟩)
    · rw [splitByte_of_not_mem _ _ (value_slash h2)]
      exact qname_legal.mpr ⟨h1, h2⟩
    · rw [splitByte_append _ _ _ (domain_slash h1), splitByte_of_not_mem _ _ (value_slash h3)]
      simp only [Bool.and_eq_true]
      exact ⟨domain_legal.mpr h1, qname_legal.mpr ⟨h2, h3⟩⟩
  · intro h
    split at h
    · rename_i n hn
      have : k = n := by
        have := join_splitByte 47 k
        rw [hn] at this
        simpa [join] using this.symm
      subst this
      exact Or.inl (qname_legal.mp h)
    · rename_i p n hn
      simp only [Bool.and_eq_true] at h
      obtain ⟨h2, h3⟩ := qname_legal.mp h.2
      exact Or.inr ⟨p, n, (splitByte_two hn).1, domain_legal.mp h.1, h2, h3⟩
    · simp at h

/-! ## From texts to items -/

theorem blank_iff (c : UInt8) : c ∈ lit " \t\n\r" ↔ isLexWs c = true := by
  revert c; exact forall_byte (by decide +kernel)

theorem blank_tail {c : UInt8} {s : Str} (h : Blank (c :: s)) : Blank s := fun b hb => h b (by simp [hb])

theorem blank_append {a b : Str} (ha : Blank a) (hb : Blank b) : Blank (a ++ b) := by
  intro c hc
  rcases List.mem_append.mp hc with h | h
  · exact ha c h
  · exact hb c h

theorem lexesTo_blank {t : Str} {is : List Item} (h : LexesTo t is) : ∀ {a : Str}, Blank a → LexesTo (a ++ t) is
  | [], _ => h
  | c :: a, ha => by
    have ih := lexesTo_blank h (blank_tail ha)
    have hc := (blank_iff c).mp (ha c (by simp))
    intro f hf
    rw [← ih f (by simp at hf ⊢; omega)]
    have : lex (c :: (a ++ t)) = lex (a ++ t) := by
      unfold lex
      have : skipLexWs (c :: (a ++ t)) = skipLexWs (a ++ t) := by simp [skipLexWs, hc]
      rw [this]
    cases f with
    | zero => rfl
    | succ f => rw [List.cons_append, scanAll, scanAll, this]

theorem sep_blank {a t : Str} (ha : Blank a) (h : a ≠ [] ∨ Sep t) : Sep (a ++ t) := by
  cases a with
  | nil => exact h.resolve_left (by simp)
  | cons c a =>
    intro d r hd
    cases hd
    have hc := (blank_iff c).mp (ha c (by simp))
    refine ⟨?_, by simp [hc]⟩
    rintro rfl
    exact absurd hc (by decide)

theorem sep_nil : Sep [] := by intro c r h; simp at h

/-- A byte that may follow a sign. -/
def Free (t : Str) : Prop := t.head? ≠ some 61 ∧ t.head? ≠ some 0

theorem free_nil : Free [] := by simp [Free]

theorem free_cons {c : UInt8} {t : Str} (h : c ≠ 61 ∧ c ≠ 0) : Free (c :: t) := by simp [Free, h.1, h.2]

theorem free_blank {a t : Str} (ha : Blank a) (h : Free t) : Free (a ++ t) := by
  cases a with
  | nil => exact h
  | cons c a =>
    have hc := (blank_iff c).mp (ha c (by simp))
    refine free_cons ⟨?_, ?_⟩ <;> rintro rfl <;> exact absurd hc (by decide)

theorem free_chars {w t : Str} (hw : ∀ c ∈ w, isWordChar c = true) (h : Free t) : Free (w ++ t) := by
  cases w with
  | nil => exact h
  | cons c w =>
    have hc := hw c (by simp)
    refine free_cons ⟨?_, ?_⟩ <;> rintro rfl <;> exact absurd hc (by decide)

theorem lexesTo_sign {u t : Str} {is : List Item} {k : LTok} (hu : u ∈ symbols) (hk : tokenOf u = some k) (ht : Free t) (h : LexesTo t is) :
    LexesTo (u ++ t) (⟨k, u⟩ :: is) := lexesTo_symbol hu hk ht.1 ht.2 h

theorem lexesTo_value {v t : Str} {is : List Item} (hv : LegalLabelValue v) (ht : Sep t) (h : LexesTo t is) : LexesTo (v ++ t) (valItems v ++ is) :=
  lexesTo_val (legal_value.mp hv) ht h

theorem free_value {v t : Str} (hv : LegalLabelValue v) (h : Free t) : Free (v ++ t) := free_chars (value_chars (legal_value.mp hv)) h

/-- The values of a list as items, up to what follows. -/
theorem lexesTo_listSays {vs : List Str} {x : Str} (h : ListSays vs x) : ∀ {t : Str} {is : List Item}, (∀ v ∈ vs, LegalLabelValue v) → Sep t → Free t →
    LexesTo t is → LexesTo (x ++ t) (valsItems vs ++ is) ∧ Free (x ++ t) := by
  induction h with
  | @one a v b ha hb =>
    intro t is hv ht hf hl
    have h1 := lexesTo_blank (lexesTo_value (hv v (by simp)) (sep_blank hb (Or.inr ht)) (lexesTo_blank hl hb)) ha
    have h2 := free_blank ha (free_value (hv v (by simp)) (free_blank hb hf))
    simp only [valsItems, List.append_assoc] at h1 h2 ⊢
    exact ⟨h1, h2⟩
  | @more a v b y vs ha hb hy ih =>
    intro t is hv ht hf hl
    obtain ⟨i1, i2⟩ := ih (fun w hw => hv w (by simp [hw])) ht hf hl
    have h0 := lexesTo_sign (u := [44]) (k := .comma) (by decide) rfl i2 i1
    have hs : Sep ([44] ++ (y ++ t)) := sep_symbol (by decide) (by decide)
    have h1 := lexesTo_blank (lexesTo_value (hv v (by simp)) (sep_blank hb (Or.inr hs)) (lexesTo_blank h0 hb)) ha
    have h2 := free_blank ha (free_value (hv v (by simp)) (free_blank hb (free_cons (c := 44) (t := y ++ t) (by decide))))
    have hne : vs ≠ [] := by cases hy <;> simp
    obtain ⟨w, ws, rfl⟩ := List.exists_cons_of_ne_nil hne
    simp only [valsItems, List.append_assoc, List.cons_append, List.nil_append, commaItem] at h1 h2 ⊢
    exact ⟨h1, h2⟩

/-! ## Reading lists of values -/

/-- Whether the parser gets through a list of values. -/
def listOk : List Str → Bool
  | [] => false
  | [v] => !v.isEmpty
  | _ :: w :: vs => if w.isEmpty then (match vs with | [] => true | _ :: _ => listOk vs) else listOk (w :: vs)

theorem listOk_cons (v w : Str) (vs : List Str) :
    listOk (v :: w :: vs) = if w.isEmpty then (match vs with | [] => true | _ :: _ => listOk vs) else listOk (w :: vs) := by
  cases vs <;> rw [listOk.eq_def]

theorem listOk_empties : ∀ e, listOk (List.replicate e []) = true ↔ ∃ d, e = 2 * d + 2
  | 0 => by simp [listOk]
  | 1 => by simp [listOk]
  | 2 => by simp [listOk, List.replicate_succ]
  | e + 3 => by
    have ih := listOk_empties (e + 1)
    have : listOk (List.replicate (e + 3) []) = listOk (List.replicate (e + 1) []) := by
      simp only [List.replicate_succ]
      rw [listOk_cons]
      simp
    rw [this, ih]
    constructor
    · rintro ⟨d, hd⟩; exact ⟨d + 1, by omega⟩
    · rintro ⟨d, hd⟩; exact ⟨d - 1, by omega⟩

theorem listOk_tail {v : Str} (hv : v ≠ []) : ∀ (ws : List Str) (e : Nat), listOk (ws ++ v :: List.replicate e []) = true ↔ e = 0 ∨ e % 2 = 1
  | [], 0 => by simp [listOk, hv]
  | [], 1 => by simp [listOk, List.replicate_succ]
  | [], e + 2 => by
    have : listOk ([] ++ v :: List.replicate (e + 2) []) = listOk (List.replicate (e + 1) []) := by
      simp only [List.replicate_succ, List.nil_append]
      rw [listOk_cons]
      simp
    rw [this, listOk_empties]
    constructor
    · rintro ⟨d, hd⟩; omega
    · intro h; exact ⟨(e - 1) / 2, by omega⟩
  | [w], e => by
    have ih := listOk_tail hv [] e
    have : listOk ([w] ++ v :: List.replicate e []) = listOk (v :: List.replicate e []) := by
      simp only [List.cons_append, List.nil_append]
      rw [listOk_cons]
      simp [hv]
    rw [this]
    exact ih
  | w :: u :: ws, e => by
    by_cases hu : u = []
    · subst hu
      have ih := listOk_tail hv ws e
      have : listOk (w :: [] :: ws ++ v :: List.replicate e []) = listOk (ws ++ v :: List.replicate e []) := by
        simp only [List.cons_append]
        rw [listOk_cons]
        cases ws <;> simp
      rw [this]
      exact ih
    · have ih := listOk_tail hv (u :: ws) e
      have : listOk (w :: u :: ws ++ v :: List.replicate e []) = listOk (u :: ws ++ v :: List.replicate e []) := by
        simp only [List.cons_append]
        rw [listOk_cons]
        simp [hu]
      rw [this]
      exact ih
termination_by ws => ws.length

theorem trailing : ∀ vs : List Str, (∃ e, vs = List.replicate e []) ∨ ∃ ws v e, vs = ws ++ v :: List.replicate e [] ∧ v ≠ []
  | [] => Or.inl ⟨0, rfl⟩
  | v :: vs => by
    rcases trailing vs with ⟨e, rfl⟩ | ⟨ws, u, e, rfl, hu⟩
    · by_cases hv : v = []
      · subst hv; exact Or.inl ⟨e + 1, rfl⟩
      · exact Or.inr ⟨[], v, e, rfl, hv⟩
    · exact Or.inr ⟨v :: ws, u, e, rfl, hu⟩

theorem listOk_iff (vs : List Str) : listOk vs = true ↔ ReadableList vs := by
  constructor
  · intro h
    rcases trailing vs with ⟨e, rfl⟩ | ⟨ws, v, e, rfl, hv⟩
    · obtain ⟨d, rfl⟩ := (listOk_empties e).mp h
      exact Or.inl ⟨d, rfl⟩
    · exact Or.inr ⟨ws, v, e, rfl, hv, (listOk_tail hv ws e).mp h⟩
  · rintro (⟨e, rfl⟩ | ⟨ws, v, e, rfl, hv, h⟩)
    · exact (listOk_empties _).mpr ⟨e, rfl⟩
    · exact (listOk_tail hv ws e).mpr h

theorem valsItems_cons (v w : Str) (vs : List Str) : valsItems (v :: w :: vs) = valItems v ++ commaItem :: valsItems (w :: vs) := rfl

theorem valItems_word {v : Str} (h : v ≠ []) : valItems v = [wordItem v] := by simp [valItems, h]

theorem ahead_vals {w : Str} (hw : Word w) (vs : List Str) (t : List Item) : ahead (valsItems (w :: vs) ++ t) = .ident := by
  cases vs with
  | nil => simp only [valsItems, valItems, hw.1, if_false, List.singleton_append, ahead_cons, valTok_wordItem hw]
  | cons x vs => simp only [valsItems, valItems, hw.1, if_false, List.cons_append, ahead_cons, valTok_wordItem hw]

theorem pIdents_list : ∀ (n : Nat) (vs : List Str), vs.length ≤ n → listOk vs = true → (∀ v ∈ vs, v = [] ∨ Word v) → ∀ f acc rest,
    (valsItems vs).length + 1 ≤ f → (acc = [] ∨ [] ∈ acc ∨ vs.head? ≠ some []) →
    ∃ acc', pIdents f acc (valsItems vs ++ closeItem :: rest) = some (acc', closeItem :: rest) ∧ ∀ x, x ∈ acc' ↔ x ∈ acc ∨ x ∈ vs
  | _, [], _, hok, _, _, _, _, _, _ => by simp [listOk] at hok
  | _, [v], _, hok, hv, f, acc, rest, hf, _ => by
    have hw : Word v := (hv v (by simp)).resolve_left (by simpa [listOk] using hok)
    obtain ⟨f, rfl⟩ : ∃ g, f = g + 1 := ⟨f - 1, by omega⟩
    refine ⟨v :: acc, ?_, fun x => by simp [or_comm]⟩
    simp only [valsItems, valItems, hw.1, if_false, List.singleton_append]
    rw [pIdents, valTok_wordItem hw, ahead_cons]
    rfl
  | 0, v :: w :: vs, hn, _, _, _, _, _, _, _ => by simp at hn
  | n + 1, v :: w :: vs, hn, hok, hv, f, acc, rest, hf, hacc => by
    have comma : ∀ (f : Nat) (acc : List Str), (valsItems (w :: vs)).length + 2 ≤ f → acc ≠ [] →
        ∃ acc', pIdents f acc (commaItem :: (valsItems (w :: vs) ++ closeItem :: rest)) = some (acc', closeItem :: rest)
          ∧ ∀ x, x ∈ acc' ↔ x ∈ acc ∨ x ∈ w :: vs := by
      intro f acc hf hne
      obtain ⟨f, rfl⟩ : ∃ g, f = g + 1 := ⟨f - 1, by omega⟩
      have he : acc.isEmpty = false := by cases acc <;> simp_all
      rw [listOk_cons] at hok
      by_cases hw : w = []
      · subst hw
        cases vs with
        | nil =>
          refine ⟨[] :: acc, ?_, fun x => by simp [or_comm]⟩
          rw [pIdents]
          simp only [show valTok commaItem.tok = .comma from rfl, he, Bool.false_eq_true, if_false]
          rfl
        | cons u us =>
          have hok' : listOk (u :: us) = true := by simpa using hok
          rw [valsItems_cons] at hf
          obtain ⟨acc', h1, h2⟩ := pIdents_list n (u :: us) (by simp at hn ⊢; omega) hok' (fun x hx => hv x (by simp at hx ⊢; tauto)) f ([] :: acc) rest
            (by simp [valItems] at hf; omega) (Or.inr (Or.inl (by simp)))
          refine ⟨acc', ?_, fun x => by rw [h2]; simp; tauto⟩
          rw [pIdents]
          simp only [show valTok commaItem.tok = .comma from rfl, he, Bool.false_eq_true, if_false]
          exact h1
      · have hww : Word w := (hv w (by simp)).resolve_left hw
        have hok' : listOk (w :: vs) = true := by simpa [hw] using hok
        obtain ⟨acc', h1, h2⟩ := pIdents_list n (w :: vs) (by simp at hn ⊢; omega) hok' (fun x hx => hv x (by simp at hx ⊢; tauto)) f acc rest
            (by omega) (Or.inr (Or.inr (by simpa using hw)))
        refine ⟨acc', ?_, h2⟩
        rw [pIdents]
        simp only [show valTok commaItem.tok = .comma from rfl, he, Bool.false_eq_true, if_false, ahead_vals hww]
        exact h1
    rw [valsItems_cons] at hf ⊢
    by_cases h0 : v = []
    · subst h0
      simp only [valItems, if_true, List.nil_append, List.cons_append, List.length_cons] at hf ⊢
      by_cases hne : acc = []
      · subst hne
        obtain ⟨acc', h1, h2⟩ := comma f [[]] (by omega) (by simp)
        refine ⟨acc', ?_, fun x => by rw [h2]; simp⟩
        rw [← h1]
        cases f with
        | zero => rfl
        | succ f => rw [pIdents, pIdents]; rfl
      · obtain ⟨acc', h1, h2⟩ := comma f acc (by omega) hne
        have hin : [] ∈ acc := by
          rcases hacc with h | h | h
          · exact absurd h hne
          · exact h
          · simp at h
        refine ⟨acc', h1, fun x => ?_⟩
        rw [h2, List.mem_cons (a := x) (b := [])]
        constructor
        · tauto
        · rintro (h | rfl | h)
          · exact Or.inl h
          · exact Or.inl hin
          · exact Or.inr h
    · have hw : Word v := (hv v (by simp)).resolve_left h0
      rw [valItems_word h0] at hf ⊢
      obtain ⟨f, rfl⟩ : ∃ g, f = g + 1 := ⟨f - 1, by omega⟩
      obtain ⟨acc', h1, h2⟩ := comma f (v :: acc) (by simp at hf; omega) (by simp)
      refine ⟨acc', ?_, fun x => by rw [h2]; simp; tauto⟩
      rw [← h1]
      simp only [List.cons_append, List.nil_append]
      rw [pIdents, valTok_wordItem hw, ahead_cons]
      rfl

theorem pValues_list {vs : List Str} (hok : listOk vs = true) (hv : ∀ v ∈ vs, v = [] ∨ Word v) (rest : List Item) :
    pValues (openItem :: (valsItems vs ++ closeItem :: rest)) = some (setList vs, rest) := by
  obtain ⟨acc', h1, h2⟩ := pIdents_list vs.length vs (Nat.le_refl _) hok hv ((valsItems vs ++ closeItem :: rest).length + 1) [] rest
    (by simp only [List.length_append]; omega) (Or.inl rfl)
  have hset : setList acc' = setList vs := setList_congr fun x => by rw [h2]; simp
  have hahead : ahead (valsItems vs ++ closeItem :: rest) = .ident ∨ ahead (valsItems vs ++ closeItem :: rest) = .comma := by
    cases vs with
    | nil => simp [listOk] at hok
    | cons v vs =>
      by_cases h0 : v = []
      · subst h0
        cases vs with
        | nil => simp [listOk] at hok
        | cons w vs => right; rfl
      · left; exact ahead_vals ((hv v (by simp)).resolve_left h0) vs _
  unfold pValues
  simp only [show ¬ (valTok openItem.tok ≠ LTok.openPar) by decide, if_false]
  rcases hahead with h | h <;>
  · simp only [h, h1]
    rw [if_pos (by decide), hset]

/-! ## Reading requirements -/

theorem legal_word {k : Str} (h : LegalLabelKey k) : Word k := word_of_key (legal_key.mp h)

theorem value_word {v : Str} (h : LegalLabelValue v) : v = [] ∨ Word v := by
  by_cases h0 : v = []
  · exact Or.inl h0
  · exact Or.inr (word_of_value (legal_value.mp h) h0)

/-- What parsing makes of a requirement. -/
theorem norm_same (q : Req) : SameReq q q.norm := by
  refine ⟨norm_key q, ?_, fun v => ?_⟩
  · unfold Req.norm; split <;> rfl
  · unfold Req.norm
    split
    · exact mem_setList
    · exact Iff.rfl

theorem sep_after {t : Str} (h : After t) {b : Str} (hb : Blank b) : Sep (b ++ t) := sep_blank hb (Or.inr h.sep)

theorem free_after {t : Str} (h : After t) {b : Str} (hb : Blank b) : Free (b ++ t) :=
  free_blank hb ⟨h.head (by decide), h.head (by decide)⟩

theorem isSpecial_sep {c : UInt8} {t : Str} (h : isSpecial c = true) : Sep (c :: t) :=
  sep_symbol h (by rintro rfl; exact absurd h (by decide))

theorem cmp_valid {k v : Str} {op : Op} {u : Str} (hk : LegalLabelKey k) (hu : (op, u) ∈ signs) (hv : LegalLabelValue v)
    (hi : op = .gt ∨ op = .lt → ∃ i, MeansInt64 v i) : (⟨k, op, [v]⟩ : Req).Valid := by
  have hok : okVals op [v] = true := by
    have hp : op = .gt ∨ op = .lt → (parseInt64 v).isSome = true := fun h => by
      obtain ⟨i, hi⟩ := hi h
      rw [parseInt64_means.mpr hi]; rfl
    simp only [signs, List.mem_cons, List.not_mem_nil, or_false, Prod.mk.injEq] at hu
    rcases hu with ⟨rfl, -⟩ | ⟨rfl, -⟩ | ⟨rfl, -⟩ | ⟨rfl, -⟩ | ⟨rfl, -⟩
    · rfl
    · rfl
    · rfl
    · simpa [okVals] using hp (Or.inl rfl)
    · simpa [okVals] using hp (Or.inr rfl)
  unfold Req.Valid newReq
  simp only [legal_key.mp hk, hok, List.all_cons, legal_value.mp hv, List.all_nil, Bool.and_self, if_true]

/-- The text of one requirement is read as that requirement. -/
theorem term_read {q : Req} {x : Str} (h : TermSays q x) : ∃ js, (∀ t is, After t → ∀ b, Blank b → LexesTo t is → LexesTo (x ++ (b ++ t)) (js ++ is))
    ∧ (∀ is, AfterItems is → pReq (js ++ is) = some (q.norm, is)) ∧ (∀ is, ahead (js ++ is) = .ident ∨ ahead (js ++ is) = .bang) ∧ ∀ t, Free (x ++ t) := by
  cases h with
  | @exist x hk =>
    have hw := legal_word hk
    have hn : newReq x .exist [] = some ⟨x, .exist, []⟩ := by simp [newReq, legal_key.mp hk, okVals]
    refine ⟨[wordItem x], fun t is ht b hb hl => lexesTo_word hw (sep_after ht hb) (lexesTo_blank hl hb), fun is hi => ?_, fun is => ?_, fun t => ?_⟩
    · have hwb : valTok (wordItem x).tok ≠ .bang := by rw [valTok_wordItem hw]; decide
      simp only [List.singleton_append, pReq, hwb, if_false, pReqBody, valTok_wordItem hw, ne_eq, not_true_eq_false,
        show (wordItem x).text = x from rfl, legal_key.mp hk, Bool.not_true, Bool.false_eq_true, hi.ahead, if_true, hn]
      rfl
    · left; exact valTok_wordItem hw
    · obtain ⟨c, r, rfl⟩ := List.exists_cons_of_ne_nil hw.1
      have := hw.2 c (by simp)
      exact free_cons ⟨by rintro rfl; exact absurd this (by decide), by rintro rfl; exact absurd this (by decide)⟩
  | @absent a k ha hk =>
    have hw := legal_word hk
    have hn : newReq k .notExist [] = some ⟨k, .notExist, []⟩ := by simp [newReq, legal_key.mp hk, okVals]
    refine ⟨[⟨.bang, [33]⟩, wordItem k], fun t is ht b hb hl => ?_, fun is hi => ?_, fun is => Or.inr rfl, fun t => free_cons (by decide)⟩
    · have h1 := lexesTo_blank (lexesTo_word hw (sep_after ht hb) (lexesTo_blank hl hb)) ha
      have h2 := lexesTo_sign (u := [33]) (k := .bang) (by decide) rfl (free_blank ha (t := k ++ (b ++ t)) ⟨key_head hw (by decide), key_head hw (by decide)⟩) h1
      simpa [List.append_assoc] using h2
    · simp only [List.cons_append, List.nil_append, pReq, show valTok LTok.bang = LTok.bang from rfl, if_true,
        pReqBody, valTok_wordItem hw, ne_eq, not_true_eq_false, if_false, show (wordItem k).text = k from rfl,
        legal_key.mp hk, Bool.not_true, Bool.false_eq_true, hn]
      rfl
  | @compare k a u b v op hk ha hu hb hv hi =>
    have hw := legal_word hk
    have hvalid := cmp_valid hk hu hv hi
    have hwb : valTok (wordItem k).tok ≠ .bang := by rw [valTok_wordItem hw]; decide
    have hsym : ∃ tok, u ∈ symbols ∧ tokenOf u = some tok ∧ pOperator tok = some op ∧ valTok tok ≠ .eos ∧ valTok tok ≠ .comma
        ∧ ¬ (op = .isIn ∨ op = .notIn) ∧ ∃ c r, u = c :: r ∧ isSpecial c = true := by
      simp only [signs, List.mem_cons, List.not_mem_nil, or_false, Prod.mk.injEq] at hu
      rcases hu with ⟨rfl, rfl⟩ | ⟨rfl, rfl⟩ | ⟨rfl, rfl⟩ | ⟨rfl, rfl⟩ | ⟨rfl, rfl⟩
      · exact ⟨.eq, by decide +kernel, by decide +kernel, rfl, by decide, by decide, by decide, 61, [], by decide +kernel, by decide⟩
      · exact ⟨.deq, by decide +kernel, by decide +kernel, rfl, by decide, by decide, by decide, 61, [61], by decide +kernel, by decide⟩
      · exact ⟨.neq, by decide +kernel, by decide +kernel, rfl, by decide, by decide, by decide, 33, [61], by decide +kernel, by decide⟩
      · exact ⟨.gt, by decide +kernel, by decide +kernel, rfl, by decide, by decide, by decide, 62, [], by decide +kernel, by decide⟩
      · exact ⟨.lt, by decide +kernel, by decide +kernel, rfl, by decide, by decide, by decide, 60, [], by decide +kernel, by decide⟩
    obtain ⟨tok, hus, htok, hop, hne, hnc, hnl, c, r, huc, hsp⟩ := hsym
    refine ⟨wordItem k :: ⟨tok, u⟩ :: valItems v, fun t is ht d hd hl => ?_, fun is hi => ?_, fun is => ?_, fun t => ?_⟩
    · have h1 := lexesTo_blank (lexesTo_value hv (sep_after ht hd) (lexesTo_blank hl hd)) hb
      have h2 := lexesTo_blank (lexesTo_sign hus htok (free_blank hb (free_value hv (free_after ht hd))) h1) ha
      have h3 := lexesTo_word hw (sep_blank ha (Or.inr (by rw [huc]; exact isSpecial_sep hsp))) h2
      simpa [List.append_assoc] using h3
    · have := pReqBody_op hvalid (u := u) (k := tok) (is := is) hop ⟨hne, hnc⟩ hnl ⟨v, rfl⟩ hi
      rw [printVals_single (v := v) rfl] at this
      have hnorm : (⟨k, op, [v]⟩ : Req).norm = ⟨k, op, [v]⟩ := by unfold Req.norm; rw [if_neg hnl]
      rw [hnorm]
      simpa [pReq, hwb, valsItems] using this
    · left; exact valTok_wordItem hw
    · simp only [List.append_assoc]
      exact ⟨key_head hw (by decide), key_head hw (by decide)⟩
  | @among k a w b y op vs hk ha hane hop hb hy hv hr =>
    have hw := legal_word hk
    have hwb : valTok (wordItem k).tok ≠ .bang := by rw [valTok_wordItem hw]; decide
    have hwv : ∀ v ∈ vs, v = [] ∨ Word v := fun v hm => value_word (hv v hm)
    have hfacts : Word w ∧ pOperator (wordItem w).tok = some op ∧ (op = .isIn ∨ op = .notIn) := by
      simp only [List.mem_cons, List.not_mem_nil, or_false, Prod.mk.injEq] at hop
      rcases hop with ⟨rfl, rfl⟩ | ⟨rfl, rfl⟩
      · exact ⟨word_in, by decide +kernel, Or.inl rfl⟩
      · exact ⟨word_notin, by decide +kernel, Or.inr rfl⟩
    obtain ⟨hww, hpo, hcase⟩ := hfacts
    have hne : vs ≠ [] := by cases hy <;> simp
    refine ⟨wordItem k :: wordItem w :: openItem :: (valsItems vs ++ [closeItem]), fun t is ht d hd hl => ?_, fun is hi => ?_, fun is => ?_, fun t => ?_⟩
    · have h0 := lexesTo_sign (u := [41]) (k := .closePar) (by decide) rfl (free_after ht hd) (lexesTo_blank hl hd)
      obtain ⟨h1, h1'⟩ := lexesTo_listSays hy hv (isSpecial_sep (c := 41) (by decide)) (free_cons (c := 41) (by decide)) h0
      have h2 := lexesTo_blank (lexesTo_sign (u := [40]) (k := .openPar) (by decide) rfl h1' h1) hb
      have h3 := lexesTo_blank (lexesTo_word hww (sep_blank hb (Or.inr (isSpecial_sep (c := 40) (by decide)))) h2) ha
      have h4 := lexesTo_word hw (sep_blank ha (Or.inl hane)) h3
      simpa [List.append_assoc, openItem, closeItem] using h4
    · have hpv := pValues_list ((listOk_iff vs).mpr hr) hwv is
      have hnew : newReq k op (setList vs) = some ((⟨k, op, vs⟩ : Req).norm) := by
        have hall : (setList vs).all validLabelValue = true := by
          rw [List.all_eq_true]
          intro v hm
          exact legal_value.mp (hv v (mem_setList.mp hm))
        have hok : okVals op (setList vs) = true := by
          have := setList_ne_nil hne
          rcases hcase with rfl | rfl <;> simp [okVals, this]
        unfold newReq Req.norm
        simp only [legal_key.mp hk, hall, hok, Bool.and_self, if_true, hcase]
      simp only [List.cons_append, List.append_assoc, List.nil_append, pReq, hwb, if_false, pReqBody, valTok_wordItem hw, ne_eq, not_true_eq_false,
        show (wordItem k).text = k from rfl, legal_key.mp hk, Bool.not_true, Bool.false_eq_true, ahead_cons, valTok_wordItem hww,
        reduceCtorEq, or_self, hpo, hcase, if_true, hpv, hnew]
      rfl
    · left; exact valTok_wordItem hw
    · simp only [List.append_assoc]
      exact ⟨key_head hw (by decide), key_head hw (by decide)⟩

/-- The text of a selector is read as its requirements. -/
theorem selector_read {qs : List Req} {s : Str} (h : SelectorSays qs s) : ∃ is, LexesTo s is ∧ Free s
    ∧ (qs ≠ [] → ahead is = .ident ∨ ahead is = .bang) ∧ qs.length ≤ is.length ∧ ∀ f, qs.length + 1 ≤ f → pReqs f is = some (qs.map Req.norm) := by
  induction h with
  | @none a ha =>
    refine ⟨[eosItem], ?_, ?_, by simp, by simp, fun f hf => ?_⟩
    · simpa using lexesTo_blank lexesTo_nil ha
    · simpa using free_blank ha free_nil
    · obtain ⟨f, rfl⟩ : ∃ g, f = g + 1 := ⟨f - 1, by omega⟩
      rfl
  | @one a x b q ha hx hb =>
    obtain ⟨js, h1, h2, h3, h4⟩ := term_read hx
    refine ⟨js ++ [eosItem], ?_, ?_, fun _ => h3 _, by simp, fun f hf => ?_⟩
    · have := lexesTo_blank (h1 [] [eosItem] (Or.inl rfl) b hb lexesTo_nil) ha
      simpa [List.append_assoc] using this
    · have := free_blank ha (h4 b)
      simpa [List.append_assoc] using this
    · obtain ⟨f, rfl⟩ : ∃ g, f = g + 1 := ⟨f - 1, by omega⟩
      have hp := h2 [eosItem] ⟨eosItem, [], rfl, Or.inl rfl⟩
      rw [pReqs]
      rcases h3 [eosItem] with h | h <;>
      · simp only [h, hp]
        rfl
  | @more a x b t q r qs ha hx hb ht ih =>
    obtain ⟨is, i1, i2, i3, i4, i5⟩ := ih
    obtain ⟨js, h1, h2, h3, h4⟩ := term_read hx
    have hc := lexesTo_sign (u := [44]) (k := .comma) (by decide) rfl i2 i1
    refine ⟨js ++ commaItem :: is, ?_, ?_, fun _ => h3 _, ?_, fun f hf => ?_⟩
    · have := lexesTo_blank (h1 (44 :: t) (commaItem :: is) (Or.inr ⟨t, rfl⟩) b hb hc) ha
      simpa [List.append_assoc] using this
    · have := free_blank ha (h4 (b ++ 44 :: t))
      simpa [List.append_assoc] using this
    · simp at i4 ⊢; omega
    · obtain ⟨f, rfl⟩ : ∃ g, f = g + 1 := ⟨f - 1, by omega⟩
      have hp := h2 (commaItem :: is) ⟨commaItem, is, rfl, Or.inr rfl⟩
      have ih := i5 f (by simp at hf ⊢; omega)
      have hn := i3 (by simp)
      rw [pReqs]
      rcases h3 (commaItem :: is) with h | h <;>
      · simp only [h, hp, show valTok commaItem.tok = .comma from rfl]
        rw [if_pos hn, ih]
        rfl

theorem parse_says {qs : List Req} {s : Str} (h : SelectorSays qs s) : parseReqs s = some (sortBy Req.keyLe (qs.map Req.norm)) := by
  obtain ⟨is, h1, -, -, h2, h3⟩ := selector_read h
  unfold parseReqs
  rw [h1 _ (Nat.le_refl _), h3 _ (by omega)]
  rfl

end Ckube
