import Verif.Spec.Template
import Verif.Lemmas.Index
import Mathlib.Data.List.Chain

/-! # Lemmas about Go templates: reading what is written -/

namespace Ckube
open Spec Json

/-! ## Tokens -/

def tokText : TTok → Str
  | .sp => [32]
  | .field n => 46 :: n
  | .str s => 34 :: (s ++ [34])
  | .word n => n
  | .pipe => [124]

def TokOk : TTok → Prop
  | .field n => FieldName n
  | .word n => FieldName n
  | .str s => ConstOk s
  | _ => True

/-- What may follow a token. -/
def TokNext : TTok → List TTok → Prop
  | .sp, r => r.head? ≠ some .sp
  | .field _, r => match r with | [] => True | t :: _ => match t with | .word _ => False | .str _ => False | _ => True
  | .word _, r => match r with | [] => True | t :: _ => match t with | .word _ => False | .str _ => False | _ => True
  | _, _ => True

def ToksOk : List TTok → Prop
  | [] => True
  | t :: r => TokOk t ∧ TokNext t r ∧ ToksOk r

theorem tAlnum_of {b : UInt8} (h : isAlnum b = true ∨ b = 95) : tAlnum b = true := by
  rcases h with h | h <;> simp [tAlnum, h]

theorem takeWhile_alnum {n : Str} (hn : FieldName n) {t : Str} (ht : ∀ c r, t = c :: r → tAlnum c = false) :
    (n ++ t).takeWhile tAlnum = n := by
  rw [List.takeWhile_append_of_pos (fun b hb => tAlnum_of (hn.2.1 b hb))]
  cases t with
  | nil => simp
  | cons c r => simp [ht c r rfl]

/-- The text of what follows. -/
def toksText (ts : List TTok) (rest : Str) : Str := ts.flatMap tokText ++ (125 :: 125 :: rest)

theorem toksText_cons (t : TTok) (ts : List TTok) (rest : Str) : toksText (t :: ts) rest = tokText t ++ toksText ts rest := by
  simp [toksText]

theorem toksText_term {t : TTok} {ts : List TTok} (ht : (∃ n, t = .field n) ∨ ∃ n, t = .word n) (h : TokNext t ts) (rest : Str) :
    ∃ c r, toksText ts rest = c :: r ∧ tAlnum c = false ∧ tTerm (toksText ts rest) = true := by
  have key : ts = [] ∨ ∃ u us, ts = u :: us ∧ (u = .sp ∨ u = .pipe ∨ ∃ n, u = .field n) := by
    cases ts with
    | nil => exact .inl rfl
    | cons u us =>
      refine .inr ⟨u, us, rfl, ?_⟩
      rcases ht with ⟨n, rfl⟩ | ⟨n, rfl⟩ <;> cases u <;> simp_all [TokNext]
  rcases key with rfl | ⟨u, us, rfl, rfl | rfl | ⟨n, rfl⟩⟩
  · exact ⟨125, 125 :: rest, rfl, by decide, by simp [toksText, tTerm]⟩
  · rw [toksText_cons]; exact ⟨32, toksText us rest, rfl, by decide, by simp [tTerm, tokText, tSpace]⟩
  · rw [toksText_cons]; exact ⟨124, toksText us rest, rfl, by decide, by simp [tTerm, tokText]⟩
  · rw [toksText_cons]; exact ⟨46, n ++ toksText us rest, rfl, by decide, by simp [tTerm, tokText]⟩

theorem field_head {n : Str} (hn : FieldName n) : ∃ c r, n = c :: r ∧ tAlnum c = true ∧ isDigit c = false := by
  cases n with
  | nil => exact absurd rfl hn.1
  | cons c r => exact ⟨c, r, rfl, tAlnum_of (hn.2.1 c (by simp)), hn.2.2 c (by simp)⟩

theorem alnum_cases {c : UInt8} (h : tAlnum c = true) :
    c ≠ 125 ∧ tSpace c = false ∧ c ≠ 124 ∧ c ≠ 34 ∧ c ≠ 46 ∧ c ≠ 45 ∧ c ≠ 47 := by
  revert h; revert c
  apply forall_byte
  decide +kernel

theorem tok_head_not_space {ts : List TTok} (hok : ToksOk ts) (hsp : ts.head? ≠ some .sp) (rest : Str) :
    ∃ c r, toksText ts rest = c :: r ∧ tSpace c = false ∧ c ≠ 45 := by
  cases ts with
  | nil => exact ⟨125, 125 :: rest, rfl, by decide, by decide⟩
  | cons t ts =>
    rw [toksText_cons]
    cases t with
    | sp => simp at hsp
    | field n => exact ⟨46, _, rfl, by decide, by decide⟩
    | str s => exact ⟨34, _, rfl, by decide, by decide⟩
    | pipe => exact ⟨124, _, rfl, by decide, by decide⟩
    | word n =>
      obtain ⟨c, r, rfl, h1, _⟩ := field_head hok.1
      have := alnum_cases h1
      exact ⟨c, _, rfl, this.2.1, this.2.2.2.2.2.1⟩

theorem tLexAction_toks : ∀ (ts : List TTok) (f : Nat) (rest : Str), ts.length < f → ToksOk ts →
    tLexAction f (toksText ts rest) = .ok (ts, rest, false)
  | [], f, rest, hf, _ => by
    obtain ⟨f, rfl⟩ : ∃ g, f = g + 1 := ⟨f - 1, by simp at hf; omega⟩
    simp [toksText, tLexAction, hasPrefix, lit]
  | t :: ts, f, rest, hf, hok => by
    obtain ⟨f, rfl⟩ : ∃ g, f = g + 1 := ⟨f - 1, by simp at hf; omega⟩
    have ih := tLexAction_toks ts f rest (by simp at hf; omega) hok.2.2
    rw [toksText_cons]
    cases t with
    | sp =>
      obtain ⟨c, r, he, hc, hm⟩ := tok_head_not_space hok.2.2 hok.2.1 rest
      have hd : (toksText ts rest).dropWhile tSpace = toksText ts rest := by rw [he, List.dropWhile_cons]; simp [hc]
      have hp : hasPrefix (toksText ts rest) (lit "-}}") = false := by
        rw [he]; simp [hasPrefix, lit, List.isPrefixOf]; intro h; exact absurd h.symm hm
      show tLexAction (f + 1) (32 :: toksText ts rest) = _
      rw [tLexAction]
      simp only [hd, hp, ih]
      simp [hasPrefix, lit, List.isPrefixOf, tSpace]
    | pipe =>
      show tLexAction (f + 1) (124 :: toksText ts rest) = _
      rw [tLexAction]
      simp only [ih]
      simp [hasPrefix, lit, List.isPrefixOf, tSpace]
    | str s =>
      have h : ConstOk s := hok.1
      show tLexAction (f + 1) (34 :: ((s ++ [34]) ++ toksText ts rest)) = _
      have htw : ((s ++ [34]) ++ toksText ts rest).takeWhile (· ≠ 34) = s := by
        rw [List.append_assoc, List.takeWhile_append_of_pos (fun b hb => by simp; rintro rfl; exact h.1 hb)]
        simp
      rw [tLexAction]
      simp only [htw]
      have hd : ((s ++ [34]) ++ toksText ts rest).drop (s.length + 1) = toksText ts rest := by
        rw [List.drop_append_of_le_length (by simp)]; simp
      rw [hd, ih]
      simp [hasPrefix, lit, List.isPrefixOf, tSpace, h.2.1, h.2.2.1, h.2.2.2]
    | field n =>
      have h : FieldName n := hok.1
      obtain ⟨c, r, he, hc, ht⟩ := toksText_term (.inl ⟨n, rfl⟩) hok.2.1 rest
      have htw : (n ++ toksText ts rest).takeWhile tAlnum = n :=
        takeWhile_alnum h (fun c' r' e => by rw [he] at e; cases e; exact hc)
      show tLexAction (f + 1) (46 :: (n ++ toksText ts rest)) = _
      rw [tLexAction]
      simp only [htw, List.drop_left, ih, ht]
      obtain ⟨x, y, rfl, _, hx⟩ := field_head h
      simp [hasPrefix, lit, List.isPrefixOf, tSpace, hx]
    | word n =>
      have h : FieldName n := hok.1
      obtain ⟨c, r, he, hc, ht⟩ := toksText_term (.inr ⟨n, rfl⟩) hok.2.1 rest
      have htw : (n ++ toksText ts rest).takeWhile tAlnum = n :=
        takeWhile_alnum h (fun c' r' e => by rw [he] at e; cases e; exact hc)
      have hdr : (n ++ toksText ts rest).drop n.length = toksText ts rest := List.drop_left
      obtain ⟨x, y, rfl, hxa, hx⟩ := field_head h
      have hx' := alnum_cases hxa
      show tLexAction (f + 1) (x :: (y ++ toksText ts rest)) = _
      rw [List.cons_append] at htw hdr
      rw [tLexAction]
      simp only [htw, hdr, ih, ht]
      have : hasPrefix (x :: (y ++ toksText ts rest)) (lit "}}") = false := by
        simp [hasPrefix, lit, List.isPrefixOf]; intro h; exact absurd h.symm hx'.1
      simp [this, hx'.2.1, hx'.2.2.1, hx'.2.2.2.1, hx'.2.2.2.2.1, hx]

/-! ## Items -/

def itemText : TItem → Str
  | .text s => s
  | .act ts => [123, 123] ++ ts.flatMap tokText ++ [125, 125]

def ItemOk : TItem → Prop
  | .text s => s ≠ [] ∧ (123 : UInt8) ∉ s
  | .act ts => ToksOk ts

def itemIsText : TItem → Bool
  | .text _ => true
  | .act _ => false

theorem cutOpen_none : ∀ {s : Str}, (123 : UInt8) ∉ s → cutOpen s = none
  | [], _ => rfl
  | c :: r, h => by
    have hc : c ≠ 123 := fun e => h (by simp [e])
    have : hasPrefix (c :: r) (lit "{{") = false := by
      simp [hasPrefix, lit, List.isPrefixOf]; intro e; exact absurd e.symm hc
    rw [cutOpen, this, cutOpen_none (fun e => h (by simp [e]))]; rfl

theorem cutOpen_text : ∀ {s : Str} (r : Str), (123 : UInt8) ∉ s → cutOpen (s ++ 123 :: 123 :: r) = some (s, r)
  | [], r, _ => by simp [cutOpen, hasPrefix, lit, List.isPrefixOf]
  | c :: s, r, h => by
    have hc : c ≠ 123 := fun e => h (by simp [e])
    have : hasPrefix (c :: (s ++ 123 :: 123 :: r)) (lit "{{") = false := by
      simp [hasPrefix, lit, List.isPrefixOf]; intro e; exact absurd e.symm hc
    rw [List.cons_append, cutOpen, this, cutOpen_text r (fun e => h (by simp [e]))]; rfl

/-- An action starts neither with a trim marker nor with a comment. -/
theorem toks_head {ts : List TTok} (hok : ToksOk ts) (rest : Str) :
    ∃ c r, toksText ts rest = c :: r ∧ c ≠ 45 ∧ c ≠ 47 := by
  cases ts with
  | nil => exact ⟨125, 125 :: rest, rfl, by decide, by decide⟩
  | cons t ts =>
    rw [toksText_cons]
    cases t with
    | sp => exact ⟨32, _, rfl, by decide, by decide⟩
    | field n => exact ⟨46, _, rfl, by decide, by decide⟩
    | str s => exact ⟨34, _, rfl, by decide, by decide⟩
    | pipe => exact ⟨124, _, rfl, by decide, by decide⟩
    | word n =>
      obtain ⟨c, r, rfl, h1, _⟩ := field_head hok.1
      have := alnum_cases h1
      exact ⟨c, _, rfl, this.2.2.2.2.2.1, this.2.2.2.2.2.2⟩

theorem toks_length {ts : List TTok} (hok : ToksOk ts) (rest : Str) : ts.length < (toksText ts rest).length + 1 := by
  have : ts.length ≤ (ts.flatMap tokText).length := by
    induction ts with
    | nil => simp
    | cons t ts ih =>
      have h1 : 1 ≤ (tokText t).length := by
        cases t with
        | word n => obtain ⟨c, r, rfl, _⟩ := field_head hok.1; simp [tokText]
        | _ => simp [tokText]
      have := ih hok.2.2
      simp only [List.flatMap_cons, List.length_append, List.length_cons]; omega
  simp only [toksText, List.length_append]; omega

theorem tLex_act {ts : List TTok} (hok : ToksOk ts) {t rest : Str} (ht : (123 : UInt8) ∉ t) {f : Nat} {is : List TItem}
    (h : tLex f rest = .ok is) :
    tLex (f + 1) (t ++ itemText (.act ts) ++ rest) = .ok ((if t = [] then [] else [.text t]) ++ .act ts :: is) := by
  obtain ⟨c, r, he, h1, h2⟩ := toks_head hok rest
  have e : t ++ itemText (.act ts) ++ rest = t ++ 123 :: 123 :: toksText ts rest := by simp [itemText, toksText]
  have hl := tLexAction_toks ts _ rest (toks_length hok rest) hok
  have hm : (decide ((toksText ts rest).headD 0 = 45) && tSpace (((toksText ts rest).drop 1).headD 0)) = false := by
    rw [he]; simp [h1]
  have hc : hasPrefix (toksText ts rest) (lit "/*") = false := by
    rw [he]; simp [hasPrefix, lit, List.isPrefixOf]; intro x; exact absurd x.symm h2
  rw [e, tLex, cutOpen_text _ ht]
  simp only [hm, hc, hl, h, Bool.false_eq_true, if_false]

/-- The items that are written are read. -/
theorem tLex_items : ∀ (is : List TItem) (f : Nat), is.length < f → (∀ i ∈ is, ItemOk i) →
    is.IsChain (fun a b => ¬ (itemIsText a = true ∧ itemIsText b = true)) → tLex f (is.flatMap itemText) = .ok is
  | [], f, hf, _, _ => by
    obtain ⟨f, rfl⟩ : ∃ g, f = g + 1 := ⟨f - 1, by simp at hf; omega⟩
    simp [tLex, cutOpen]
  | .act ts :: is, f, hf, hok, hch => by
    obtain ⟨f, rfl⟩ : ∃ g, f = g + 1 := ⟨f - 1, by simp at hf; omega⟩
    have ih := tLex_items is f (by simp at hf; omega) (fun i hi => hok i (by simp [hi])) hch.tail
    have := tLex_act (t := []) (ts := ts) (hok (.act ts) (by simp)) (by simp) ih
    simpa using this
  | [.text s], f, hf, hok, _ => by
    obtain ⟨f, rfl⟩ : ∃ g, f = g + 1 := ⟨f - 1, by simp at hf; omega⟩
    obtain ⟨h1, h2⟩ : s ≠ [] ∧ (123 : UInt8) ∉ s := hok (.text s) (by simp)
    rw [tLex]
    simp [itemText, cutOpen_none h2, h1]
  | .text s :: .text s' :: is, f, _, _, hch => by
    have := (List.isChain_cons_cons.mp hch).1
    simp [itemIsText] at this
  | .text s :: .act ts :: is, f, hf, hok, hch => by
    obtain ⟨f, rfl⟩ : ∃ g, f = g + 1 := ⟨f - 1, by simp at hf; omega⟩
    obtain ⟨h1, h2⟩ : s ≠ [] ∧ (123 : UInt8) ∉ s := hok (.text s) (by simp)
    have ih := tLex_items is f (by simp at hf; omega) (fun i hi => hok i (by simp [hi])) hch.tail.tail
    have := tLex_act (t := s) (ts := ts) (hok (.act ts) (by simp)) h2 ih
    rw [if_neg h1] at this
    simp only [List.flatMap_cons, ← List.append_assoc]
    simpa [itemText] using this

/-! ## The written pieces as items -/

def pathToks (p : List Str) : List TTok := p.map .field

def actToks : TAction → List TTok
  | .field p => pathToks p
  | .fallback p d => pathToks p ++ [.sp, .pipe, .sp, .word (lit "default"), .sp, .str d]
  | .quoted p => pathToks p ++ [.sp, .pipe, .sp, .word (lit "quote")]
  | .joined sep ps => [.word (lit "join"), .sp, .str sep] ++ ps.flatMap fun p => .sp :: pathToks p

def spTok (b : Bool) : List TTok := if b then [.sp] else []

def leafItem : TLeaf → TItem
  | .text s => .text s
  | .act a l r => .act (spTok l ++ actToks a ++ spTok r)

def condToks (p : List Str) : List TTok := [.word (lit "if"), .sp] ++ pathToks p

def pieceItems : TPiece → List TItem
  | .leaf l => [leafItem l]
  | .cond p yes no => [.act (condToks p)] ++ yes.map leafItem ++ (if no.isEmpty then [] else .act [.word (lit "else")] :: no.map leafItem)
      ++ [.act [.word (lit "end")]]

theorem pathToks_text (p : List Str) : (pathToks p).flatMap tokText = chainText p := by
  rw [pathToks, List.flatMap_map]; rfl

theorem actToks_text (a : TAction) : (actToks a).flatMap tokText = a.written := by
  cases a with
  | field p => exact pathToks_text p
  | fallback p d => rw [actToks, List.flatMap_append, pathToks_text]; simp [TAction.written, tokText, lit]
  | quoted p => rw [actToks, List.flatMap_append, pathToks_text]; simp [TAction.written, tokText, lit]
  | joined sep ps =>
    have : (ps.flatMap fun p => TTok.sp :: pathToks p).flatMap tokText = ps.flatMap fun p => 32 :: chainText p := by
      rw [List.flatMap_assoc]
      refine List.flatMap_congr fun p _ => ?_
      rw [List.flatMap_cons, pathToks_text]; rfl
    rw [actToks, List.flatMap_append, this]; simp [TAction.written, tokText, lit]

theorem leafItem_text (l : TLeaf) : itemText (leafItem l) = l.written := by
  cases l with
  | text s => rfl
  | act a l r =>
    have h (b : Bool) : (spTok b).flatMap tokText = blank b := by cases b <;> rfl
    simp only [leafItem, itemText, TLeaf.written, List.flatMap_append, actToks_text, h, lit]
    simp

theorem leaves_text (ls : List TLeaf) : (ls.map leafItem).flatMap itemText = ls.flatMap TLeaf.written := by
  rw [List.flatMap_map]; exact List.flatMap_congr fun l _ => leafItem_text l

theorem pieceItems_text (p : TPiece) : (pieceItems p).flatMap itemText = p.written := by
  cases p with
  | leaf l => simp [pieceItems, TPiece.written, leafItem_text]
  | cond p yes no =>
    have h1 : itemText (.act (condToks p)) = lit "{{if " ++ chainText p ++ lit "}}" := by
      simp only [itemText, condToks, List.flatMap_append, pathToks_text]; simp [tokText, lit]
    have h2 : itemText (.act [.word (lit "end")]) = lit "{{end}}" := by decide
    have h3 : itemText (.act [.word (lit "else")]) = lit "{{else}}" := by decide
    simp only [pieceItems, TPiece.written, List.flatMap_append, leaves_text, List.flatMap_cons, List.flatMap_nil, h1, h2, List.append_nil]
    cases no with
    | nil => simp
    | cons x xs => simp only [List.isEmpty_cons, Bool.false_eq_true, if_false, List.flatMap_cons, h3, leaves_text]

theorem toksOk_append {a b : List TTok} (ha : ToksOk a) (hb : ToksOk b)
    (h : ∀ t, a.getLast? = some t → TokNext t b) : ToksOk (a ++ b) := by
  induction a with
  | nil => exact hb
  | cons t a ih =>
    refine ⟨ha.1, ?_, ih ha.2.2 (fun u hu => h u ?_)⟩
    · cases a with
      | nil => exact h t rfl
      | cons u a =>
        have := ha.2.1
        cases t <;> simp_all [TokNext]
    · cases a with
      | nil => simp at hu
      | cons v a => simpa [List.getLast?_cons_cons] using hu

theorem toksOk_path {p : List Str} (h : ∀ n ∈ p, FieldName n) : ToksOk (pathToks p) := by
  induction p with
  | nil => trivial
  | cons n p ih =>
    refine ⟨h n (by simp), ?_, ih (fun m hm => h m (by simp [hm]))⟩
    cases p <;> simp [pathToks, TokNext]

theorem path_last {p : List Str} {t : TTok} (h : (pathToks p).getLast? = some t) : ∃ n, t = .field n := by
  rw [pathToks, List.getLast?_map] at h
  cases hl : p.getLast? with
  | none => rw [hl] at h; simp at h
  | some n => rw [hl] at h; simp at h; exact ⟨n, h.symm⟩

theorem toksOk_actToks {a : TAction} (h : a.Ok) : ToksOk (actToks a) := by
  have hd : FieldName (lit "default") := by unfold FieldName; decide +kernel
  have hq : FieldName (lit "quote") := by unfold FieldName; decide +kernel
  have hj : FieldName (lit "join") := by unfold FieldName; decide +kernel
  cases a with
  | field p => exact toksOk_path h.2
  | fallback p d =>
    refine toksOk_append (toksOk_path h.1.2) ?_ ?_
    · simp [ToksOk, TokOk, TokNext, hd, h.2]
    · intro t ht; obtain ⟨n, rfl⟩ := path_last ht; simp [TokNext]
  | quoted p =>
    refine toksOk_append (toksOk_path h.2) ?_ ?_
    · simp [ToksOk, TokOk, TokNext, hq]
    · intro t ht; obtain ⟨n, rfl⟩ := path_last ht; simp [TokNext]
  | joined sep ps =>
    have : ∀ (ps : List (List Str)), (∀ p ∈ ps, PathOk p) → ToksOk (ps.flatMap fun p => TTok.sp :: pathToks p) := by
      intro ps
      induction ps with
      | nil => intro _; trivial
      | cons p ps ih =>
        intro hps
        have hp := hps p (by simp)
        rw [List.flatMap_cons]
        refine toksOk_append ⟨trivial, ?_, toksOk_path hp.2⟩ (ih fun q hq => hps q (by simp [hq])) ?_
        · cases p with
          | nil => exact absurd rfl hp.1
          | cons n p => simp [pathToks, TokNext]
        · intro t ht
          have : ∃ n, t = .field n := by
            cases p with
            | nil => exact absurd rfl hp.1
            | cons n p =>
              refine path_last (p := n :: p) ?_
              simpa [pathToks, List.getLast?_cons_cons] using ht
          obtain ⟨n, rfl⟩ := this
          cases ps <;> simp [TokNext]
    refine toksOk_append ?_ (this ps h.2) ?_
    · simp [ToksOk, TokOk, TokNext, hj, h.1]
    · intro t ht; simp at ht; subst ht; trivial

theorem actToks_ends (a : TAction) (h : a.Ok) : (actToks a).head? ≠ some .sp ∧ ∀ t, (actToks a).getLast? = some t → t ≠ .sp := by
  have hp : ∀ p : List Str, PathOk p → ∀ r : List TTok, (pathToks p ++ r).head? ≠ some .sp := by
    intro p hp r
    cases p with
    | nil => exact absurd rfl hp.1
    | cons n p => simp [pathToks]
  cases a with
  | field p =>
    refine ⟨by simpa [actToks] using hp p h [], fun t ht => ?_⟩
    obtain ⟨n, rfl⟩ := path_last ht; simp
  | fallback p d =>
    refine ⟨hp p h.1 _, fun t ht => ?_⟩
    simp [actToks] at ht; simp [← ht]
  | quoted p =>
    refine ⟨hp p h _, fun t ht => ?_⟩
    simp [actToks] at ht; simp [← ht]
  | joined sep ps =>
    refine ⟨by simp [actToks], fun t ht => ?_⟩
    cases hl : ps.getLast? with
    | none =>
      rw [List.getLast?_eq_none_iff] at hl
      subst hl
      simp [actToks] at ht; simp [← ht]
    | some p =>
      obtain ⟨qs, rfl⟩ := List.getLast?_eq_some_iff.mp hl
      have hpo := h.2 p (by simp)
      have e : actToks (.joined sep (qs ++ [p])) =
          ([.word (lit "join"), .sp, .str sep] ++ (qs.flatMap fun p => .sp :: pathToks p) ++ [.sp]) ++ pathToks p := by
        simp [actToks]
      have hne : pathToks p ≠ [] := by cases p with
        | nil => exact absurd rfl hpo.1
        | cons n p => simp [pathToks]
      rw [e, List.getLast?_append_of_ne_nil _ hne] at ht
      obtain ⟨n, rfl⟩ := path_last ht; simp

theorem leafItem_ok {l : TLeaf} (h : l.Ok) : ItemOk (leafItem l) := by
  cases l with
  | text s => exact h
  | act a l r =>
    obtain ⟨h1, h2⟩ := actToks_ends a h
    have hr : ToksOk (spTok r) := by cases r <;> simp [spTok, ToksOk, TokOk, TokNext]
    have hl : ToksOk (spTok l) := by cases l <;> simp [spTok, ToksOk, TokOk, TokNext]
    have ha := toksOk_actToks h
    show ToksOk (spTok l ++ actToks a ++ spTok r)
    refine toksOk_append (toksOk_append hl ha ?_) hr ?_
    · intro t ht
      cases l with
      | false => simp [spTok] at ht
      | true => simp [spTok] at ht; subst ht; exact h1
    · intro t ht
      by_cases hn : actToks a = []
      · rw [hn, List.append_nil] at ht
        cases a with
        | field p => simp [actToks, pathToks] at hn; exact absurd hn h.1
        | _ => simp [actToks] at hn
      · rw [List.getLast?_append_of_ne_nil _ hn] at ht
        have := h2 t ht
        cases t <;> cases r <;> simp_all [spTok, TokNext]

theorem pieceItems_ok {p : TPiece} (h : p.Ok) : ∀ i ∈ pieceItems p, ItemOk i := by
  cases p with
  | leaf l => intro i hi; simp [pieceItems] at hi; subst hi; exact leafItem_ok h
  | cond p yes no =>
    obtain ⟨hp, hy, _, hn, _⟩ := h
    have hif : FieldName (lit "if") := by unfold FieldName; decide +kernel
    have hel : FieldName (lit "else") := by unfold FieldName; decide +kernel
    have hen : FieldName (lit "end") := by unfold FieldName; decide +kernel
    have hc : ItemOk (.act (condToks p)) := by
      show ToksOk _
      refine toksOk_append ?_ (toksOk_path hp.2) ?_
      · simp [ToksOk, TokOk, TokNext, hif]
      · intro t ht
        simp at ht; subst ht
        cases p with
        | nil => exact absurd rfl hp.1
        | cons n p => simp [pathToks, TokNext]
    intro i hi
    simp only [pieceItems, List.mem_append, List.mem_singleton, List.mem_map] at hi
    rcases hi with ((rfl | ⟨l, hl, rfl⟩) | hi) | rfl
    · exact hc
    · exact leafItem_ok (hy l hl)
    · split at hi
      · simp at hi
      · rw [List.mem_cons, List.mem_map] at hi
        rcases hi with rfl | ⟨l, hl, rfl⟩
        · simp [ItemOk, ToksOk, TokOk, TokNext, hel]
        · exact leafItem_ok (hn l hl)
    · simp [ItemOk, ToksOk, TokOk, TokNext, hen]

theorem leafItem_isText (l : TLeaf) : itemIsText (leafItem l) = l.isText := by cases l <;> rfl

abbrev ItemChain (is : List TItem) : Prop := is.IsChain (fun a b => ¬ (itemIsText a = true ∧ itemIsText b = true))

theorem chain_leaves {ls : List TLeaf} (h : OnePiece ls) : ItemChain (ls.map leafItem) := by
  rw [ItemChain, List.isChain_map]
  simp only [leafItem_isText]; exact h

theorem chain_append {a b : List TItem} (ha : ItemChain a) (hb : ItemChain b)
    (h : (∀ x ∈ a.getLast?, itemIsText x = false) ∨ ∀ x ∈ b.head?, itemIsText x = false) : ItemChain (a ++ b) := by
  rw [ItemChain, List.isChain_append]
  refine ⟨ha, hb, fun x hx y hy => ?_⟩
  rcases h with h | h
  · rw [h x hx]; simp
  · rw [h y hy]; simp

theorem chain_piece {p : TPiece} (h : p.Ok) : ItemChain (pieceItems p) := by
  cases p with
  | leaf l => simp [pieceItems]
  | cond p yes no =>
    obtain ⟨_, _, hy, _, hn⟩ := h
    refine chain_append (chain_append (chain_append (by simp) (chain_leaves hy) (.inl (by simp [itemIsText]))) ?_ (.inr ?_)) (by simp)
      (.inr (by simp [itemIsText]))
    · split
      · simp
      · exact chain_append (a := [_]) (by simp) (chain_leaves hn) (.inl (by simp [itemIsText]))
    · split
      · simp
      · simp [itemIsText]

theorem piece_ends {p : TPiece} : ∃ a b, (pieceItems p).head? = some a ∧ (pieceItems p).getLast? = some b
    ∧ itemIsText a = p.isText ∧ itemIsText b = p.isText := by
  cases p with
  | leaf l => exact ⟨_, _, rfl, rfl, leafItem_isText l, leafItem_isText l⟩
  | cond p yes no => exact ⟨_, .act [.word (lit "end")], rfl, by simp [pieceItems, List.getLast?_cons], rfl, rfl⟩

theorem chain_pieces : ∀ {ps : List TPiece}, TemplateOk ps → ItemChain (ps.flatMap pieceItems)
  | [], _ => by simp
  | [p], h => by simpa using chain_piece (h.1 p (by simp))
  | p :: q :: ps, h => by
    have ih := chain_pieces (ps := q :: ps) ⟨fun x hx => h.1 x (by simp [hx]), h.2.tail⟩
    rw [List.flatMap_cons]
    refine chain_append (chain_piece (h.1 p (by simp))) ih ?_
    have hpq := (List.isChain_cons_cons.mp h.2).1
    obtain ⟨_, b, _, hb, _, hbt⟩ := piece_ends (p := p)
    obtain ⟨a, _, ha, _, hat, _⟩ := piece_ends (p := q)
    by_cases hp : p.isText = true
    · refine .inr fun x hx => ?_
      have hh : (List.flatMap pieceItems (q :: ps)).head? = some a := by
        rw [List.flatMap_cons, List.head?_append, ha]; rfl
      rw [hh] at hx
      simp only [Option.mem_some_iff] at hx
      rw [← hx, hat]
      simpa [hp] using hpq
    · refine .inl fun x hx => ?_
      rw [hb] at hx
      simp only [Option.mem_some_iff] at hx
      rw [← hx, hbt]
      simpa using hp

/-- The pieces that are written are read as items. -/
theorem tLex_written {ps : List TPiece} (h : TemplateOk ps) :
    tLex ((ps.flatMap TPiece.written).length + 1) (ps.flatMap TPiece.written) = .ok (ps.flatMap pieceItems) := by
  have e : ps.flatMap TPiece.written = (ps.flatMap pieceItems).flatMap itemText := by
    rw [List.flatMap_assoc]; exact (List.flatMap_congr fun p _ => pieceItems_text p).symm
  have hok : ∀ i ∈ ps.flatMap pieceItems, ItemOk i := by
    intro i hi
    obtain ⟨p, hp, hi⟩ := List.mem_flatMap.mp hi
    exact pieceItems_ok (h.1 p hp) i hi
  rw [e]
  refine tLex_items _ _ ?_ hok (chain_pieces h)
  have : ∀ is : List TItem, (∀ i ∈ is, ItemOk i) → is.length ≤ (is.flatMap itemText).length := by
    intro is
    induction is with
    | nil => simp
    | cons i is ih =>
      intro hi
      have := ih (fun j hj => hi j (by simp [hj]))
      have h1 : 1 ≤ (itemText i).length := by
        cases i with
        | text s =>
          have hs : s ≠ [] := (hi (.text s) (by simp)).1
          exact List.length_pos_iff.mpr hs
        | act ts => simp [itemText]
      simp only [List.flatMap_cons, List.length_append, List.length_cons]; omega
  have := this _ hok
  omega

end Ckube
