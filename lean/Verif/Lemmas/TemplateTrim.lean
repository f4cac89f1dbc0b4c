import Verif.Lemmas.TemplateRun

/-! # Lemmas about trim markers and comments in templates -/

namespace Ckube
open Spec Json

/-- What follows the tokens of an action that ends with a trim marker. -/
def trimTail (rest : Str) : Str := 32 :: 45 :: 125 :: 125 :: rest

def toksTrim (ts : List TTok) (rest : Str) : Str := ts.flatMap tokText ++ trimTail rest

theorem toksTrim_cons (t : TTok) (ts : List TTok) (rest : Str) : toksTrim (t :: ts) rest = tokText t ++ toksTrim ts rest := by
  simp [toksTrim]

theorem toksTrim_term {t : TTok} {ts : List TTok} (ht : (∃ n, t = .field n) ∨ ∃ n, t = .word n) (h : TokNext t ts) (rest : Str) :
    ∃ c r, toksTrim ts rest = c :: r ∧ tAlnum c = false ∧ tTerm (toksTrim ts rest) = true := by
  have key : ts = [] ∨ ∃ u us, ts = u :: us ∧ (u = .sp ∨ u = .pipe ∨ ∃ n, u = .field n) := by
    cases ts with
    | nil => exact .inl rfl
    | cons u us =>
      refine .inr ⟨u, us, rfl, ?_⟩
      rcases ht with ⟨n, rfl⟩ | ⟨n, rfl⟩ <;> cases u <;> simp_all [TokNext]
  rcases key with rfl | ⟨u, us, rfl, rfl | rfl | ⟨n, rfl⟩⟩
  · exact ⟨32, 45 :: 125 :: 125 :: rest, rfl, by decide, by simp [toksTrim, trimTail, tTerm, tSpace]⟩
  · rw [toksTrim_cons]; exact ⟨32, toksTrim us rest, rfl, by decide, by simp [tTerm, tokText, tSpace]⟩
  · rw [toksTrim_cons]; exact ⟨124, toksTrim us rest, rfl, by decide, by simp [tTerm, tokText]⟩
  · rw [toksTrim_cons]; exact ⟨46, n ++ toksTrim us rest, rfl, by decide, by simp [tTerm, tokText]⟩

theorem trim_head_not_space {ts : List TTok} (hok : ToksOk ts) (hne : ts ≠ []) (hsp : ts.head? ≠ some .sp) (rest : Str) :
    ∃ c r, toksTrim ts rest = c :: r ∧ tSpace c = false ∧ c ≠ 45 := by
  cases ts with
  | nil => exact absurd rfl hne
  | cons t ts =>
    rw [toksTrim_cons]
    cases t with
    | sp => simp at hsp
    | field n => exact ⟨46, _, rfl, by decide, by decide⟩
    | str s => exact ⟨34, _, rfl, by decide, by decide⟩
    | pipe => exact ⟨124, _, rfl, by decide, by decide⟩
    | word n =>
      obtain ⟨c, r, rfl, h1, _⟩ := field_head hok.1
      have := alnum_cases h1
      exact ⟨c, _, rfl, this.2.1, this.2.2.2.2.2.1⟩

theorem tLexAction_trim : ∀ (ts : List TTok) (f : Nat) (rest : Str), ts.length < f → ToksOk ts → ts.getLast? ≠ some .sp →
    tLexAction f (toksTrim ts rest) = .ok (ts ++ [.sp], rest, true)
  | [], f, rest, hf, _, _ => by
    obtain ⟨f, rfl⟩ : ∃ g, f = g + 1 := ⟨f - 1, by simp at hf; omega⟩
    show tLexAction (f + 1) (32 :: 45 :: 125 :: 125 :: rest) = _
    have hd : (45 :: 125 :: 125 :: rest : Str).dropWhile tSpace = 45 :: 125 :: 125 :: rest := by
      rw [List.dropWhile_cons]; simp [tSpace]
    rw [tLexAction]
    simp only [hd]
    simp [hasPrefix, lit, List.isPrefixOf, tSpace]
  | t :: ts, f, rest, hf, hok, hlast => by
    obtain ⟨f, rfl⟩ : ∃ g, f = g + 1 := ⟨f - 1, by simp at hf; omega⟩
    have hlast' : ts.getLast? ≠ some .sp := by
      cases ts with
      | nil => simp
      | cons u us => rwa [List.getLast?_cons_cons] at hlast
    have ih := tLexAction_trim ts f rest (by simp at hf; omega) hok.2.2 hlast'
    rw [toksTrim_cons]
    cases t with
    | sp =>
      have hne : ts ≠ [] := by rintro rfl; simp at hlast
      obtain ⟨c, r, he, hc, hm⟩ := trim_head_not_space hok.2.2 hne hok.2.1 rest
      have hd : (toksTrim ts rest).dropWhile tSpace = toksTrim ts rest := by rw [he, List.dropWhile_cons]; simp [hc]
      have hp : hasPrefix (toksTrim ts rest) (lit "-}}") = false := by
        rw [he]; simp [hasPrefix, lit, List.isPrefixOf]; intro h; exact absurd h.symm hm
      show tLexAction (f + 1) (32 :: toksTrim ts rest) = _
      rw [tLexAction]
      simp only [hd, hp, ih]
      simp [hasPrefix, lit, List.isPrefixOf, tSpace]
    | pipe =>
      show tLexAction (f + 1) (124 :: toksTrim ts rest) = _
      rw [tLexAction]
      simp only [ih]
      simp [hasPrefix, lit, List.isPrefixOf, tSpace]
    | str s =>
      have h : ConstOk s := hok.1
      show tLexAction (f + 1) (34 :: ((s ++ [34]) ++ toksTrim ts rest)) = _
      have htw : ((s ++ [34]) ++ toksTrim ts rest).takeWhile (· ≠ 34) = s := by
        rw [List.append_assoc, List.takeWhile_append_of_pos (fun b hb => by simp; rintro rfl; exact h.1 hb)]
        simp
      rw [tLexAction]
      simp only [htw]
      have hd : ((s ++ [34]) ++ toksTrim ts rest).drop (s.length + 1) = toksTrim ts rest := by
        rw [List.drop_append_of_le_length (by simp)]; simp
      rw [hd, ih]
      simp [hasPrefix, lit, List.isPrefixOf, tSpace, h.2.1, h.2.2.1, h.2.2.2]
    | field n =>
      have h : FieldName n := hok.1
      obtain ⟨c, r, he, hc, ht⟩ := toksTrim_term (.inl ⟨n, rfl⟩) hok.2.1 rest
      have htw : (n ++ toksTrim ts rest).takeWhile tAlnum = n :=
        takeWhile_alnum h (fun c' r' e => by rw [he] at e; cases e; exact hc)
      show tLexAction (f + 1) (46 :: (n ++ toksTrim ts rest)) = _
      rw [tLexAction]
      simp only [htw, List.drop_left, ih, ht]
      obtain ⟨x, y, rfl, _, hx⟩ := field_head h
      simp [hasPrefix, lit, List.isPrefixOf, tSpace, hx]
    | word n =>
      have h : FieldName n := hok.1
      obtain ⟨c, r, he, hc, ht⟩ := toksTrim_term (.inr ⟨n, rfl⟩) hok.2.1 rest
      have htw : (n ++ toksTrim ts rest).takeWhile tAlnum = n :=
        takeWhile_alnum h (fun c' r' e => by rw [he] at e; cases e; exact hc)
      have hdr : (n ++ toksTrim ts rest).drop n.length = toksTrim ts rest := List.drop_left
      obtain ⟨x, y, rfl, hxa, hx⟩ := field_head h
      have hx' := alnum_cases hxa
      show tLexAction (f + 1) (x :: (y ++ toksTrim ts rest)) = _
      rw [List.cons_append] at htw hdr
      rw [tLexAction]
      simp only [htw, hdr, ih, ht]
      have : hasPrefix (x :: (y ++ toksTrim ts rest)) (lit "}}") = false := by
        simp [hasPrefix, lit, List.isPrefixOf]; intro h; exact absurd h.symm hx'.1
      simp [this, hx'.2.1, hx'.2.2.1, hx'.2.2.2.1, hx'.2.2.2.2.1, hx]

/-! ## Commands -/

/-- The tokens of a command that is no comment. -/
def cmdToks : TCommand → List TTok
  | .out a => actToks a
  | .iff p => condToks p
  | .els => [.word (lit "else")]
  | .fin => [.word (lit "end")]
  | .note _ => []

theorem cmdToks_text {c : TCommand} (h : c.isNote = false) : (cmdToks c).flatMap tokText = c.written := by
  cases c with
  | out a => exact actToks_text a
  | iff p =>
    simp only [cmdToks, condToks, List.flatMap_append, pathToks_text, TCommand.written]; simp [tokText, lit]
  | els => decide
  | fin => decide
  | note c => simp [TCommand.isNote] at h

theorem cmdToks_ok {c : TCommand} (h : c.Ok) : ToksOk (cmdToks c) := by
  have hif : FieldName (lit "if") := by unfold FieldName; decide +kernel
  have hel : FieldName (lit "else") := by unfold FieldName; decide +kernel
  have hen : FieldName (lit "end") := by unfold FieldName; decide +kernel
  cases c with
  | out a => exact toksOk_actToks h
  | iff p =>
    refine toksOk_append ?_ (toksOk_path h.2) ?_
    · simp [ToksOk, TokOk, TokNext, hif]
    · intro t ht
      simp at ht; subst ht
      cases p with
      | nil => exact absurd rfl h.1
      | cons n p => simp [pathToks, TokNext]
  | els => exact ⟨hel, trivial, trivial⟩
  | fin => exact ⟨hen, trivial, trivial⟩
  | note c => trivial

theorem cmdToks_last {c : TCommand} (h : c.Ok) : (cmdToks c).getLast? ≠ some .sp := by
  cases c with
  | out a => intro e; exact (actToks_ends a h).2 _ e rfl
  | iff p =>
    intro e
    have hne : pathToks p ≠ [] := by cases p with
      | nil => exact absurd rfl h.1
      | cons n p => simp [pathToks]
    rw [cmdToks, condToks, List.getLast?_append_of_ne_nil _ hne] at e
    obtain ⟨n, e⟩ := path_last e
    cases e
  | els => simp [cmdToks]
  | fin => simp [cmdToks]
  | note c => simp [cmdToks]

theorem cutComment_note : ∀ {c : Str} (r : Str), (42 : UInt8) ∉ c → cutComment (c ++ 42 :: 47 :: r) = some r
  | [], r, _ => by simp [cutComment, hasPrefix, lit, List.isPrefixOf]
  | b :: c, r, h => by
    have hb : b ≠ 42 := fun e => h (by simp [e])
    have : hasPrefix (b :: (c ++ 42 :: 47 :: r)) (lit "*/") = false := by
      simp [hasPrefix, lit, List.isPrefixOf]; intro e; exact absurd e.symm hb
    rw [List.cons_append, cutComment, this, cutComment_note r (fun e => h (by simp [e]))]; rfl

/-- `tLex` after `{{` and its trim marker. -/
def tLexRest (f : Nat) (t r : Str) : JpRes (List TItem) :=
  let head := if t = [] then [] else [TItem.text t]
  if hasPrefix r (lit "/*") then
    match cutComment (r.drop 2) with
    | none => .bad
    | some r =>
      if hasPrefix r (lit "}}") then
        match tLex f (r.drop 2) with
        | .ok is => .ok (head ++ is)
        | .bad => .bad
        | .other => .other
      else if tSpace (r.headD 0) && hasPrefix (r.drop 1) (lit "-}}") then
        match tLex f ((r.drop 4).dropWhile tSpace) with
        | .ok is => .ok (head ++ is)
        | .bad => .bad
        | .other => .other
      else .bad
  else match tLexAction (r.length + 1) r with
    | .bad => .bad
    | .other => .other
    | .ok (toks, rest, trimmed) =>
      match tLex f (if trimmed then rest.dropWhile tSpace else rest) with
      | .ok is => .ok (head ++ .act toks :: is)
      | .bad => .bad
      | .other => .other

theorem isBlank_tSpace : isBlank = tSpace := rfl

def openText (l : Bool) : Str := if l then lit "{{- " else lit "{{"

theorem tLex_open {t r : Str} (ht : (123 : UInt8) ∉ t) (l : Bool) (hr : r.headD 0 ≠ 45) (f : Nat) :
    tLex (f + 1) (t ++ openText l ++ r) = tLexRest f (trimEnd l t) r := by
  cases l with
  | false =>
    have e : t ++ openText false ++ r = t ++ 123 :: 123 :: r := by simp [openText, lit]
    rw [e, tLex, cutOpen_text _ ht]
    have hm : (decide (r.headD 0 = 45) && tSpace ((r.drop 1).headD 0)) = false := by simp only [hr, decide_false, Bool.false_and]
    simp only [hm, Bool.false_eq_true, if_false]
    rfl
  | true =>
    have e : t ++ openText true ++ r = t ++ 123 :: 123 :: 45 :: 32 :: r := by simp [openText, lit]
    rw [e, tLex, cutOpen_text _ ht]
    have hm : (decide ((45 :: 32 :: r : Str).headD 0 = 45) && tSpace (((45 :: 32 :: r : Str).drop 1).headD 0)) = true := by simp [tSpace]
    simp only [hm, if_true]
    rfl

/-- What a command leaves, with the text before it. -/
def cmdItems (t : Str) (c : TCommand) (right : Bool) : List TItem :=
  (if t = [] then [] else [TItem.text t]) ++ if c.isNote then [] else [.act (cmdToks c ++ spTok right)]

theorem written_ne_nil {c : TCommand} (hn : c.isNote = false) (h : c.Ok) : cmdToks c ≠ [] := by
  cases c with
  | out a =>
    cases a with
    | field p => simp only [cmdToks, actToks, pathToks, ne_eq, List.map_eq_nil_iff]; exact h.1
    | _ => simp [cmdToks, actToks]
  | iff p => simp [cmdToks, condToks]
  | els => simp [cmdToks]
  | fin => simp [cmdToks]
  | note c => simp [TCommand.isNote] at hn

theorem toksOk_sp {ts : List TTok} (h : ToksOk ts) (hl : ts.getLast? ≠ some .sp) (b : Bool) : ToksOk (ts ++ spTok b) := by
  refine toksOk_append h ?_ ?_
  · cases b <;> simp [spTok, ToksOk, TokOk, TokNext]
  · intro t ht
    cases t <;> cases b <;> simp_all [spTok, TokNext]

theorem toks_not_note {ts : List TTok} (h : ToksOk ts) (hne : ts ≠ []) (tail : Str) :
    hasPrefix (ts.flatMap tokText ++ tail) (lit "/*") = false := by
  cases ts with
  | nil => exact absurd rfl hne
  | cons t ts =>
    have key : ∃ c r, (t :: ts).flatMap tokText ++ tail = c :: r ∧ c ≠ 47 := by
      cases t with
      | sp => exact ⟨32, _, rfl, by decide⟩
      | field n => exact ⟨46, _, rfl, by decide⟩
      | str s => exact ⟨34, _, rfl, by decide⟩
      | pipe => exact ⟨124, _, rfl, by decide⟩
      | word n =>
        obtain ⟨c, r, rfl, h1, _⟩ := field_head h.1
        exact ⟨c, _, rfl, (alnum_cases h1).2.2.2.2.2.2⟩
    obtain ⟨c, r, e, hc⟩ := key
    rw [e]; simp [hasPrefix, lit, List.isPrefixOf]; intro x; exact absurd x.symm hc

/-- A command with a marker at its end. -/
theorem tLexRest_marked {c : TCommand} (h : c.Ok) (t rest : Str) {f : Nat} {is : List TItem} (hr : tLex f (rest.dropWhile tSpace) = .ok is) :
    tLexRest f t (c.written ++ lit " -}}" ++ rest) = .ok (cmdItems t c true ++ is) := by
  by_cases hn : c.isNote = true
  · cases c with
    | note c =>
      have e : (TCommand.note c).written ++ lit " -}}" ++ rest = 47 :: 42 :: (c ++ 42 :: 47 :: (32 :: 45 :: 125 :: 125 :: rest)) := by
        simp [TCommand.written, lit]
      rw [e, tLexRest]
      have h1 : hasPrefix (47 :: 42 :: (c ++ 42 :: 47 :: (32 :: 45 :: 125 :: 125 :: rest))) (lit "/*") = true := by
        simp [hasPrefix, lit, List.isPrefixOf]
      have h2 : hasPrefix (32 :: 45 :: 125 :: 125 :: rest) (lit "}}") = false := by simp [hasPrefix, lit, List.isPrefixOf]
      have h3 : (tSpace ((32 :: 45 :: 125 :: 125 :: rest : Str).headD 0) && hasPrefix ((32 :: 45 :: 125 :: 125 :: rest : Str).drop 1) (lit "-}}")) = true := by
        simp [hasPrefix, lit, List.isPrefixOf, tSpace]
      simp only [h1, if_true, List.drop_succ_cons, List.drop_zero] at h3 ⊢
      rw [cutComment_note _ h]
      simp only [h2, Bool.false_eq_true, if_false, h3, if_true, List.drop_succ_cons, List.drop_zero, hr]
      simp [cmdItems, TCommand.isNote]
    | _ => simp [TCommand.isNote] at hn
  · rw [Bool.not_eq_true] at hn
    have hok := cmdToks_ok h
    have e : c.written ++ lit " -}}" ++ rest = toksTrim (cmdToks c) rest := by
      rw [toksTrim, cmdToks_text hn]; simp [trimTail, lit]
    rw [e, tLexRest]
    have h1 : hasPrefix (toksTrim (cmdToks c) rest) (lit "/*") = false := toks_not_note hok (written_ne_nil hn h) _
    have h2 := tLexAction_trim (cmdToks c) ((toksTrim (cmdToks c) rest).length + 1) rest (by
      have := toks_length hok rest
      simp only [toksText, toksTrim, trimTail, List.length_append, List.length_cons] at this ⊢; omega) hok (cmdToks_last h)
    simp only [h1, Bool.false_eq_true, if_false, h2, if_true, hr]
    simp [cmdItems, hn, spTok]

/-- A command without a marker at its end. -/
theorem tLexRest_unmarked {c : TCommand} (h : c.Ok) (t rest : Str) (b : Bool) {f : Nat} {is : List TItem} (hr : tLex f rest = .ok is) :
    tLexRest f t (c.written ++ blank (b && !c.isNote) ++ lit "}}" ++ rest) = .ok (cmdItems t c b ++ is) := by
  by_cases hn : c.isNote = true
  · cases c with
    | note c =>
      have e : (TCommand.note c).written ++ blank (b && !(TCommand.note c).isNote) ++ lit "}}" ++ rest
          = 47 :: 42 :: (c ++ 42 :: 47 :: (125 :: 125 :: rest)) := by
        simp [TCommand.written, TCommand.isNote, blank, lit]
      rw [e, tLexRest]
      have h1 : hasPrefix (47 :: 42 :: (c ++ 42 :: 47 :: (125 :: 125 :: rest))) (lit "/*") = true := by
        simp [hasPrefix, lit, List.isPrefixOf]
      have h2 : hasPrefix (125 :: 125 :: rest) (lit "}}") = true := by simp [hasPrefix, lit, List.isPrefixOf]
      simp only [h1, if_true, List.drop_succ_cons, List.drop_zero]
      rw [cutComment_note _ h]
      simp only [h2, if_true, List.drop_succ_cons, List.drop_zero, hr]
      simp [cmdItems, TCommand.isNote]
    | _ => simp [TCommand.isNote] at hn
  · rw [Bool.not_eq_true] at hn
    have hok := toksOk_sp (cmdToks_ok h) (cmdToks_last h) b
    have hb : (spTok b).flatMap tokText = blank b := by cases b <;> rfl
    have e : c.written ++ blank (b && !c.isNote) ++ lit "}}" ++ rest = toksText (cmdToks c ++ spTok b) rest := by
      rw [toksText, List.flatMap_append, cmdToks_text hn, hb, hn]; simp [lit]
    rw [e, tLexRest]
    have h1 : hasPrefix (toksText (cmdToks c ++ spTok b) rest) (lit "/*") = false :=
      toks_not_note hok (by simp [written_ne_nil hn h]) _
    have h2 := tLexAction_toks _ _ rest (toks_length hok rest) hok
    simp only [h1, Bool.false_eq_true, if_false, h2, hr]
    simp [cmdItems, hn]

theorem cmd_not_dash {c : TCommand} (h : c.Ok) (tail : Str) : (c.written ++ tail).headD 0 ≠ 45 := by
  by_cases hn : c.isNote = true
  · cases c with
    | note c => simp [TCommand.written, lit]
    | _ => simp [TCommand.isNote] at hn
  · rw [Bool.not_eq_true] at hn
    rw [← cmdToks_text hn]
    have hok := cmdToks_ok h
    have hne := written_ne_nil hn h
    cases hc : cmdToks c with
    | nil => exact absurd hc hne
    | cons t ts =>
      rw [hc] at hok
      cases t with
      | word n =>
        obtain ⟨x, r, rfl, h1, _⟩ := field_head hok.1
        simpa [tokText] using (alnum_cases h1).2.2.2.2.2.1
      | _ => simp [tokText]

theorem trimStart_mem {b : Bool} {s : Str} {x : UInt8} (h : x ∈ trimStart b s) : x ∈ s := by
  cases b with
  | false => exact h
  | true => exact (List.dropWhile_suffix _).subset h

theorem trimEnd_mem {b : Bool} {s : Str} {x : UInt8} (h : x ∈ trimEnd b s) : x ∈ s := by
  cases b with
  | false => exact h
  | true =>
    have : x ∈ (s.reverse.dropWhile isBlank).reverse := h
    rw [List.mem_reverse] at this
    simpa using (List.dropWhile_suffix _).subset this

theorem trimStart_append (b : Bool) (s r : Str) : trimStart b (s ++ 123 :: r) = trimStart b s ++ 123 :: r := by
  cases b with
  | false => rfl
  | true =>
    show (s ++ 123 :: r).dropWhile isBlank = s.dropWhile isBlank ++ 123 :: r
    induction s with
    | nil => rw [List.nil_append, List.dropWhile_cons]; simp [isBlank]
    | cons c s ih =>
      rw [List.cons_append, List.dropWhile_cons, List.dropWhile_cons]
      split
      · exact ih
      · rfl

/-! ## The parser -/

theorem tAct_cond_sp {p : List Str} (h : p ≠ []) (r : Bool) : tAct (condToks p ++ spTok r) = .ok (.cond [.val (.field p)]) := by
  have e : condToks p ++ spTok r = .word (lit "if") :: .sp :: (pathToks p ++ spTok r) := rfl
  have hnp : TTok.pipe ∉ (.sp :: (pathToks p ++ spTok r) : List TTok) := by
    have := no_pipe_path p
    cases r <;> simp [spTok, this]
  have hc : tCmd true (.sp :: (pathToks p ++ spTok r)) = .ok (.val (.field p)) := by
    have := tCmd_path h (sps := spTok r) (by cases r <;> simp [spTok])
    rw [tCmd, tArgs]
    rwa [tCmd] at this
  have hp : tPipe (.sp :: (pathToks p ++ spTok r)) = .ok [.val (.field p)] := by
    rw [tPipe, tSplit_nil_pipe hnp]
    simp only [tCmds, hc]
  rw [tAct, e]
  simp only [List.dropWhile_cons, hp]
  simp [hp]

theorem tAct_cmd {c : TCommand} (h : c.Ok) (hn : c.isNote = false) (r : Bool) : tAct (cmdToks c ++ spTok r) ≠ .other := by
  cases c with
  | out a =>
    have := tAct_act h false r
    rw [show spTok false = [] from rfl, List.nil_append] at this
    rw [cmdToks, this]; simp
  | iff p => rw [cmdToks, tAct_cond_sp h.1]; simp
  | els => cases r <;> simp [cmdToks, spTok, tAct, lit]
  | fin => cases r <;> simp [cmdToks, spTok, tAct, lit]
  | note c => simp [TCommand.isNote] at hn

def ActsOk (is : List TItem) : Prop := ∀ toks, .act toks ∈ is → tAct toks ≠ .other

theorem ActsOk.suffix {a b : List TItem} (h : ActsOk b) (hs : a <:+ b) : ActsOk a := fun t ht => h t (hs.subset ht)

/-- The parser has enough fuel, and what it leaves is shorter unless it reached the end. -/
theorem tNodes_total : ∀ (f : Nat),
    (∀ is, ActsOk is → 2 * is.length + 1 ≤ f → tNodes f is ≠ .other ∧ ∀ ns e r, tNodes f is = .ok (ns, e, r) → r <:+ is ∧ (e = .eof ∨ r.length < is.length))
    ∧ ∀ p is, ActsOk is → 2 * is.length + 2 ≤ f → tIf f p is ≠ .other ∧ ∀ n r, tIf f p is = .ok (n, r) → r <:+ is := by
  intro f
  induction f with
  | zero => exact ⟨fun _ _ h => by omega, fun _ _ _ h => by omega⟩
  | succ f ih =>
    obtain ⟨i1, i2⟩ := ih
    constructor
    · intro is hok hf
      cases is with
      | nil => rw [tNodes]; exact ⟨by simp, fun ns e r h => by simp only [JpRes.ok.injEq, Prod.mk.injEq] at h; exact ⟨by rw [← h.2.2], .inl h.2.1.symm⟩⟩
      | cons i is =>
        have hs : ActsOk is := hok.suffix (List.suffix_cons _ _)
        have hlen : 2 * is.length + 3 ≤ f + 1 := by rw [List.length_cons] at hf; omega
        cases i with
        | text s =>
          rw [tNodes]
          obtain ⟨j1, j2⟩ := i1 is hs (by omega)
          cases hx : tNodes f is with
          | other => exact absurd hx j1
          | bad => exact ⟨by simp, by simp⟩
          | ok x =>
            refine ⟨by simp, fun ns e r h => ?_⟩
            simp only [JpRes.ok.injEq, Prod.mk.injEq] at h
            obtain ⟨k1, k2⟩ := j2 x.1 x.2.1 x.2.2 hx
            rw [h.2] at k1 k2
            refine ⟨k1.trans (List.suffix_cons _ _), k2.imp id fun k => ?_⟩
            rw [List.length_cons]; simp only at k; omega
        | act toks =>
          rw [tNodes]
          have ht := hok toks List.mem_cons_self
          cases ha : tAct toks with
          | other => exact absurd ha ht
          | bad => exact ⟨by simp, by simp⟩
          | ok a =>
            cases a with
            | fin | els | elseIf =>
              refine ⟨by simp, fun ns e r h => ?_⟩
              simp only [JpRes.ok.injEq, Prod.mk.injEq] at h
              rw [← h.2.2]
              exact ⟨List.suffix_cons _ _, .inr (by simp)⟩
            | pipe p =>
              obtain ⟨j1, j2⟩ := i1 is hs (by omega)
              simp only
              cases hx : tNodes f is with
              | other => exact absurd hx j1
              | bad => exact ⟨by simp, by simp⟩
              | ok x =>
                refine ⟨by simp, fun ns e r h => ?_⟩
                simp only [JpRes.ok.injEq, Prod.mk.injEq] at h
                obtain ⟨k1, k2⟩ := j2 x.1 x.2.1 x.2.2 hx
                rw [h.2] at k1 k2
                refine ⟨k1.trans (List.suffix_cons _ _), k2.imp id fun k => ?_⟩
                rw [List.length_cons]; simp only at k; omega
            | cond p =>
              obtain ⟨j1, j2⟩ := i2 p is hs (by omega)
              simp only
              cases hy : tIf f p is with
              | other => exact absurd hy j1
              | bad => exact ⟨by simp, by simp⟩
              | ok y =>
                obtain ⟨n, is'⟩ := y
                have hsuf := j2 n is' hy
                have hle := hsuf.length_le
                obtain ⟨j1, j2⟩ := i1 is' (hs.suffix hsuf) (by omega)
                simp only
                cases hx : tNodes f is' with
                | other => exact absurd hx j1
                | bad => exact ⟨by simp, by simp⟩
                | ok x =>
                  refine ⟨by simp, fun ns e r h => ?_⟩
                  simp only [JpRes.ok.injEq, Prod.mk.injEq] at h
                  obtain ⟨k1, k2⟩ := j2 x.1 x.2.1 x.2.2 hx
                  rw [h.2] at k1 k2
                  refine ⟨(k1.trans hsuf).trans (List.suffix_cons _ _), k2.imp id fun k => ?_⟩
                  rw [List.length_cons]; simp only at k; omega
    · intro p is hok hf
      rw [tIf]
      obtain ⟨j1, j2⟩ := i1 is hok (by omega)
      cases hx : tNodes f is with
      | other => exact absurd hx j1
      | bad => exact ⟨by simp, by simp⟩
      | ok x =>
        obtain ⟨yes, e, is'⟩ := x
        obtain ⟨k1, k2⟩ := j2 _ _ _ hx
        have hle := k1.length_le
        cases e with
        | eof => exact ⟨by simp, by simp⟩
        | fin =>
          refine ⟨by simp, fun n r h => ?_⟩
          simp only [JpRes.ok.injEq, Prod.mk.injEq] at h
          rw [← h.2]; exact k1
        | elseIf q =>
          have k2 : is'.length < is.length := by rcases k2 with k2 | k2; cases k2; exact k2
          obtain ⟨l1, l2⟩ := i2 q is' (hok.suffix k1) (by omega)
          simp only
          cases hy : tIf f q is' with
          | other => exact absurd hy l1
          | bad => exact ⟨by simp, by simp⟩
          | ok y =>
            refine ⟨by simp, fun n r h => ?_⟩
            simp only [JpRes.ok.injEq, Prod.mk.injEq] at h
            rw [← h.2]; exact (l2 y.1 y.2 hy).trans k1
        | els =>
          obtain ⟨l1, l2⟩ := i1 is' (hok.suffix k1) (by omega)
          simp only
          cases hy : tNodes f is' with
          | other => exact absurd hy l1
          | bad => exact ⟨by simp, by simp⟩
          | ok y =>
            obtain ⟨no, e, is''⟩ := y
            have k3 := (l2 _ _ _ hy).1
            cases e with
            | fin =>
              refine ⟨by simp, fun n r h => ?_⟩
              simp only [JpRes.ok.injEq, Prod.mk.injEq] at h
              rw [← h.2]; exact k3.trans k1
            | _ => exact ⟨by simp, by simp⟩

/-- A template with markers is read as the template without them. -/
theorem tLex_markers : ∀ (ms : List Marked) (b : Bool) (last : Str), (∀ m ∈ ms, m.Ok) → (123 : UInt8) ∉ last →
    ∃ is, ActsOk is ∧ ∀ f, ms.length < f → tLex f (trimStart b (markedText ms last)) = .ok is ∧ tLex f (unmarkedText b ms last) = .ok is
  | [], b, last, _, hl => by
    have h : (123 : UInt8) ∉ trimStart b last := fun h => hl (trimStart_mem h)
    refine ⟨if trimStart b last = [] then [] else [.text (trimStart b last)], fun t ht => by split at ht <;> simp at ht, fun f hf => ?_⟩
    obtain ⟨f, rfl⟩ : ∃ g, f = g + 1 := ⟨f - 1, by simp at hf; omega⟩
    constructor <;>
    · simp only [markedText, unmarkedText]
      rw [tLex, cutOpen_none h]
  | m :: ms, b, last, hok, hl => by
    obtain ⟨h1, h2⟩ := hok m List.mem_cons_self
    obtain ⟨is, ha, hi⟩ := tLex_markers ms m.right last (fun x hx => hok x (List.mem_cons_of_mem _ hx)) hl
    have ht : (123 : UInt8) ∉ trimStart b m.before := fun h => h1 (trimStart_mem h)
    refine ⟨cmdItems (trimEnd m.left (trimStart b m.before)) m.cmd m.right ++ is, ?_, fun f hf => ?_⟩
    · intro t ht'
      rcases List.mem_append.mp ht' with ht' | ht'
      · rw [cmdItems] at ht'
        by_cases hn : m.cmd.isNote = true
        · rw [if_pos hn, List.append_nil] at ht'; split at ht' <;> simp at ht'
        · rw [if_neg hn] at ht'
          have : t = cmdToks m.cmd ++ spTok m.right := by split at ht' <;> simpa using ht'
          rw [this]; exact tAct_cmd h2 (by simpa using hn) _
      · exact ha t ht'
    obtain ⟨f, rfl⟩ : ∃ g, f = g + 1 := ⟨f - 1, by simp at hf; omega⟩
    obtain ⟨i1, i2⟩ := hi f (by simp at hf; omega)
    constructor
    · have e : trimStart b (markedText (m :: ms) last) = trimStart b m.before ++ openText m.left
          ++ (m.cmd.written ++ ((if m.right then lit " -}}" else lit "}}") ++ markedText ms last)) := by
        have e1 : ∃ r, openText m.left = 123 :: r := by cases m.left <;> exact ⟨_, rfl⟩
        obtain ⟨r, e1⟩ := e1
        have e2 : markedText (m :: ms) last = m.before ++ 123 :: (r ++ (m.cmd.written ++ ((if m.right then lit " -}}" else lit "}}")
            ++ markedText ms last))) := by
          rw [markedText, ← openText, e1]; simp
        rw [e2, trimStart_append, e1]; simp
      rw [e, tLex_open ht _ (cmd_not_dash h2 _), ← List.append_assoc]
      cases hr : m.right with
      | true => rw [hr] at i1; rw [if_pos rfl]; exact tLexRest_marked h2 _ _ i1
      | false =>
        rw [hr] at i1
        have := tLexRest_unmarked h2 (trimEnd m.left (trimStart b m.before)) _ false i1
        simpa [blank, trimStart] using this
    · have e : unmarkedText b (m :: ms) last = trimEnd m.left (trimStart b m.before) ++ openText false
          ++ (m.cmd.written ++ (blank (m.right && !m.cmd.isNote) ++ lit "}}" ++ unmarkedText m.right ms last)) := by
        rw [unmarkedText]; simp [openText]
      rw [e, tLex_open (fun h => ht (trimEnd_mem h)) _ (cmd_not_dash h2 _)]
      have := tLexRest_unmarked h2 (trimEnd m.left (trimStart b m.before)) _ m.right i2
      simpa [trimEnd] using this

theorem marked_length (ms : List Marked) (last : Str) : ms.length ≤ (markedText ms last).length := by
  induction ms with
  | nil => simp
  | cons m ms ih =>
    have : 1 ≤ (if m.left then lit "{{- " else lit "{{").length := by cases m.left <;> decide
    simp only [markedText, List.length_append, List.length_cons]; omega

theorem unmarked_length (ms : List Marked) (b : Bool) (last : Str) : ms.length ≤ (unmarkedText b ms last).length := by
  induction ms generalizing b with
  | nil => simp
  | cons m ms ih =>
    have : 1 ≤ (lit "{{").length := by decide
    have := ih m.right
    simp only [unmarkedText, List.length_append, List.length_cons]; omega

theorem tmplParse_marked {ms : List Marked} {last : Str} (hok : ∀ m ∈ ms, m.Ok) (hl : (123 : UInt8) ∉ last) :
    tmplParse (markedText ms last) = tmplParse (unmarkedText false ms last) ∧ tmplParse (unmarkedText false ms last) ≠ .other := by
  obtain ⟨is, ha, h⟩ := tLex_markers ms false last hok hl
  have h1 := (h ((markedText ms last).length + 1) (by have := marked_length ms last; omega)).1
  have h2 := (h ((unmarkedText false ms last).length + 1) (by have := unmarked_length ms false last; omega)).2
  rw [tmplParse, tmplParse, h2]
  rw [show trimStart false (markedText ms last) = markedText ms last from rfl] at h1
  rw [h1]
  refine ⟨rfl, ?_⟩
  simp only
  have := ((tNodes_total (2 * is.length + 2)).1 is ha (by omega)).1
  cases hx : tNodes (2 * is.length + 2) is with
  | other => exact absurd hx this
  | bad => simp
  | ok x =>
    obtain ⟨ns, e, r⟩ := x
    cases e <;> simp

end Ckube
