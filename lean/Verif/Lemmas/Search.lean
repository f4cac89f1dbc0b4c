import Verif.Lemmas.Utf8
import Verif.Model.Page

/-! # Lemmas about search parts, `strings.Contains` and `strconv.Quote` -/

namespace Ckube

theorem contains_iff : ∀ {s sub : Str}, contains s sub = true ↔ sub <:+: s
  | [], sub => by simp [contains]
  | c :: s, sub => by
    rw [contains, Bool.or_eq_true, contains_iff, List.isPrefixOf_iff_prefix, List.infix_cons_iff]

/-! ## Search parts -/

theorem rawParts_double : ∀ (p cur t : Str), rawParts false cur (double p ++ t) = rawParts false (cur ++ double p) t
  | [], cur, t => by simp [double]
  | c :: p, cur, t => by
    have ih := rawParts_double p
    simp only [double, List.flatMap_cons] at ih ⊢
    by_cases h : c = partsSep
    · subst h
      simp only [if_true, List.cons_append, List.nil_append, rawParts, List.head?_cons, List.append_assoc]
      rw [ih]
      simp only [List.append_assoc, List.cons_append, List.nil_append]
    · simp only [if_neg h, List.cons_append, List.nil_append, rawParts]
      rw [ih]
      simp only [List.append_assoc, List.cons_append, List.nil_append]

theorem undouble_double : ∀ p : Str, undouble false (double p) = p
  | [] => rfl
  | c :: p => by
    have ih := undouble_double p
    simp only [double, List.flatMap_cons] at ih ⊢
    by_cases h : c = partsSep
    · subst h
      simp [undouble, ih]
    · simp [undouble, ih, h]

theorem double_head (p : Str) : (double p).head? = p.head? := by
  cases p with
  | nil => rfl
  | cons c p =>
    simp only [double, List.flatMap_cons]
    split
    · rename_i h; simp [h]
    · simp

theorem double_ne_nil {p : Str} (h : p ≠ []) : double p ≠ [] := by
  cases p with
  | nil => exact absurd rfl h
  | cons c p => simp only [double, List.flatMap_cons]; split <;> simp

theorem rawParts_join : ∀ (ps : List Str) (p cur : Str), (∀ q ∈ ps, q ≠ [] ∧ q.head? ≠ some partsSep) →
    rawParts false cur (join [partsSep] ((p :: ps).map double)) = (cur ++ double p) :: ps.map double
  | [], p, cur, _ => by
    have := rawParts_double p cur []
    simp only [List.append_nil] at this
    simp [join, this, rawParts]
  | q :: ps, p, cur, h => by
    have ih := rawParts_join ps q [] (fun x hx => h x (by simp [hx]))
    simp only [List.map_cons, join, List.append_assoc] at ih ⊢
    rw [rawParts_double]
    obtain ⟨hq, hh⟩ := h q (by simp)
    have hne : join [partsSep] (double q :: ps.map double) ≠ [] ∧
        (join [partsSep] (double q :: ps.map double)).head? = q.head? := by
      have hd := double_ne_nil hq
      have hdh := double_head q
      obtain ⟨a, l, hal⟩ := List.exists_cons_of_ne_nil hd
      rw [hal] at hdh ⊢
      cases ps <;> simp [join] <;> simpa using hdh
    obtain ⟨c, t, hct⟩ := List.exists_cons_of_ne_nil hne.1
    have hc : c ≠ partsSep := by
      have := hne.2
      rw [hct] at this
      intro hc
      subst hc
      exact hh this.symm
    rw [hct] at ih ⊢
    simp only [List.singleton_append, rawParts, List.head?_cons, if_true, if_neg hc, List.nil_append] at ih ⊢
    rw [ih]

theorem searchParts_join {ps : List Str} (hne : ∀ p ∈ ps, p ≠ [])
    (hsep : ∀ p ∈ ps.tail, p.head? ≠ some partsSep) : searchParts (joinParts ps) = ps := by
  cases ps with
  | nil => decide
  | cons p ps =>
    unfold searchParts joinParts
    rw [rawParts_join ps p [] (fun q hq => ⟨hne q (by simp [hq]), hsep q hq⟩)]
    have : (([] ++ double p) :: ps.map double).map (undouble false) = p :: ps := by
      simp only [List.nil_append, List.map_cons, undouble_double, List.map_map, List.cons.injEq, true_and]
      conv => rhs; rw [← List.map_id ps]
      exact List.map_congr_left (fun a _ => undouble_double a)
    rw [this]
    exact List.filter_eq_self.mpr (fun a ha => by simpa using hne a ha)

/-! ## Several parts -/

theorem matchLoop_none (isPrint : Nat → Bool) (m : List (Str × Str)) : ∀ (ps : List Str) (n : Nat),
    matchLoop isPrint m ps n = none ↔ ∃ p ∈ ps, match1 isPrint m p = none
  | [], n => by simp [matchLoop]
  | p :: ps, n => by
    simp only [matchLoop]
    cases h : match1 isPrint m p with
    | none => simp [h]
    | some r => simp [h, matchLoop_none isPrint m ps]

theorem matchLoop_some (isPrint : Nat → Bool) (m : List (Str × Str)) : ∀ (ps : List Str) (n k : Nat),
    matchLoop isPrint m ps n = some k → n ≤ k ∧ k ≤ n + ps.length ∧
      (k = n + ps.length ↔ ∀ p ∈ ps, match1 isPrint m p = some true)
  | [], n, k, h => by simp [matchLoop] at h; simp [h]
  | p :: ps, n, k, h => by
    simp only [matchLoop] at h
    cases hp : match1 isPrint m p with
    | none => rw [hp] at h; simp at h
    | some r =>
      rw [hp] at h
      have ih := matchLoop_some isPrint m ps _ k h
      cases r with
      | true =>
        simp only [if_true] at ih
        simp only [List.length_cons, List.mem_cons, forall_eq_or_imp, hp, true_and]
        refine ⟨by omega, by omega, ?_⟩
        rw [← ih.2.2]
        omega
      | false =>
        simp only [Bool.false_eq_true, if_false] at ih
        simp only [List.length_cons, List.mem_cons, forall_eq_or_imp, hp]
        refine ⟨by omega, by omega, ?_⟩
        simp
        omega

/-! ## Quote -/

theorem chunk1_append_ascii {a : UInt8} (ha : a < 0x80) (b : UInt8) (r s : Str) :
    chunk1 b (r ++ a :: s) = chunk1 b r := by
  have ha' : a.toNat < 0x80 := UInt8.lt_iff_toNat_lt.mp ha
  have h2 : ∀ x, is2 x a = false := by
    intro x; rw [Bool.eq_false_iff]; intro h; rw [is2_iff] at h; omega
  have h3 : ∀ x y, is3 x y a = false := by
    intro x y; rw [Bool.eq_false_iff]; intro h; rw [is3_iff] at h; omega
  have h3' : ∀ x y, is3 x a y = false := by
    intro x y; rw [Bool.eq_false_iff]; intro h; rw [is3_iff] at h; omega
  have h4 : ∀ x y z, is4 x y z a = false := by
    intro x y z; rw [Bool.eq_false_iff]; intro h; rw [is4_iff] at h; omega
  have h4' : ∀ x y z, is4 x y a z = false := by
    intro x y z; rw [Bool.eq_false_iff]; intro h; rw [is4_iff] at h; omega
  have h4'' : ∀ x y z, is4 x a y z = false := by
    intro x y z; rw [Bool.eq_false_iff]; intro h; rw [is4_iff] at h; omega
  unfold chunk1
  split
  · rfl
  · match r with
    | [] =>
      simp only [List.nil_append, h2]
      cases s with
      | nil => simp
      | cons s0 s =>
        simp only [h3']
        cases s <;> simp [h4'']
    | [r0] =>
      simp only [List.cons_append, List.nil_append, h3]
      cases s <;> simp [h4']
    | [r0, r1] =>
      simp only [List.cons_append, List.nil_append, h4]
      simp
    | r0 :: r1 :: r2 :: r => simp only [List.cons_append]

theorem chunk1_ascii {a : UInt8} (ha : a < 0x80) (r : Str) : chunk1 a r = .ascii a := by
  simp [chunk1, ha]

theorem chunksFrom_append_ascii {a : UInt8} (ha : a < 0x80) : ∀ (p : Str) (n : Nat) (s : Str), n ≤ p.length →
    chunksFrom n (p ++ a :: s) = chunksFrom n p ++ .ascii a :: chunksFrom 0 s
  | [], n, s, h => by
    have : n = 0 := by simpa using h
    subst this
    simp [chunksFrom, chunk1_ascii ha, Chunk.bytes]
  | b :: p, n + 1, s, h => by
    simp only [List.cons_append, chunksFrom]
    exact chunksFrom_append_ascii ha p n s (by simpa using h)
  | b :: p, 0, s, h => by
    simp only [List.cons_append, chunksFrom]
    rw [chunk1_append_ascii ha]
    obtain ⟨t, ht, h1, _⟩ := chunk1_bytes b p
    have hl := congrArg List.length ht
    simp only [List.length_cons, List.length_append] at hl
    rw [chunksFrom_append_ascii ha p _ s (by omega)]

/-- An ASCII byte is a character boundary. -/
theorem chunks_append_ascii {a : UInt8} (ha : a < 0x80) (p s : Str) :
    chunks (p ++ a :: s) = chunks p ++ .ascii a :: chunks s :=
  chunksFrom_append_ascii ha p 0 s (Nat.zero_le _)

/-- A chunk that is written as it is. -/
def Plain (isPrint : Nat → Bool) (c : Chunk) : Prop := quoteChunk isPrint c = c.bytes

theorem hexN_high : ∀ (n v : Nat), ∀ b ∈ hexN n v, b ≠ 34 ∧ b ≠ 92
  | 0, _ => by simp [hexN]
  | n + 1, v => by
    intro b hb
    simp only [hexN, List.mem_append, List.mem_singleton] at hb
    rcases hb with hb | rfl
    · exact hexN_high n _ b hb
    · have : ∀ k, k < 16 → hexDigit k ≠ 34 ∧ hexDigit k ≠ 92 := by decide
      exact this _ (Nat.mod_lt _ (by omega))

/-- A quoted chunk without a backslash is the chunk itself. -/
theorem plain_of_no_backslash {isPrint : Nat → Bool} {c : Chunk} (h : (92 : UInt8) ∉ quoteChunk isPrint c) :
    Plain isPrint c := by
  unfold Plain
  cases c with
  | ascii b =>
    simp only [quoteChunk, Chunk.bytes] at h ⊢
    repeat' split at h
    all_goals first | (exfalso; simp at h; done) | skip
    rename_i h1 h2
    rw [if_neg h1, if_pos h2]
  | multi r bs =>
    simp only [quoteChunk, Chunk.bytes] at h ⊢
    repeat' split at h
    all_goals first | (exfalso; simp at h) | skip
    rename_i h1
    rw [if_pos h1]
  | bad b => simp [quoteChunk] at h

theorem quote_no_quote {isPrint : Nat → Bool} {c : Chunk} (hok : c.Ok) (hc : c ≠ .ascii 34) :
    (34 : UInt8) ∉ quoteChunk isPrint c := by
  cases c with
  | ascii b =>
    have hb : b ≠ 34 := fun h => hc (by rw [h])
    simp only [quoteChunk]
    have hx := fun h => (hexN_high 2 b.toNat 34 h).1 rfl
    repeat' split
    all_goals simp_all
    exact fun h => hb h.symm
  | multi r bs =>
    have := (multi_bytes_high hok).2
    simp only [quoteChunk]
    repeat' split
    · intro h; have := this _ h; simp at this
    · intro h
      simp only [List.mem_append, List.mem_cons, List.not_mem_nil, or_false] at h
      rcases h with (h | h) | h
      · simp at h
      · simp at h
      · exact (hexN_high _ _ _ h).1 rfl
    · intro h
      simp only [List.mem_append, List.mem_cons, List.not_mem_nil, or_false] at h
      rcases h with (h | h) | h
      · simp at h
      · simp at h
      · exact (hexN_high _ _ _ h).1 rfl
  | bad b =>
    simp only [quoteChunk]
    intro h
    simp only [List.mem_append, List.mem_cons, List.not_mem_nil, or_false] at h
    rcases h with (h | h) | h
    · simp at h
    · simp at h
    · exact (hexN_high _ _ _ h).1 rfl

theorem append_cons_split {α : Type} {x : α} : ∀ {u F a b : List α}, x ∉ u → u ++ F = a ++ x :: b →
    ∃ a', a = u ++ a' ∧ F = a' ++ x :: b
  | [], F, a, b, _, h => ⟨a, rfl, h⟩
  | y :: u, F, a, b, hx, h => by
    cases a with
    | nil =>
      simp only [List.cons_append, List.nil_append, List.cons.injEq] at h
      exact absurd h.1.symm (by intro e; exact hx (by simp [e]))
    | cons z a =>
      simp only [List.cons_append, List.cons.injEq] at h
      obtain ⟨a', h1, h2⟩ := append_cons_split (fun hm => hx (by simp [hm])) h.2
      exact ⟨a', by rw [h.1, h1]; rfl, h2⟩

/-- Where a quote character occurs in quoted text: at the end, or as an escaped quote. -/
theorem quote_positions {isPrint : Nat → Bool} : ∀ (cs : List Chunk), (∀ c ∈ cs, c.Ok) → ∀ (a b : Str),
    cs.flatMap (quoteChunk isPrint) ++ [34] = a ++ 34 :: b →
    (a = cs.flatMap (quoteChunk isPrint) ∧ b = []) ∨
      ∃ cs1 cs2, cs = cs1 ++ .ascii 34 :: cs2 ∧ a = cs1.flatMap (quoteChunk isPrint) ++ [92]
        ∧ b = cs2.flatMap (quoteChunk isPrint) ++ [34]
  | [], _, a, b, h => by
    cases a with
    | nil => simp at h; simp [h]
    | cons y a => simp at h
  | c :: cs, hok, a, b, h => by
    by_cases hc : c = .ascii 34
    · subst hc
      have hq : quoteChunk isPrint (.ascii 34) = [92, 34] := rfl
      simp only [List.flatMap_cons, hq, List.cons_append, List.nil_append] at h ⊢
      match a, h with
      | [], h => simp at h
      | [x], h =>
        simp only [List.cons_append, List.nil_append, List.cons.injEq] at h
        exact Or.inr ⟨[], cs, rfl, by simp [h.1], by simp [h.2]⟩
      | x :: y :: a, h =>
        simp only [List.cons_append, List.cons.injEq] at h
        obtain ⟨h1, h2, h3⟩ := h
        rcases quote_positions cs (fun x hx => hok x (by simp [hx])) a b h3 with ⟨e1, e2⟩ | ⟨c1, c2, e1, e2, e3⟩
        · exact Or.inl ⟨by rw [← h1, ← h2, e1], e2⟩
        · exact Or.inr ⟨.ascii 34 :: c1, c2, by rw [e1]; rfl, by
            simp only [List.flatMap_cons, hq, List.cons_append, List.nil_append]
            rw [← h1, ← h2, e2], e3⟩
    · have hn := quote_no_quote (isPrint := isPrint) (hok c (by simp)) hc
      simp only [List.flatMap_cons, List.append_assoc] at h
      obtain ⟨a', rfl, h2⟩ := append_cons_split hn h
      rcases quote_positions cs (fun x hx => hok x (by simp [hx])) a' b h2 with ⟨e1, e2⟩ | ⟨c1, c2, e1, e2, e3⟩
      · exact Or.inl ⟨by rw [e1]; rfl, e2⟩
      · exact Or.inr ⟨c :: c1, c2, by rw [e1]; rfl, by rw [e2]; simp [List.flatMap_cons], e3⟩

theorem flatMap_plain {isPrint : Nat → Bool} {cs : List Chunk} {v : Str} (hv : (92 : UInt8) ∉ v)
    (h : cs.flatMap (quoteChunk isPrint) = v) : cs.flatMap Chunk.bytes = v := by
  rw [← h]
  have : ∀ c ∈ cs, Plain isPrint c := by
    intro c hc
    refine plain_of_no_backslash ?_
    intro hm
    exact hv (h ▸ List.mem_flatMap.mpr ⟨c, hc, hm⟩)
  clear h
  induction cs with
  | nil => rfl
  | cons c cs ih =>
    have h1 : quoteChunk isPrint c = c.bytes := this c (by simp)
    simp only [List.flatMap_cons, h1, ih (fun x hx => this x (by simp [hx]))]

/-- Exactly when a quoted value occurs in a quoted text. -/
theorem quoted_infix {isPrint : Nat → Bool} {iv v : Str} (hv : (92 : UInt8) ∉ v)
    (hplain : quoteBody isPrint v = v) :
    [34] ++ v ++ [34] <:+: quote isPrint iv ↔ iv = v ∨ ∃ pre, iv = pre ++ 34 :: v := by
  constructor
  · rintro ⟨pre, post, h⟩
    unfold quote quoteBody at h
    simp only [List.append_assoc, List.cons_append, List.nil_append] at h
    have fin : ∀ cs : List Chunk, (∀ c ∈ cs, c.Ok) → ∀ post, cs.flatMap (quoteChunk isPrint) ++ [34] = v ++ 34 :: post →
        cs.flatMap Chunk.bytes = v := by
      intro cs hcs post h
      rcases quote_positions cs hcs v post h with ⟨h1, _⟩ | ⟨c1, c2, _, h2, _⟩
      · exact flatMap_plain hv h1.symm
      · exact absurd (by rw [h2]; simp) hv
    cases pre with
    | nil =>
      simp only [List.nil_append, List.cons.injEq, true_and] at h
      left
      have := fin _ (chunks_ok iv) post h.symm
      rwa [chunks_bytes] at this
    | cons x pre =>
      simp only [List.cons_append, List.cons.injEq] at h
      right
      rcases quote_positions _ (chunks_ok iv) pre _ h.2.symm with ⟨_, h1⟩ | ⟨c1, c2, h1, _, h3⟩
      · simp at h1
      · have hb := chunks_bytes iv
        rw [h1, List.flatMap_append, List.flatMap_cons] at hb
        have hok : ∀ c ∈ c2, c.Ok := fun c hc => chunks_ok iv c (by rw [h1]; simp [hc])
        have := fin c2 hok post h3.symm
        rw [this] at hb
        exact ⟨_, hb.symm⟩
  · rintro (rfl | ⟨pre, rfl⟩)
    · refine ⟨[], [], ?_⟩
      rw [quote, hplain]; simp
    · refine ⟨[34] ++ quoteBody isPrint pre ++ [92], [], ?_⟩
      have h1 : quoteBody isPrint (pre ++ 34 :: v) = quoteBody isPrint pre ++ [92, 34] ++ v := by
        conv => rhs; rw [← hplain]
        unfold quoteBody
        rw [chunks_append_ascii (by decide)]
        have hq : quoteChunk isPrint (.ascii 34) = [92, 34] := rfl
        simp [List.flatMap_cons, hq]
      rw [quote, h1]
      simp

/-- Printable ASCII text without quotes and backslashes occurs in the quoted form whenever it
occurs in the text. -/
theorem quote_contains_ascii {isPrint : Nat → Bool} {v : Str}
    (hv : ∀ b ∈ v, 0x20 ≤ b ∧ b ≤ 0x7E ∧ b ≠ 34 ∧ b ≠ 92) : ∀ (pre post : Str),
    v <:+: quoteBody isPrint (pre ++ v ++ post) := by
  have key : ∀ (v : Str), (∀ b ∈ v, 0x20 ≤ b ∧ b ≤ 0x7E ∧ b ≠ 34 ∧ b ≠ 92) → ∀ pre post,
      quoteBody isPrint (pre ++ v ++ post) = quoteBody isPrint pre ++ v ++ quoteBody isPrint post ∨ v = [] := by
    intro v
    induction v with
    | nil => intros; right; rfl
    | cons b v ih =>
      intro hv pre post
      left
      have hb := hv b (by simp)
      have hlt : b < 0x80 := by
        have := UInt8.le_iff_toNat_le.mp hb.2.1
        exact UInt8.lt_iff_toNat_lt.mpr (by simpa using Nat.lt_of_le_of_lt this (by decide))
      have hq : quoteChunk isPrint (.ascii b) = [b] := by
        have h1 : ¬ (b = 34 ∨ b = 92) := by simp [hb.2.2.1, hb.2.2.2]
        simp only [quoteChunk]
        rw [if_neg h1, if_pos ⟨hb.1, hb.2.1⟩]
      have h1 : quoteBody isPrint (pre ++ (b :: v) ++ post)
          = quoteBody isPrint pre ++ b :: quoteBody isPrint (v ++ post) := by
        rw [List.append_assoc, List.cons_append]
        unfold quoteBody
        rw [chunks_append_ascii hlt]
        simp [List.flatMap_cons, hq]
      rw [h1]
      rcases ih (fun x hx => hv x (by simp [hx])) [] post with h | h
      · have h0 : quoteBody isPrint [] = [] := rfl
        rw [List.nil_append, h0, List.nil_append] at h
        rw [h]; simp
      · subst h; simp
  intro pre post
  rcases key v hv pre post with h | h
  · rw [h]; exact ⟨_, _, rfl⟩
  · subst h; exact ⟨[], _, rfl⟩

theorem infix_of_wrapped {x : UInt8} {v iv : Str} (hv : x ∉ v) :
    v <:+: [x] ++ iv ++ [x] ↔ v <:+: iv := by
  constructor
  · rintro ⟨pre, post, h⟩
    cases hv0 : v with
    | nil => exact ⟨[], iv, rfl⟩
    | cons a w =>
      rw [← hv0]
      cases pre with
      | nil =>
        rw [hv0] at h hv
        simp only [List.nil_append, List.cons_append, List.cons.injEq] at h
        exact absurd h.1 (by intro e; exact hv (by simp [e]))
      | cons y pre =>
        simp only [List.cons_append, List.nil_append, List.cons.injEq] at h
        rcases List.eq_nil_or_concat post with rfl | ⟨r, z, rfl⟩
        · rw [List.append_nil] at h
          have h2 := congrArg List.getLast? h.2
          rw [List.getLast?_append] at h2
          have : v.getLast? ≠ none := by rw [hv0]; simp
          obtain ⟨l, hl⟩ := Option.ne_none_iff_exists'.mp this
          rw [hl] at h2
          simp at h2
          exact absurd (List.mem_of_getLast? hl) (h2 ▸ hv)
        · rw [List.concat_eq_append, ← List.append_assoc] at h
          have := List.append_inj_left' h.2 rfl
          exact ⟨pre, r, this⟩
  · rintro ⟨pre, post, h⟩
    exact ⟨x :: pre, post ++ [x], by rw [← h]; simp⟩

/-! ## `key=value` and plain text -/

theorem indexByte_none {c : UInt8} : ∀ {s : Str}, indexByte c s = none ↔ c ∉ s
  | [] => by simp [indexByte]
  | d :: s => by
    simp only [indexByte]
    by_cases h : d = c
    · simp [h]
    · rw [if_neg h, Option.map_eq_none_iff, indexByte_none, List.mem_cons]
      constructor
      · intro h1; simp only [not_or]; exact ⟨fun e => h e.symm, h1⟩
      · intro h1; exact (not_or.mp h1).2

theorem indexByte_append {c : UInt8} : ∀ {k s : Str}, c ∉ k → indexByte c (k ++ c :: s) = some k.length
  | [], s, _ => by simp [indexByte]
  | d :: k, s, h => by
    have hd : d ≠ c := fun e => h (by simp [e])
    have hk : c ∉ k := fun hm => h (by simp [hm])
    simp [indexByte, hd, indexByte_append (k := k) (s := s) hk]

theorem parseValue_plain {v : Str} (h : v.head? ≠ some 33) : parseValue v = (v, false) := by
  cases v with
  | nil => rfl
  | cons c r =>
    have : c ≠ 33 := by intro e; simp [e] at h
    simp [parseValue, this]

theorem parseValue_bang (v : Str) : parseValue (33 :: v) = (v, true) := by simp [parseValue]

theorem hasPrefix_iff {s p : Str} : hasPrefix s p = true ↔ p <+: s := by
  rw [hasPrefix, List.isPrefixOf_iff_prefix]

/-- The verdict on a part `key=value`. -/
theorem match1_key {isPrint : Nat → Bool} {m : List (Str × Str)} {part key value : Str}
    (htrim : trimSpace part = key ++ 61 :: value) (hkey : key ≠ []) (heq : (61 : UInt8) ∉ key)
    (hadv : ¬ advPrefix <+: key ++ 61 :: value) :
    match1 isPrint m part = (lookup key m).map fun v =>
      if (parseValue value).2 then !contains (quote isPrint v) (parseValue value).1
      else contains (quote isPrint v) (parseValue value).1 := by
  have h1 : ¬ key ++ 61 :: value = [] := by simp
  have h2 : ¬ hasPrefix (key ++ 61 :: value) advPrefix = true := by rwa [hasPrefix_iff]
  unfold match1
  simp only [htrim]
  rw [if_neg h1, if_neg h2, indexByte_append heq]
  have e1 : (key ++ 61 :: value).take key.length = key := List.take_left
  have e2 : (key ++ 61 :: value).drop (key.length + 1) = value := by
    rw [List.drop_append]; simp
  simp only [e1, e2, ne_eq, hkey, not_false_eq_true, if_true]
  cases lookup key m <;> rfl

/-- The verdict on a part `=text`. -/
theorem match1_eqText {isPrint : Nat → Bool} {m : List (Str × Str)} {part text : Str} (htrim : trimSpace part = 61 :: text) :
    match1 isPrint m part = some
      (if m.any (fun e => contains (quote isPrint e.2) (parseValue text).1) then !(parseValue text).2
       else (parseValue text).2) := by
  unfold match1
  have hp : ¬ hasPrefix (61 :: text) advPrefix = true := by
    rw [hasPrefix_iff]
    rintro ⟨t, ht⟩
    simp [advPrefix, lit] at ht
  simp only [htrim]
  rw [if_neg (by simp), if_neg hp]
  simp only [indexByte, if_true, List.take_zero, List.drop_succ_cons, List.drop_zero, ne_eq,
    not_true_eq_false, if_false, Nat.zero_add]
  split <;> rfl

/-- The verdict on a part without a key: `text` or `=text`. -/
theorem match1_text {isPrint : Nat → Bool} {m : List (Str × Str)} {part text : Str}
    (htrim : (trimSpace part = text ∧ text ≠ [] ∧ (61 : UInt8) ∉ text) ∨ trimSpace part = 61 :: text)
    (hadv : ¬ advPrefix <+: text) :
    match1 isPrint m part = some
      (if m.any (fun e => contains (quote isPrint e.2) (parseValue text).1) then !(parseValue text).2
       else (parseValue text).2) := by
  rcases htrim with ⟨h1, h2, h3⟩ | h1
  · unfold match1
    have hp : ¬ hasPrefix text advPrefix = true := by rwa [hasPrefix_iff]
    simp only [h1]
    rw [if_neg h2, if_neg hp, indexByte_none.mpr h3]
    simp only [ne_eq, not_true_eq_false, if_false]
    split <;> rfl
  · exact match1_eqText h1

theorem any_perm {α : Type} {p : α → Bool} {a b : List α} (h : a.Perm b) : a.any p = b.any p := by
  rw [Bool.eq_iff_iff, List.any_eq_true, List.any_eq_true]
  simp [h.mem_iff]

theorem lookup_perm {κ ν : Type} [DecidableEq κ] {a b : List (κ × ν)} (ha : IsMap a) (h : a.Perm b) (k : κ) :
    lookup k a = lookup k b := by
  have hb : IsMap b := (h.map Prod.fst).nodup_iff.mp ha
  cases hx : lookup k a with
  | some v =>
    rw [lookup_iff ha] at hx
    exact ((lookup_iff hb).mpr (h.mem_iff.mp hx)).symm
  | none =>
    symm
    rw [lookup_eq_none] at hx ⊢
    intro v hv
    exact hx v (h.mem_iff.mpr hv)

/-- The verdict on one part does not depend on the order in which the map is iterated. -/
theorem match1_perm {isPrint : Nat → Bool} {a b : List (Str × Str)} (ha : IsMap a) (h : a.Perm b)
    (part : Str) : match1 isPrint a part = match1 isPrint b part := by
  have hl := lookup_perm ha h
  have hsel : ∀ rs, selMatches rs a = selMatches rs b := by
    intro rs
    unfold selMatches
    congr 1
    funext r
    unfold Req.matches
    rw [hl]
  have hany : ∀ p : Str × Str → Bool, a.any p = b.any p := fun p => any_perm h
  unfold match1
  simp only [hsel, hl, hany]

end Ckube
