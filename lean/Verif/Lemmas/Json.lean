import Verif.Model.Page
import Verif.Lemmas.Utf8
import Verif.Lemmas.Num

/-! # Facts about the JSON writer and reader -/

namespace Ckube.Json

/-- The tokens the reader sees for one written character. -/
def toksOf : Chunk → List Tok
  | .ascii b =>
    if htmlSafe b || b = 34 || b = 92 || b = 10 || b = 13 || b = 9 then [.byte b] else [.unit b.toNat]
  | .multi r bs => if r = 0x2028 ∨ r = 0x2029 then [.unit r] else bs.map .byte
  | .bad _ => [.unit 0xFFFD]

def preAll (ts : List Tok) : Option (List Tok × Str) → Option (List Tok × Str)
  | none => none
  | some (s, r) => some (ts ++ s, r)

theorem preAll_cons (t : Tok) (ts : List Tok) (x : Option (List Tok × Str)) :
    pre t (preAll ts x) = preAll (t :: ts) x := by
  cases x with
  | none => rfl
  | some p => cases p; rfl

theorem preAll_nil (x : Option (List Tok × Str)) : preAll [] x = x := by
  cases x with
  | none => rfl
  | some p => cases p; rfl

theorem preAll_append (a b : List Tok) (x : Option (List Tok × Str)) :
    preAll a (preAll b x) = preAll (a ++ b) x := by
  cases x with
  | none => rfl
  | some p => cases p; simp [preAll]

theorem pre_eq (t : Tok) (x : Option (List Tok × Str)) : pre t x = preAll [t] x := by
  cases x with
  | none => rfl
  | some p => cases p; rfl

theorem pToks_plain (b : UInt8) (t : Str) (h1 : b ≠ 34) (h2 : b ≠ 92) (h3 : ¬ b < 0x20) :
    pToks (b :: t) = preAll [.byte b] (pToks t) := by
  rw [pToks.eq_def]
  simp only [h1, h2, h3, if_false]
  exact pre_eq _ _

theorem pToks_high : ∀ (bs t : Str), (∀ b ∈ bs, 0x80 ≤ b.toNat) →
    pToks (bs ++ t) = preAll (bs.map .byte) (pToks t)
  | [], t, _ => by simp [preAll_nil]
  | b :: bs, t, h => by
    have hb := h b (by simp)
    rw [List.cons_append, pToks_plain b _
      (by rw [ne_eq, eq_iff_toNat]; simp; omega) (by rw [ne_eq, eq_iff_toNat]; simp; omega)
      (by rw [UInt8.lt_iff_toNat_lt]; simp; omega),
      pToks_high bs t (fun c hc => h c (by simp [hc])), preAll_append]
    rfl

theorem pToks_escape (e b : UInt8) (t : Str) (h : e ≠ 117) (hb : unesc e = some b) :
    pToks (92 :: e :: t) = preAll [.byte b] (pToks t) := by
  rw [pToks.eq_def]
  simp only [h, if_false, hb, if_true]
  rw [if_neg (by decide)]
  exact pre_eq _ _

theorem pToks_unit (a b c d : UInt8) (u : Nat) (t : Str) (h : hex4 a b c d = some u) :
    pToks (92 :: 117 :: a :: b :: c :: d :: t) = preAll [.unit u] (pToks t) := by
  rw [pToks.eq_def]
  simp only [h, if_true]
  rw [if_neg (by decide)]
  exact pre_eq _ _

theorem pToks_ascii_table : ∀ n, n < 128 →
    (escChunk (.ascii (UInt8.ofNat n)) = [UInt8.ofNat n] ∧ toksOf (.ascii (UInt8.ofNat n)) = [.byte (UInt8.ofNat n)]
        ∧ UInt8.ofNat n ≠ 34 ∧ UInt8.ofNat n ≠ 92 ∧ ¬ UInt8.ofNat n < 0x20)
    ∨ (∃ e, e < 128 ∧ escChunk (.ascii (UInt8.ofNat n)) = [92, UInt8.ofNat e] ∧ UInt8.ofNat e ≠ 117
        ∧ unesc (UInt8.ofNat e) = some (UInt8.ofNat n) ∧ toksOf (.ascii (UInt8.ofNat n)) = [.byte (UInt8.ofNat n)])
    ∨ (escChunk (.ascii (UInt8.ofNat n)) = [92, 117, 48, 48, hexDigit (n / 16 % 16), hexDigit (n % 16)]
        ∧ hex4 48 48 (hexDigit (n / 16 % 16)) (hexDigit (n % 16)) = some n
        ∧ toksOf (.ascii (UInt8.ofNat n)) = [.unit n]) := by
  decide +kernel

theorem pToks_ascii {b : UInt8} (h : b < 0x80) (t : Str) :
    pToks (escChunk (.ascii b) ++ t) = preAll (toksOf (.ascii b)) (pToks t) := by
  have hb : b.toNat < 128 := by simpa [UInt8.lt_iff_toNat_lt] using h
  have hbb : UInt8.ofNat b.toNat = b := by simp
  have := pToks_ascii_table b.toNat hb
  rw [hbb] at this
  rcases this with ⟨h1, h2, h3, h4, h5⟩ | ⟨e, he, h1, h2, h3, h4⟩ | ⟨h1, h2, h3⟩
  · rw [h1, h2]; exact pToks_plain b t h3 h4 h5
  · rw [h1, h4]; exact pToks_escape _ b t h2 h3
  · rw [h1, h3]; exact pToks_unit _ _ _ _ _ t h2

/-- The reader sees the tokens of a written character. -/
theorem pToks_escChunk {c : Chunk} (hc : c.Ok) (t : Str) :
    pToks (escChunk c ++ t) = preAll (toksOf c) (pToks t) := by
  cases c with
  | ascii b => exact pToks_ascii hc t
  | multi r bs =>
    simp only [escChunk, toksOf]
    split
    · rename_i h
      have h1 : hexN 4 0x2028 = [50, 48, 50, 56] := by decide +kernel
      have h2 : hexN 4 0x2029 = [50, 48, 50, 57] := by decide +kernel
      rcases h with rfl | rfl
      · rw [h1]; exact pToks_unit _ _ _ _ _ t (by decide +kernel)
      · rw [h2]; exact pToks_unit _ _ _ _ _ t (by decide +kernel)
    · exact pToks_high bs t (multi_bytes_high hc).2
  | bad b =>
    have h1 : hexN 4 0xFFFD = [102, 102, 102, 100] := by decide +kernel
    simp only [escChunk, toksOf, h1]
    exact pToks_unit _ _ _ _ _ t (by decide +kernel)

theorem pToks_chunks : ∀ (l : List Chunk), (∀ c ∈ l, c.Ok) → ∀ t : Str,
    pToks (l.flatMap escChunk ++ [34] ++ t) = some (l.flatMap toksOf, t)
  | [], _, t => by
    simp only [List.flatMap_nil, List.nil_append, List.singleton_append]
    rw [pToks.eq_def]; simp
  | c :: l, h, t => by
    rw [List.flatMap_cons, List.append_assoc, List.append_assoc,
      pToks_escChunk (h c (by simp)), ← List.append_assoc,
      pToks_chunks l (fun d hd => h d (by simp [hd])) t]
    rfl

theorem combine_bytes : ∀ (bs : Str) (ts : List Tok),
    combine none (bs.map .byte ++ ts) = bs ++ combine none ts
  | [], _ => rfl
  | b :: bs, ts => by
    rw [List.map_cons, List.cons_append, combine, combine_bytes bs ts]; rfl

theorem combine_ascii_table : ∀ n, n < 128 →
    toksOf (.ascii (UInt8.ofNat n)) = [.byte (UInt8.ofNat n)]
    ∨ (toksOf (.ascii (UInt8.ofNat n)) = [.unit n] ∧ isHigh n = false ∧ isLow n = false
        ∧ encodeRune n = [UInt8.ofNat n]) := by
  decide +kernel

theorem combine_toksOf {c : Chunk} (hc : c.Ok) (hb : ∀ b, c ≠ .bad b) (ts : List Tok) :
    combine none (toksOf c ++ ts) = c.bytes ++ combine none ts := by
  cases c with
  | ascii b =>
    have hlt : b.toNat < 128 := by simpa [Chunk.Ok, UInt8.lt_iff_toNat_lt] using hc
    have hbb : UInt8.ofNat b.toNat = b := by simp
    have := combine_ascii_table b.toNat hlt
    rw [hbb] at this
    rcases this with h | ⟨h1, h2, h3, h4⟩
    · rw [h]; rfl
    · rw [h1, List.singleton_append, combine, h2, h3, h4]; rfl
  | multi r bs =>
    simp only [toksOf, Chunk.bytes]
    split
    · rename_i h
      rw [← encodeRune_multi hc]
      rcases h with rfl | rfl
      · rw [List.singleton_append, combine]; rfl
      · rw [List.singleton_append, combine]; rfl
    · exact combine_bytes bs ts
  | bad b => exact absurd rfl (hb b)

theorem combine_chunks : ∀ l : List Chunk, (∀ c ∈ l, c.Ok) → (∀ b, Chunk.bad b ∉ l) →
    combine none (l.flatMap toksOf) = l.flatMap Chunk.bytes
  | [], _, _ => rfl
  | c :: l, h, hb => by
    rw [List.flatMap_cons, List.flatMap_cons, combine_toksOf (h c (by simp)) (fun b hcb => hb b (by simp [hcb])),
      combine_chunks l (fun d hd => h d (by simp [hd])) (fun b hbl => hb b (by simp [hbl]))]

/-- A written string is read back, whatever follows it. -/
theorem pStr_encStr {s : Str} (h : validUtf8 s = true) (t : Str) :
    pStr ((chunks s).flatMap escChunk ++ [34] ++ t) = some (s, t) := by
  unfold pStr
  rw [pToks_chunks _ (chunks_ok s)]
  simp only
  rw [combine_chunks _ (chunks_ok s) (validUtf8_iff.mp h), chunks_bytes, toValidUtf8_of_valid h]

/-- A plain ASCII text is written as it is. -/
theorem pStr_plain (k : Str) (hk : (chunks k).flatMap escChunk = k) (hv : validUtf8 k = true) (t : Str) :
    pStr (k ++ [34] ++ t) = some (k, t) := by
  have := pStr_encStr hv t
  rwa [hk] at this

theorem skipWs_cons {c : UInt8} {r : Str} (h : isWs c = false) : skipWs (c :: r) = c :: r := by
  simp [skipWs, h]

theorem hasPrefix_head_ne {c d : UInt8} {r p : Str} (h : c ≠ d) : hasPrefix (c :: r) (d :: p) = false := by
  have : (d == c) = false := by simp [Ne.symm h]
  simp [hasPrefix, List.isPrefixOf, this]

/-- What may follow a member value in the written form. -/
def Stop (t : Str) : Prop := ∃ c r, t = c :: r ∧ (c = 44 ∨ c = 125)

theorem takeWhile_append_stop {p : UInt8 → Bool} {a t : Str} (ha : a.all p = true)
    (ht : ∀ c r, t = c :: r → p c = false) : (a ++ t).takeWhile p = a ∧ (a ++ t).dropWhile p = t := by
  induction a with
  | nil =>
    cases t with
    | nil => simp
    | cons c r => simp [ht c r rfl]
  | cons c a ih =>
    simp only [List.all_cons, Bool.and_eq_true] at ha
    simp [ha.1, ih ha.2]

theorem someDigits_all {s : Str} (hne : s ≠ []) (h : s.all isDigit = true) : someDigits s = some [] := by
  cases s with
  | nil => simp at hne
  | cons c r =>
    simp only [List.all_cons, Bool.and_eq_true] at h
    have := (takeWhile_append_stop (t := []) h.2 (by simp)).2
    simp only [List.append_nil] at this
    simp [someDigits, h.1, this]

theorem validNum_natDigits (n : Nat) (neg : Bool) :
    validNum ((if neg then [45] else []) ++ natDigits n) = true := by
  have hall := natDigits_all n
  have hne := natDigits_ne_nil n
  have hsd := someDigits_all hne hall
  by_cases h0 : n = 0
  · subst h0; cases neg <;> decide +kernel
  · have hh := natDigits_head (Nat.pos_of_ne_zero h0)
    obtain ⟨c, r, hcr⟩ := List.exists_cons_of_ne_nil hne
    rw [hcr] at hh hall hsd ⊢
    simp only [List.head?_cons, ne_eq, Option.some.injEq] at hh
    have h45 : c ≠ 45 := by
      rintro rfl
      simp only [List.all_cons, Bool.and_eq_true] at hall
      exact absurd hall.1 (by decide)
    cases neg
    · simp [validNum, h45, hh, hsd]
    · simp [validNum, hh, hsd]

/-- A written integer is read as a number with the same text. -/
theorem pVal_int (f : Nat) (i : Int) {t : Str} (ht : Stop t) :
    pVal (f + 1) (intDigits i ++ t) = some (.num (intDigits i), t) := by
  have hform : intDigits i = (if i < 0 then [45] else []) ++ natDigits i.natAbs := by
    unfold intDigits; split <;> rfl
  have hvalid : validNum (intDigits i) = true := by
    have := validNum_natDigits i.natAbs (decide (i < 0))
    rw [hform]; simpa using this
  have hall : (intDigits i).all (fun c => isDigit c || c = 45) = true := by
    have := natDigits_all i.natAbs
    rw [hform, List.all_append, Bool.and_eq_true]
    refine ⟨by split <;> simp, ?_⟩
    rw [List.all_eq_true] at this ⊢
    intro c hc; simp [this c hc]
  have hne : intDigits i ≠ [] := by
    rw [hform]; simp [natDigits_ne_nil]
  obtain ⟨c, r, hcr⟩ := List.exists_cons_of_ne_nil hne
  have hnum : (intDigits i).all isNumByte = true := by
    rw [List.all_eq_true] at hall ⊢
    intro d hd
    have := hall d hd
    simp only [Bool.or_eq_true, decide_eq_true_eq] at this
    rcases this with h | h <;> simp [isNumByte, h]
  have hc : isDigit c = true ∨ c = 45 := by
    rw [hcr] at hall
    simp only [List.all_cons, Bool.and_eq_true, Bool.or_eq_true, decide_eq_true_eq] at hall
    exact hall.1
  have key : ∀ c : UInt8, (isDigit c = true ∨ c = 45) →
      isWs c = false ∧ c ≠ 123 ∧ c ≠ 91 ∧ c ≠ 34 ∧ c ≠ 116 ∧ c ≠ 102 ∧ c ≠ 110 :=
    forall_byte (by decide +kernel)
  obtain ⟨k1, k2, k3, k4, k5, k6, k7⟩ := key c hc
  have hstop : ∀ d r, t = d :: r → isNumByte d = false := by
    intro d r hdr
    obtain ⟨d', r', h1, h2⟩ := ht
    rw [h1] at hdr
    cases hdr
    rcases h2 with rfl | rfl <;> decide
  have htd := takeWhile_append_stop hnum hstop
  rw [hcr, List.cons_append] at htd ⊢
  rw [pVal, skipWs_cons k1]
  simp only [k2, k3, k4, if_false]
  rw [show lit "true" = 116 :: lit "rue" by decide, show lit "false" = 102 :: lit "alse" by decide,
    show lit "null" = 110 :: lit "ull" by decide, hasPrefix_head_ne k5, hasPrefix_head_ne k6,
    hasPrefix_head_ne k7]
  simp only [Bool.false_eq_true, if_false]
  rw [htd.1, htd.2, ← hcr, hvalid]
  rfl

/-- A written string value is read back. -/
theorem pVal_str (f : Nat) {s : Str} (h : validUtf8 s = true) (t : Str) :
    pVal (f + 1) (encStr s ++ t) = some (.str s, t) := by
  unfold encStr
  rw [List.append_assoc, List.append_assoc, List.singleton_append, pVal, skipWs_cons (by decide)]
  simp only [show (34 : UInt8) ≠ 123 by decide, show (34 : UInt8) ≠ 91 by decide, if_false, if_true]
  rw [← List.append_assoc, pStr_encStr h]

/-- One written member: a plain name and a value the reader understands. -/
structure GoodMember (kv : Str × Str) (jv : JV) : Prop where
  name : (chunks kv.1).flatMap escChunk = kv.1
  valid : validUtf8 kv.1 = true
  value : ∀ f t, Stop t → pVal (f + 1) (kv.2 ++ t) = some (jv, t)

theorem pMembers_join : ∀ (l : List ((Str × Str) × JV)), l ≠ [] → (∀ e ∈ l, GoodMember e.1 e.2) →
    ∀ f, l.length + 1 ≤ f → ∀ t : Str,
    pMembers f (join [44] (l.map fun e => encMember e.1) ++ [125] ++ t)
      = some (l.map (fun e => (e.1.1, e.2)), t)
  | [], h, _, _, _, _ => by simp at h
  | [e], _, he, f, hf, t => by
    obtain ⟨f, rfl⟩ : ∃ g, f = g + 2 := ⟨f - 2, by simp at hf; omega⟩
    have hg := he e (by simp)
    simp only [List.map_cons, List.map_nil, join, encMember, List.append_assoc,
      List.cons_append, List.nil_append]
    rw [pMembers, skipWs_cons (by decide)]
    simp only [if_true]
    have h1 := pStr_plain e.1.1 hg.name hg.valid ([58] ++ (e.1.2 ++ (125 :: t)))
    simp only [List.append_assoc, List.cons_append, List.nil_append] at h1 ⊢
    rw [h1]
    simp only
    rw [skipWs_cons (by decide)]
    simp only [if_true]
    rw [hg.value f _ ⟨125, t, rfl, Or.inr rfl⟩]
    simp only
    rw [skipWs_cons (by decide)]
    simp
  | e :: e' :: l, _, he, f, hf, t => by
    obtain ⟨f, rfl⟩ : ∃ g, f = g + 2 := ⟨f - 2, by simp at hf; omega⟩
    have hg := he e (by simp)
    have ih := pMembers_join (e' :: l) (by simp) (fun x hx => he x (by simp at hx ⊢; tauto))
      (f + 1) (by simp at hf ⊢; omega) t
    simp only [List.map_cons] at ih ⊢
    rw [join]
    generalize join [44] (encMember e'.1 :: List.map (fun e => encMember e.1) l) = rest at ih
    simp only [encMember, List.append_assoc, List.cons_append,
      List.nil_append] at ih ⊢
    rw [pMembers, skipWs_cons (by decide)]
    simp only [if_true]
    have h1 := pStr_plain e.1.1 hg.name hg.valid (58 :: (e.1.2 ++ (44 :: (rest ++ 125 :: t))))
    simp only [List.append_assoc, List.cons_append, List.nil_append] at h1
    rw [h1]
    simp only
    rw [skipWs_cons (by decide)]
    simp only [if_true]
    rw [hg.value f _ ⟨44, _, rfl, Or.inl rfl⟩]
    simp only
    rw [skipWs_cons (by decide)]
    simp only [if_true, ih]

end Ckube.Json
