import Verif.Spec.JsonText
import Verif.Lemmas.Decimal

/-! # The JSON reader and the grammar of JSON texts -/

namespace Ckube
open Spec Json

/-! ## Characters -/

theorem char_scalar (c : Char) : c.toNat < 0xD800 ∨ 0xDFFF < c.toNat ∧ c.toNat < 0x110000 := c.valid

theorem utf8_encodeRune (c : Char) : String.utf8EncodeChar c = encodeRune c.toNat := by
  have hs := char_scalar c
  have hv : c.val.toNat = c.toNat := rfl
  unfold String.utf8EncodeChar encodeRune
  simp only [hv]
  generalize c.toNat = v at hs
  by_cases h1 : v ≤ 127
  · rw [if_pos h1, if_pos (show v < 0x80 by omega)]
  rw [if_neg h1, if_neg (show ¬ v < 0x80 by omega)]
  by_cases h2 : v ≤ 2047
  · rw [if_pos h2, if_pos (show v < 0x800 by omega), show v / 64 % 32 + 192 = 0xC0 + v / 64 by omega, show v % 64 + 128 = 0x80 + v % 64 by omega]
  rw [if_neg h2, if_neg (show ¬ v < 0x800 by omega), if_neg (show ¬ ((0xD800 ≤ v ∧ v ≤ 0xDFFF) ∨ 0x10FFFF < v) by omega)]
  by_cases h3 : v ≤ 65535
  · rw [if_pos h3, if_pos (show v < 0x10000 by omega), show v / 4096 % 16 + 224 = 0xE0 + v / 4096 by omega,
      show v / 64 % 64 + 128 = 0x80 + v / 64 % 64 by omega, show v % 64 + 128 = 0x80 + v % 64 by omega]
  · rw [if_neg h3, if_neg (show ¬ v < 0x10000 by omega), show v / 262144 % 8 + 240 = 0xF0 + v / 262144 by omega,
      show v / 4096 % 64 + 128 = 0x80 + v / 4096 % 64 by omega,
      show v / 64 % 64 + 128 = 0x80 + v / 64 % 64 by omega, show v % 64 + 128 = 0x80 + v % 64 by omega]

theorem toUInt8_toNat {n : Nat} (h : n < 256) : n.toUInt8.toNat = n := by
  change n % 256 = n
  exact Nat.mod_eq_of_lt h

/-- A character is one chunk of its encoding. -/
theorem char_chunk (c : Char) : ∃ k : Chunk, k.Ok ∧ (∀ b, k ≠ .bad b) ∧ k.bytes = String.utf8EncodeChar c := by
  rw [utf8_encodeRune]
  have hs := char_scalar c
  unfold encodeRune
  generalize c.toNat = v at hs
  split
  · rename_i h
    refine ⟨.ascii v.toUInt8, ?_, by simp, rfl⟩
    change v.toUInt8 < 0x80
    rw [UInt8.lt_iff_toNat_lt, toUInt8_toNat (by omega)]
    exact h
  · split
    · refine ⟨.multi _ _, MultiOk.two ?_, by simp, rfl⟩
      rw [is2_iff, toUInt8_toNat (by omega), toUInt8_toNat (by omega)]
      omega
    · rw [if_neg (by omega)]
      split
      · refine ⟨.multi _ _, MultiOk.three ?_, by simp, rfl⟩
        rw [is3_iff, toUInt8_toNat (by omega), toUInt8_toNat (by omega), toUInt8_toNat (by omega)]
        omega
      · refine ⟨.multi _ _, MultiOk.four ?_, by simp, rfl⟩
        rw [is4_iff, toUInt8_toNat (by omega), toUInt8_toNat (by omega), toUInt8_toNat (by omega), toUInt8_toNat (by omega)]
        omega

/-! ## Escapes -/

theorem hexDigit_val : ∀ n, n < 16 → ∀ d, HexDigit d n → hexVal d = some n := by
  have h1 : ∀ n, n < 16 → ∃ d, (lit "0123456789abcdef")[n]? = some d ∧ hexVal d = some n := by decide +kernel
  have h2 : ∀ n, n < 16 → ∃ d, (lit "0123456789ABCDEF")[n]? = some d ∧ hexVal d = some n := by decide +kernel
  intro n hn d hd
  rcases hd with hd | hd
  · obtain ⟨d', e, hv⟩ := h1 n hn
    rw [e] at hd; cases hd; exact hv
  · obtain ⟨d', e, hv⟩ := h2 n hn
    rw [e] at hd; cases hd; exact hv

theorem hexDigit_lt {n : Nat} {d : UInt8} (h : HexDigit d n) : n < 16 := by
  have l1 : (lit "0123456789abcdef").length = 16 := by decide
  have l2 : (lit "0123456789ABCDEF").length = 16 := by decide
  rcases h with h | h
  · have := (List.getElem?_eq_some_iff.mp h).1
    omega
  · have := (List.getElem?_eq_some_iff.mp h).1
    omega

theorem hexVal_digit (d : UInt8) : ∀ n, hexVal d = some n → HexDigit d n := by
  have h : ∀ d : UInt8, hexVal d = none ∨ ∃ n, n < 16 ∧ hexVal d = some n
      ∧ ((lit "0123456789abcdef")[n]? = some d ∨ (lit "0123456789ABCDEF")[n]? = some d) :=
    forall_byte (by decide +kernel)
  intro n hn
  rcases h d with h | ⟨m, _, h, h'⟩
  · rw [hn] at h; cases h
  · rw [hn] at h; cases h; exact h'

theorem hex4_iff (a b c d : UInt8) (u : Nat) : hex4 a b c d = some u ↔ Hex4 [a, b, c, d] u := by
  constructor
  · intro h
    unfold hex4 at h
    cases ha : hexVal a with
    | none => rw [ha] at h; cases h
    | some i =>
      cases hb : hexVal b with
      | none => rw [ha, hb] at h; cases h
      | some j =>
        cases hc : hexVal c with
        | none => rw [ha, hb, hc] at h; cases h
        | some k =>
          cases hd : hexVal d with
          | none => rw [ha, hb, hc, hd] at h; cases h
          | some l =>
            rw [ha, hb, hc, hd] at h
            have h : i * 4096 + j * 256 + k * 16 + l = u := Option.some.inj h
            exact ⟨a, b, c, d, i, j, k, l, rfl, hexVal_digit _ _ ha, hexVal_digit _ _ hb, hexVal_digit _ _ hc,
              hexVal_digit _ _ hd, by omega⟩
  · rintro ⟨a', b', c', d', i, j, k, l, e, ha, hb, hc, hd, rfl⟩
    cases e
    unfold hex4
    rw [hexDigit_val _ (hexDigit_lt ha) _ ha, hexDigit_val _ (hexDigit_lt hb) _ hb,
      hexDigit_val _ (hexDigit_lt hc) _ hc, hexDigit_val _ (hexDigit_lt hd) _ hd]
    change some _ = some _
    congr 1
    omega

theorem shortEscape_iff (e b : UInt8) : unesc e = some b → ∃ c, ([92, e], c) ∈ shortEscapes := by
  have h : ∀ e : UInt8, unesc e ≠ none → ∃ p ∈ shortEscapes, p.1 = [92, e] := forall_byte (by decide +kernel)
  intro he
  obtain ⟨p, hp, hq⟩ := h e (by rw [he]; simp)
  exact ⟨p.2, by rw [← hq]; exact hp⟩

theorem shortEscape_toks {t : Str} {c : Char} (h : (t, c) ∈ shortEscapes) :
    ∃ e b, t = [92, e] ∧ e ≠ 117 ∧ unesc e = some b ∧ String.utf8EncodeChar c = [b] := by
  have : ∀ p ∈ shortEscapes, ∃ e b, e < 256 ∧ b < 256 ∧ p.1 = [92, UInt8.ofNat e] ∧ UInt8.ofNat e ≠ 117 ∧ unesc (UInt8.ofNat e) = some (UInt8.ofNat b)
      ∧ String.utf8EncodeChar p.2 = [UInt8.ofNat b] := by
    simp only [shortEscapes, List.forall_mem_cons]
    refine ⟨⟨34, 34, by decide +kernel⟩, ⟨92, 92, by decide +kernel⟩, ⟨47, 47, by decide +kernel⟩, ⟨98, 8, by decide +kernel⟩,
      ⟨102, 12, by decide +kernel⟩, ⟨110, 10, by decide +kernel⟩, ⟨114, 13, by decide +kernel⟩, ⟨116, 9, by decide +kernel⟩, by simp⟩
  obtain ⟨e, b, _, _, h1, h2, h3, h4⟩ := this _ h
  exact ⟨_, _, h1, h2, h3, h4⟩

theorem lit_u : lit "\\u" = [92, 117] := by decide

theorem pToks_hex4 {t : Str} {u : Nat} (h : Hex4 t u) (r : Str) : pToks (lit "\\u" ++ t ++ r) = preAll [.unit u] (pToks r) := by
  have h' := h
  obtain ⟨a, b, c, d, _, _, _, _, rfl, _⟩ := h'
  rw [lit_u]
  exact pToks_unit a b c d u r ((hex4_iff ..).mpr h)

/-- What the reader makes of one written character. -/
theorem spellsChar_toks {t : Str} {c : Char} (h : SpellsChar t c) : ∃ ts : List Tok,
    (∀ r, pToks (t ++ r) = preAll ts (pToks r)) ∧ ∀ ts', combine none (ts ++ ts') = String.utf8EncodeChar c ++ combine none ts' := by
  cases h with
  | raw h0 h1 h2 =>
    refine ⟨(String.utf8EncodeChar c).map .byte, ?_, fun ts' => combine_bytes _ _⟩
    intro r
    obtain ⟨k, hk, hb, he⟩ := char_chunk c
    cases k with
    | bad b => exact absurd rfl (hb b)
    | multi n bs =>
      simp only [Chunk.bytes] at he
      rw [← he]
      exact pToks_high bs r (multi_bytes_high hk).2
    | ascii b =>
      simp only [Chunk.bytes] at he
      have hlt : b < 0x80 := hk
      have hbn : b.toNat = c.toNat := by
        rw [utf8_encodeRune] at he
        unfold encodeRune at he
        split at he
        · rename_i hc
          have := (List.cons.inj he).1
          rw [this]; exact toUInt8_toNat (by omega)
        · split at he
          · cases he
          · split at he
            · cases he
            · split at he <;> cases he
      rw [← he]
      refine pToks_plain b r ?_ ?_ ?_
      · rintro rfl
        exact h1 (Char.toNat_inj.mp hbn.symm)
      · rintro rfl
        exact h2 (Char.toNat_inj.mp hbn.symm)
      · rw [UInt8.lt_iff_toNat_lt, hbn]
        simp only [UInt8.reduceToNat]
        omega
  | short hm =>
    obtain ⟨e, b, rfl, h1, h2, h3⟩ := shortEscape_toks hm
    refine ⟨[.byte b], fun r => pToks_escape e b r h1 h2, fun ts' => ?_⟩
    rw [h3]; rfl
  | unit hx =>
    refine ⟨[.unit c.toNat], fun r => pToks_hex4 hx r, fun ts' => ?_⟩
    have hs := char_scalar c
    have a1 : isHigh c.toNat = false := by simp [isHigh]; omega
    have a2 : isLow c.toNat = false := by simp [isLow]; omega
    rw [List.singleton_append, combine, a1, a2, utf8_encodeRune]
    rfl
  | @pair t t' hi lo _ hx hx' hhi hlo hc =>
    refine ⟨[.unit hi, .unit lo], fun r => ?_, fun ts' => ?_⟩
    · rw [List.append_assoc _ t' r, List.append_assoc _ (lit "\\u") (t' ++ r), ← List.append_assoc (lit "\\u") t' r,
        pToks_hex4 hx, pToks_hex4 hx', preAll_append]
      rfl
    · have a1 : isHigh hi = true := by simp [isHigh]; omega
      have a2 : isLow lo = true := by simp [isLow]; omega
      rw [List.cons_append, combine, a1, List.cons_append, if_pos rfl, combine, a2, if_pos rfl, utf8_encodeRune, hc]
      rfl

theorem spells_toks {t s : Str} (h : Spells t s) : ∃ ts : List Tok,
    (∀ r, pToks (t ++ r) = preAll ts (pToks r)) ∧ combine none ts = s := by
  induction h with
  | nil => exact ⟨[], fun r => by rw [preAll_nil]; rfl, rfl⟩
  | cons h hr ih =>
    obtain ⟨ts, h1, h2⟩ := ih
    obtain ⟨us, h3, h4⟩ := spellsChar_toks h
    refine ⟨us ++ ts, fun r => ?_, ?_⟩
    · rw [List.append_assoc, h3, h1, preAll_append]
    · rw [h4, h2]

theorem spells_valid {t s : Str} (h : Spells t s) : ∃ ks : List Chunk, (∀ c ∈ ks, c.Ok ∧ ∀ b, c ≠ .bad b) ∧ s = ks.flatMap Chunk.bytes := by
  induction h with
  | nil => exact ⟨[], by simp, rfl⟩
  | @cons _ _ _ c h hr ih =>
    obtain ⟨ks, h1, h2⟩ := ih
    obtain ⟨k, a1, a2, a3⟩ := char_chunk c
    refine ⟨k :: ks, ?_, by rw [List.flatMap_cons, a3, h2]⟩
    intro d hd
    rcases List.mem_cons.mp hd with rfl | hd
    · exact ⟨a1, a2⟩
    · exact h1 d hd

theorem pToks_quote (r : Str) : pToks (34 :: r) = some ([], r) := by
  rw [pToks.eq_def]; simp

/-- What is written between quotes is read as the text it means. -/
theorem spells_pStr {t s : Str} (h : Spells t s) (r : Str) : pStr (t ++ 34 :: r) = some (s, r) := by
  obtain ⟨ts, h1, h2⟩ := spells_toks h
  obtain ⟨ks, h3, h4⟩ := spells_valid h
  unfold pStr
  rw [h1, pToks_quote]
  simp only [preAll, List.append_nil]
  rw [h2, toValidUtf8_of_valid]
  rw [validUtf8_iff, h4, chunks_flat ks h3]
  intro b hb
  exact (h3 _ hb).2 b rfl

/-! ## What may stand between quotes -/

theorem loose_toks {t : Str} (h : Loose t) : ∃ ts : List Tok, ∀ r, pToks (t ++ r) = preAll ts (pToks r) := by
  induction h with
  | nil => exact ⟨[], fun r => by rw [preAll_nil]; rfl⟩
  | @byte b r h0 h1 h2 _ ih =>
    obtain ⟨ts, ih⟩ := ih
    refine ⟨.byte b :: ts, fun r => ?_⟩
    rw [List.cons_append, pToks_plain b _ h1 h2 (by rw [UInt8.lt_iff_toNat_lt]; simp only [UInt8.reduceToNat]; omega), ih, preAll_append]
    rfl
  | short hm _ ih =>
    obtain ⟨ts, ih⟩ := ih
    obtain ⟨e, b, rfl, h1, h2, _⟩ := shortEscape_toks hm
    refine ⟨.byte b :: ts, fun r => ?_⟩
    rw [List.append_assoc, List.cons_append, List.cons_append, List.nil_append, pToks_escape e b _ h1 h2, ih, preAll_append]
    rfl
  | @unit _ _ u hx _ ih =>
    obtain ⟨ts, ih⟩ := ih
    refine ⟨.unit u :: ts, fun r => ?_⟩
    rw [List.append_assoc (_ ++ _), pToks_hex4 hx, ih, preAll_append]
    rfl

theorem pre_some {t : Tok} {x : Option (List Tok × Str)} {ts : List Tok} {r : Str} (h : pre t x = some (ts, r)) :
    ∃ us, x = some (us, r) := by
  cases x with
  | none => cases h
  | some p => obtain ⟨us, r'⟩ := p; cases h; exact ⟨us, rfl⟩

theorem pToks_loose : ∀ (n : Nat) (s : Str), s.length ≤ n → ∀ ts r, pToks s = some (ts, r) → ∃ u, Loose u ∧ s = u ++ 34 :: r
  | n, [], _, ts, r, h => by rw [pToks.eq_def] at h; cases h
  | 0, c :: s, hn, _, _, _ => by simp at hn
  | n + 1, c :: s, hn, ts, r, h => by
    have hn : s.length ≤ n := by simpa using hn
    rw [pToks.eq_def] at h
    simp only at h
    split at h
    · rename_i hc
      cases h
      exact ⟨[], .nil, by rw [hc]; rfl⟩
    · rename_i hc34
      split at h
      · rename_i hc92
        split at h
        · cases h
        · rename_i e r1 _
          split at h
          · rename_i he
            split at h
            · rename_i a b c' d r2 _
              split at h
              · cases h
              · rename_i u hu
                obtain ⟨us, h⟩ := pre_some h
                obtain ⟨w, hw, e2⟩ := pToks_loose n r2 (by simp at hn; omega) us r h
                have := Loose.unit ((hex4_iff ..).mp hu) hw
                refine ⟨_, this, ?_⟩
                rw [lit_u, e2, hc92, he]
                simp
            · cases h
          · rename_i he
            split at h
            · cases h
            · rename_i b hb
              obtain ⟨us, h⟩ := pre_some h
              obtain ⟨w, hw, e2⟩ := pToks_loose n r1 (by simp at hn; omega) us r h
              obtain ⟨c0, hm⟩ := shortEscape_iff e b hb
              refine ⟨_, Loose.short hm hw, ?_⟩
              rw [e2, hc92]
              simp
      · rename_i hc92
        split at h
        · cases h
        · rename_i hlt
          obtain ⟨us, h⟩ := pre_some h
          obtain ⟨w, hw, e2⟩ := pToks_loose n s hn us r h
          refine ⟨c :: w, Loose.byte ?_ hc34 hc92 hw, by rw [e2]; rfl⟩
          rw [UInt8.lt_iff_toNat_lt] at hlt
          simp only [UInt8.reduceToNat] at hlt
          omega

/-- What the reader makes of what stands between quotes. -/
def ReadsAs (u s : Str) : Prop := Loose u ∧ ∀ r, pStr (u ++ 34 :: r) = some (s, r)

theorem loose_reads {u : Str} (h : Loose u) : ∃ s, ReadsAs u s := by
  obtain ⟨ts, hts⟩ := loose_toks h
  refine ⟨toValidUtf8 (combine none ts), h, fun r => ?_⟩
  unfold pStr
  rw [hts, pToks_quote]
  simp [preAll]

theorem pStr_reads {s x r : Str} (h : pStr s = some (x, r)) : ∃ u, ReadsAs u x ∧ s = u ++ 34 :: r := by
  have hp : ∃ ts, pToks s = some (ts, r) := by
    unfold pStr at h
    split at h
    · cases h
    · rename_i hp
      cases h
      exact ⟨_, hp⟩
  obtain ⟨ts, hp⟩ := hp
  obtain ⟨u, hu, e⟩ := pToks_loose _ s le_rfl ts r hp
  obtain ⟨x', hl, hx⟩ := loose_reads hu
  have := hx r
  rw [← e, h] at this
  cases this
  exact ⟨u, ⟨hl, hx⟩, e⟩

/-! ## Numbers -/

theorem digit_iff (c : UInt8) : isDigit c = true ↔ c ∈ lit "0123456789" :=
  forall_byte (P := fun c => isDigit c = true ↔ c ∈ lit "0123456789") (by decide +kernel) c

theorem digits_iff {s : Str} : DigitRow s ↔ s.all isDigit = true ∧ s ≠ [] := by
  unfold DigitRow
  rw [List.all_eq_true]
  constructor
  · rintro ⟨h1, h2⟩; exact ⟨fun c hc => (digit_iff c).mpr (h2 c hc), h1⟩
  · rintro ⟨h1, h2⟩; exact ⟨h2, fun c hc => (digit_iff c).mp (h1 c hc)⟩

theorem jsonNumber_iff {t : Str} : JsonNumber t ↔ okNum t := by
  have l0 : lit "0" = [48] := by decide
  have lm : lit "-" = [45] := by decide
  have lp : lit "+" = [43] := by decide
  have ld : lit "." = [46] := by decide
  have le : lit "e" = [101] := by decide
  have lE : lit "E" = [69] := by decide
  constructor
  · rintro ⟨sign, int, frac, exp, rfl, hs, hi, hf, he⟩
    have hsn : ∃ neg, sign = signText neg := by
      rcases hs with rfl | rfl
      · exact ⟨false, rfl⟩
      · exact ⟨true, lm⟩
    have hint : int.all isDigit = true ∧ int ≠ [] ∧ (int = [48] ∨ int.head? ≠ some 48) := by
      rcases hi with rfl | ⟨hi, h0⟩
      · rw [l0]; exact ⟨by decide, by decide, Or.inl rfl⟩
      · obtain ⟨a, b⟩ := digits_iff.mp hi
        exact ⟨a, b, Or.inr h0⟩
    have hfr : ∃ fp, fp.all isDigit = true ∧ frac = (if fp = [] then [] else 46 :: fp) := by
      rcases hf with rfl | ⟨d, hd, rfl⟩
      · exact ⟨[], rfl, rfl⟩
      · obtain ⟨a, b⟩ := digits_iff.mp hd
        exact ⟨d, a, by rw [if_neg b, ld]; rfl⟩
    have hex : ∃ ex, ExpOk ex ∧ exp = expText ex := by
      rcases he with rfl | ⟨e, s, d, h1, h2, h3, rfl⟩
      · exact ⟨none, trivial, rfl⟩
      · obtain ⟨a, b⟩ := digits_iff.mp h3
        have h2' : s = [] ∨ s = [43] ∨ s = [45] := by rwa [lp, lm] at h2
        rcases h1 with rfl | rfl
        · exact ⟨some (101, s, d), ⟨Or.inl rfl, h2', a, b⟩, by rw [le, expText]; simp⟩
        · exact ⟨some (69, s, d), ⟨Or.inr rfl, h2', a, b⟩, by rw [lE, expText]; simp⟩
    obtain ⟨neg, rfl⟩ := hsn
    obtain ⟨fp, hfp, rfl⟩ := hfr
    obtain ⟨ex, hex, rfl⟩ := hex
    have := okNum_text neg (⟨hint.1, hint.2.1, hfp, hex⟩ : NumOk int fp ex) hint.2.2
    rw [numText] at this
    simpa only [List.append_assoc] using this
  · intro h
    obtain ⟨neg, ip, fp, ex, rfl, hok, h0⟩ := okNum_parts0 h
    refine ⟨signText neg, ip, if fp = [] then [] else 46 :: fp, expText ex, by rw [numText]; simp only [List.append_assoc], ?_, ?_, ?_, ?_⟩
    · cases neg
      · exact Or.inl rfl
      · exact Or.inr lm.symm
    · rcases h0 with rfl | h0
      · exact Or.inl l0.symm
      · exact Or.inr ⟨digits_iff.mpr ⟨hok.hip, hok.hne⟩, h0⟩
    · by_cases hf : fp = []
      · exact Or.inl (if_pos hf)
      · refine Or.inr ⟨fp, digits_iff.mpr ⟨hok.hfp, hf⟩, ?_⟩
        rw [if_neg hf, ld]; rfl
    · have hx := hok.hex
      rcases ex with _ | ⟨x, sg, ds⟩
      · exact Or.inl rfl
      · obtain ⟨h1, h2, h3, h4⟩ := hx
        refine Or.inr ⟨[x], sg, ds, ?_, by rw [lp, lm]; exact h2, digits_iff.mpr ⟨h3, h4⟩, by simp [expText]⟩
        rcases h1 with rfl | rfl
        · exact Or.inl le.symm
        · exact Or.inr lE.symm

/-! ## White space -/

theorem ws_iff (c : UInt8) : isWs c = true ↔ c ∈ lit " \t\n\r" :=
  forall_byte (P := fun c => isWs c = true ↔ c ∈ lit " \t\n\r") (by decide +kernel) c

theorem skipWs_blank : ∀ {a : Str}, Blank a → ∀ r, skipWs (a ++ r) = skipWs r
  | [], _, _ => rfl
  | c :: a, h, r => by
    rw [List.cons_append, skipWs, (ws_iff c).mpr (h c (by simp)), if_pos rfl, skipWs_blank (fun d hd => h d (by simp [hd]))]

theorem skipWs_split : ∀ s : Str, ∃ a, Blank a ∧ s = a ++ skipWs s
  | [] => ⟨[], (by intro c hc; cases hc), rfl⟩
  | c :: s => by
    rw [skipWs]
    split
    · rename_i hc
      obtain ⟨a, h1, h2⟩ := skipWs_split s
      refine ⟨c :: a, ?_, by rw [List.cons_append, ← h2]⟩
      intro d hd
      rcases List.mem_cons.mp hd with rfl | hd
      · exact (ws_iff _).mp hc
      · exact h1 d hd
    · exact ⟨[], (by intro d hd; cases hd), rfl⟩

theorem skipWs_eq {s t : Str} (h : skipWs s = t) : ∃ a, Blank a ∧ s = a ++ t := by
  obtain ⟨a, h1, h2⟩ := skipWs_split s
  exact ⟨a, h1, by rw [← h]; exact h2⟩

/-! ## Values -/

/-- What may follow a number. -/
def NumEnd (t : Str) : Prop := ∀ c r, t = c :: r → isNumByte c = false

theorem numEnd_nil : NumEnd [] := by intro c r h; cases h

theorem numEnd_cons {c : UInt8} {r : Str} (h : isNumByte c = false) : NumEnd (c :: r) := by
  intro d r' e; cases e; exact h

theorem numEnd_blank {b t : Str} (hb : Blank b) (ht : NumEnd t) : NumEnd (b ++ t) := by
  cases b with
  | nil => exact ht
  | cons c b =>
    have : ∀ c : UInt8, isWs c = true → isNumByte c = false := forall_byte (by decide +kernel)
    exact numEnd_cons (this c ((ws_iff c).mpr (hb c (by simp))))

theorem pVal_number {f : Nat} {s t : Str} (hs : okNum s) (ht : NumEnd t) : pVal (f + 1) (s ++ t) = some (.num s, t) := by
  obtain ⟨c, r, rfl, hc⟩ := okNum_head hs
  have key : ∀ c : UInt8, (isDigit c = true ∨ c = 45) →
      isWs c = false ∧ c ≠ 123 ∧ c ≠ 91 ∧ c ≠ 34 ∧ c ≠ 116 ∧ c ≠ 102 ∧ c ≠ 110 :=
    forall_byte (by decide +kernel)
  obtain ⟨k1, k2, k3, k4, k5, k6, k7⟩ := key c hc
  have htd := takeWhile_append_stop hs.2 ht
  rw [List.cons_append] at htd ⊢
  rw [pVal, skipWs_cons k1]
  simp only [k2, k3, k4, if_false]
  rw [show lit "true" = 116 :: lit "rue" by decide, show lit "false" = 102 :: lit "alse" by decide,
    show lit "null" = 110 :: lit "ull" by decide, hasPrefix_head_ne k5, hasPrefix_head_ne k6,
    hasPrefix_head_ne k7]
  simp only [Bool.false_eq_true, if_false]
  rw [htd.1, htd.2, hs.1]
  rfl

/-- White space in front of a value changes nothing. -/
theorem pVal_blank {f : Nat} {a s : Str} (ha : Blank a) : pVal f (a ++ s) = pVal f s := by
  cases f with
  | zero => rw [pVal, pVal]
  | succ f => rw [pVal, pVal, skipWs_blank ha]

theorem pMembers_blank {f : Nat} {a s : Str} (ha : Blank a) : pMembers f (a ++ s) = pMembers f s := by
  cases f with
  | zero => rw [pMembers, pMembers]
  | succ f => rw [pMembers, pMembers, skipWs_blank ha]

theorem pElems_blank {f : Nat} {a s : Str} (ha : Blank a) : pElems f (a ++ s) = pElems f s := by
  cases f with
  | zero => rw [pElems, pElems]
  | succ f => rw [pElems, pElems, pVal_blank ha]

theorem pMembers_skip {f : Nat} {s : Str} : pMembers f (skipWs s) = pMembers f s := by
  obtain ⟨a, h1, h2⟩ := skipWs_split s
  conv => rhs; rw [h2]
  rw [pMembers_blank h1]

theorem pElems_skip {f : Nat} {s : Str} : pElems f (skipWs s) = pElems f s := by
  obtain ⟨a, h1, h2⟩ := skipWs_split s
  conv => rhs; rw [h2]
  rw [pElems_blank h1]

theorem lq : lit "\"" = [34] := by decide
theorem llb : lit "[" = [91] := by decide
theorem lrb : lit "]" = [93] := by decide
theorem llc : lit "{" = [123] := by decide
theorem lrc : lit "}" = [125] := by decide
theorem lcomma : lit "," = [44] := by decide
theorem lcolon : lit ":" = [58] := by decide

variable {S : Str → Str → Prop}

/-- First byte of a value. -/
theorem valueText_head {t : Str} {v : JV} (h : ValueText S t v) : ∃ c r, t = c :: r ∧ isWs c = false ∧ c ≠ 93 ∧ c ≠ 125 := by
  cases h with
  | null => exact ⟨110, lit "ull", by decide, by decide, by decide, by decide⟩
  | true => exact ⟨116, lit "rue", by decide, by decide, by decide, by decide⟩
  | false => exact ⟨102, lit "alse", by decide, by decide, by decide, by decide⟩
  | num h =>
    obtain ⟨c, r, rfl, hc⟩ := okNum_head (jsonNumber_iff.mp h)
    have key : ∀ c : UInt8, (isDigit c = true ∨ c = 45) → isWs c = false ∧ c ≠ 93 ∧ c ≠ 125 :=
      forall_byte (by decide +kernel)
    exact ⟨c, r, rfl, key c hc⟩
  | str h => exact ⟨34, _, by rw [lq]; rfl, by decide, by decide, by decide⟩
  | arr0 h => exact ⟨91, _, by rw [llb]; rfl, by decide, by decide, by decide⟩
  | arr h => exact ⟨91, _, by rw [llb]; rfl, by decide, by decide, by decide⟩
  | obj0 h => exact ⟨123, _, by rw [llc]; rfl, by decide, by decide, by decide⟩
  | obj h => exact ⟨123, _, by rw [llc]; rfl, by decide, by decide, by decide⟩

theorem elemsText_head {t : Str} {xs : List JV} (h : ElemsText S t xs) (r : Str) : ∃ c r', skipWs (t ++ r) = c :: r' ∧ c ≠ 93 := by
  cases h with
  | one ha h hb =>
    obtain ⟨c, r', rfl, h1, h2, _⟩ := valueText_head h
    exact ⟨c, _, by rw [List.append_assoc, List.append_assoc, skipWs_blank ha, List.cons_append, skipWs_cons h1], h2⟩
  | cons ha h hb hr =>
    obtain ⟨c, r', rfl, h1, h2, _⟩ := valueText_head h
    exact ⟨c, _, by simp only [List.append_assoc]; rw [skipWs_blank ha, List.cons_append, skipWs_cons h1], h2⟩

theorem membersText_head {t : Str} {ms : List (Str × JV)} (h : MembersText S t ms) (r : Str) : ∃ r', skipWs (t ++ r) = 34 :: r' := by
  cases h with
  | one ha => exact ⟨_, by simp only [List.append_assoc]; rw [skipWs_blank ha, lq, List.cons_append, skipWs_cons (by decide)]⟩
  | cons ha => exact ⟨_, by simp only [List.append_assoc]; rw [skipWs_blank ha, lq, List.cons_append, skipWs_cons (by decide)]⟩

/-- The three readers on texts of the grammar. -/
theorem reads_text (hS : ∀ u s, S u s → ∀ r, pStr (u ++ 34 :: r) = some (s, r)) : ∀ (f : Nat),
    (∀ (t : Str) (v : JV) (r : Str), ValueText S t v → NumEnd r → t.length < f → pVal f (t ++ r) = some (v, r))
    ∧ (∀ (t : Str) (ms : List (Str × JV)) (r : Str), MembersText S t ms → t.length < f →
        pMembers f (t ++ 125 :: r) = some (ms, r))
    ∧ (∀ (t : Str) (xs : List JV) (r : Str), ElemsText S t xs → t.length + 1 < f →
        pElems f (t ++ 93 :: r) = some (xs, r)) := by
  intro f
  induction f with
  | zero => exact ⟨fun _ _ _ _ _ h => absurd h (by omega), fun _ _ _ _ h => absurd h (by omega), fun _ _ _ _ h => absurd h (by omega)⟩
  | succ f ih =>
    obtain ⟨ih1, ih2, ih3⟩ := ih
    refine ⟨?_, ?_, ?_⟩
    · intro t v r hv hr hf
      cases hv with
      | null =>
        change pVal (f + 1) (110 :: 117 :: 108 :: 108 :: r) = _
        rw [pVal, skipWs_cons (by decide)]
        rfl
      | true =>
        change pVal (f + 1) (116 :: 114 :: 117 :: 101 :: r) = _
        rw [pVal, skipWs_cons (by decide)]
        rfl
      | false =>
        change pVal (f + 1) (102 :: 97 :: 108 :: 115 :: 101 :: r) = _
        rw [pVal, skipWs_cons (by decide)]
        rfl
      | num h => exact pVal_number (jsonNumber_iff.mp h) hr
      | @str u s h =>
        have := hS u s h r
        rw [lq, List.append_assoc, List.append_assoc]
        change pVal (f + 1) (34 :: (u ++ 34 :: r)) = _
        rw [pVal, skipWs_cons (by decide)]
        simp only [show (34 : UInt8) ≠ 123 by decide, show (34 : UInt8) ≠ 91 by decide, if_false, if_true, this]
      | @arr0 w h =>
        rw [llb, lrb, List.append_assoc, List.append_assoc]
        change pVal (f + 1) (91 :: (w ++ 93 :: r)) = _
        rw [pVal, skipWs_cons (by decide)]
        simp only [show (91 : UInt8) ≠ 123 by decide, if_false, if_true]
        rw [skipWs_blank h, skipWs_cons (by decide)]
        simp
      | @arr u xs h =>
        rw [llb, lrb] at hf ⊢
        simp only [List.length_append, List.length_cons, List.length_nil] at hf
        rw [List.append_assoc, List.append_assoc]
        change pVal (f + 1) (91 :: (u ++ 93 :: r)) = _
        have ih := ih3 u xs r h (by omega)
        obtain ⟨c, r', e, hc⟩ := elemsText_head h (93 :: r)
        rw [← pElems_skip, e] at ih
        rw [pVal, skipWs_cons (by decide)]
        simp only [show (91 : UInt8) ≠ 123 by decide, if_false, if_true, e, hc, ih]
      | @obj0 w h =>
        rw [llc, lrc, List.append_assoc, List.append_assoc]
        change pVal (f + 1) (123 :: (w ++ 125 :: r)) = _
        rw [pVal, skipWs_cons (by decide)]
        simp only [if_true]
        rw [skipWs_blank h, skipWs_cons (by decide)]
        simp
      | @obj u ms h =>
        rw [llc, lrc] at hf ⊢
        simp only [List.length_append, List.length_cons, List.length_nil] at hf
        rw [List.append_assoc, List.append_assoc]
        change pVal (f + 1) (123 :: (u ++ 125 :: r)) = _
        have ih := ih2 u ms r h (by omega)
        obtain ⟨r', e⟩ := membersText_head h (125 :: r)
        rw [← pMembers_skip, e] at ih
        rw [pVal, skipWs_cons (by decide)]
        simp only [if_true, e, show (34 : UInt8) ≠ 125 by decide, if_false, ih]
    · intro t ms r h hf
      cases h with
      | @one a k b c u d key v ha hk hb hc h hd =>
        simp only [List.length_append] at hf
        rw [lq] at hf
        simp only [List.length_cons] at hf
        rw [lq, lcolon]
        simp only [List.append_assoc, List.cons_append, List.nil_append]
        rw [pMembers_blank ha, pMembers, skipWs_cons (by decide)]
        simp only [if_true]
        rw [hS k key hk]
        simp only
        rw [skipWs_blank hb, skipWs_cons (by decide)]
        simp only [if_true]
        rw [pVal_blank hc, ih1 u v _ h (numEnd_blank hd (numEnd_cons (by decide))) (by omega)]
        simp only
        rw [skipWs_blank hd, skipWs_cons (by decide)]
        simp
      | @cons a k b c u d w key v ms ha hk hb hc h hd hr =>
        simp only [List.length_append] at hf
        rw [lq] at hf
        simp only [List.length_cons] at hf
        rw [lq, lcolon, lcomma]
        simp only [List.append_assoc, List.cons_append, List.nil_append]
        rw [pMembers_blank ha, pMembers, skipWs_cons (by decide)]
        simp only [if_true]
        rw [hS k key hk]
        simp only
        rw [skipWs_blank hb, skipWs_cons (by decide)]
        simp only [if_true]
        rw [pVal_blank hc, ih1 u v _ h (numEnd_blank hd (numEnd_cons (by decide))) (by omega)]
        simp only
        rw [skipWs_blank hd, skipWs_cons (by decide)]
        simp only [if_true]
        rw [ih2 w ms r hr (by omega)]
    · intro t xs r h hf
      cases h with
      | @one a u b v ha h hb =>
        simp only [List.length_append] at hf
        simp only [List.append_assoc]
        rw [pElems_blank ha, pElems, ih1 u v _ h (numEnd_blank hb (numEnd_cons (by decide))) (by omega)]
        simp only
        rw [skipWs_blank hb, skipWs_cons (by decide)]
        simp
      | @cons a u b w v vs ha h hb hr =>
        simp only [List.length_append] at hf
        obtain ⟨c, r', hu, _⟩ := valueText_head h
        have hu1 : 1 ≤ u.length := by rw [hu]; simp
        rw [lcomma] at hf ⊢
        simp only [List.length_cons] at hf
        simp only [List.append_assoc, List.cons_append, List.nil_append]
        rw [pElems_blank ha, pElems, ih1 u v _ h (numEnd_blank hb (numEnd_cons (by decide))) (by omega)]
        simp only
        rw [skipWs_blank hb, skipWs_cons (by decide)]
        simp only [if_true]
        rw [ih3 w vs r hr (by omega)]

/-- Texts of the grammar are parsed as what they mean. -/
theorem parse_text (hS : ∀ u s, S u s → ∀ r, pStr (u ++ 34 :: r) = some (s, r)) {t : Str} {v : JV} (h : JsonText S t v) :
    parse t = some v := by
  obtain ⟨a, u, b, ha, hu, hb, rfl⟩ := h
  have := (reads_text hS ((a ++ u ++ b).length + 1)).1 u v b hu (by
    have := numEnd_blank hb numEnd_nil
    rwa [List.append_nil] at this) (by simp only [List.length_append]; omega)
  unfold parse
  rw [List.append_assoc] at this ⊢
  rw [pVal_blank ha, this]
  have hs : skipWs b = [] := by
    have := skipWs_blank hb []
    rwa [List.append_nil] at this
  simp only [hs, if_true]

theorem hasPrefix_split {s p : Str} (h : hasPrefix s p = true) : s = p ++ s.drop p.length := by
  have : p.isPrefixOf s = true := h
  rw [List.isPrefixOf_iff_prefix] at this
  obtain ⟨t, rfl⟩ := this
  simp

/-- What the three readers accept is in the grammar. -/
theorem text_reads : ∀ (f : Nat),
    (∀ (s : Str) (v : JV) (r : Str), pVal f s = some (v, r) → ∃ a t, Blank a ∧ ValueText ReadsAs t v ∧ s = a ++ t ++ r)
    ∧ (∀ (s : Str) (ms : List (Str × JV)) (r : Str), pMembers f s = some (ms, r) → ∃ t, MembersText ReadsAs t ms ∧ s = t ++ 125 :: r)
    ∧ (∀ (s : Str) (xs : List JV) (r : Str), pElems f s = some (xs, r) → ∃ t, ElemsText ReadsAs t xs ∧ s = t ++ 93 :: r) := by
  intro f
  induction f with
  | zero =>
    refine ⟨?_, ?_, ?_⟩ <;> intro s v t h
    · rw [pVal] at h; cases h
    · rw [pMembers] at h; cases h
    · rw [pElems] at h; cases h
  | succ f ih =>
    obtain ⟨ih1, ih2, ih3⟩ := ih
    refine ⟨?_, ?_, ?_⟩
    · intro s v r h
      rw [pVal] at h
      obtain ⟨a, ha, hs⟩ := skipWs_split s
      suffices hsuf : ∃ t, ValueText ReadsAs t v ∧ skipWs s = t ++ r by
        obtain ⟨t, ht, e⟩ := hsuf
        exact ⟨a, t, ha, ht, by rw [List.append_assoc, ← e]; exact hs⟩
      cases hk : skipWs s with
      | nil => rw [hk] at h; cases h
      | cons c r0 =>
        rw [hk] at h
        simp only at h
        split at h
        · rename_i hc
          obtain ⟨w, hw, e0⟩ := skipWs_split r0
          cases hk2 : skipWs r0 with
          | nil => rw [hk2] at h; cases h
          | cons d r' =>
            rw [hk2] at h e0
            simp only at h
            split at h
            · rename_i hd
              cases h
              exact ⟨_, .obj0 hw, by rw [hc, hd] at *; rw [e0, llc, lrc]; simp⟩
            · split at h
              · cases h
              · rename_i ms t hm
                cases h
                rw [← hk2, pMembers_skip] at hm
                obtain ⟨t', ht', e1⟩ := ih2 _ _ _ hm
                exact ⟨_, .obj ht', by rw [e1, hc, llc, lrc]; simp⟩
        · split at h
          · rename_i hc
            obtain ⟨w, hw, e0⟩ := skipWs_split r0
            cases hk2 : skipWs r0 with
            | nil => rw [hk2] at h; cases h
            | cons d r' =>
              rw [hk2] at h e0
              simp only at h
              split at h
              · rename_i hd
                cases h
                exact ⟨_, .arr0 hw, by rw [hc, hd] at *; rw [e0, llb, lrb]; simp⟩
              · split at h
                · cases h
                · rename_i xs t hm
                  cases h
                  rw [← hk2, pElems_skip] at hm
                  obtain ⟨t', ht', e1⟩ := ih3 _ _ _ hm
                  exact ⟨_, .arr ht', by rw [e1, hc, llb, lrb]; simp⟩
          · split at h
            · rename_i hc
              split at h
              · cases h
              · rename_i x t hm
                cases h
                obtain ⟨u, hu, e⟩ := pStr_reads hm
                exact ⟨_, .str hu, by rw [e, hc, lq]; simp⟩
            · split at h
              · rename_i hp
                cases h
                exact ⟨_, .true, hasPrefix_split hp⟩
              · split at h
                · rename_i hp
                  cases h
                  exact ⟨_, .false, hasPrefix_split hp⟩
                · split at h
                  · rename_i hp
                    cases h
                    exact ⟨_, .null, hasPrefix_split hp⟩
                  · split at h
                    · rename_i hn
                      cases h
                      refine ⟨_, .num (jsonNumber_iff.mpr ⟨hn, List.all_takeWhile⟩), ?_⟩
                      rw [List.takeWhile_append_dropWhile]
                    · cases h
    · intro s ms r h
      rw [pMembers] at h
      obtain ⟨a, ha, hs⟩ := skipWs_split s
      cases hk : skipWs s with
      | nil => rw [hk] at h; cases h
      | cons c r0 =>
        rw [hk] at h hs
        simp only at h
        split at h
        · rename_i hc
          split at h
          · cases h
          · rename_i k r1 hm
            obtain ⟨u, hu, e⟩ := pStr_reads hm
            obtain ⟨b, hb, hs1⟩ := skipWs_split r1
            cases hk1 : skipWs r1 with
            | nil => rw [hk1] at h; cases h
            | cons d r2 =>
              rw [hk1] at h hs1
              simp only at h
              split at h
              · rename_i hd
                split at h
                · cases h
                · rename_i v r3 hv
                  obtain ⟨c2, t, hc2, ht, e2⟩ := ih1 _ _ _ hv
                  obtain ⟨d2, hd2, hs3⟩ := skipWs_split r3
                  cases hk3 : skipWs r3 with
                  | nil => rw [hk3] at h; cases h
                  | cons x r4 =>
                    rw [hk3] at h hs3
                    simp only at h
                    split at h
                    · rename_i hx
                      split at h
                      · cases h
                      · rename_i ms' t' hm'
                        cases h
                        obtain ⟨w, hw, e4⟩ := ih2 _ _ _ hm'
                        refine ⟨_, .cons ha hu hb hc2 ht hd2 hw, ?_⟩
                        rw [hs, e, hs1, e2, hs3, e4, hc, hd, hx, lq, lcolon, lcomma]
                        simp
                    · split at h
                      · rename_i hx
                        cases h
                        refine ⟨_, .one ha hu hb hc2 ht hd2, ?_⟩
                        rw [hs, e, hs1, e2, hs3, hc, hd, hx, lq, lcolon]
                        simp
                      · cases h
              · cases h
        · cases h
    · intro s xs r h
      rw [pElems] at h
      split at h
      · cases h
      · rename_i v r3 hv
        obtain ⟨a, t, ha, ht, e⟩ := ih1 _ _ _ hv
        obtain ⟨b, hb, hs3⟩ := skipWs_split r3
        cases hk3 : skipWs r3 with
        | nil => rw [hk3] at h; cases h
        | cons x r4 =>
          rw [hk3] at h hs3
          simp only at h
          split at h
          · rename_i hx
            split at h
            · cases h
            · rename_i xs' t' hm
              cases h
              obtain ⟨w, hw, e4⟩ := ih3 _ _ _ hm
              refine ⟨_, .cons ha ht hb hw, ?_⟩
              rw [e, hs3, e4, hx, lcomma]
              simp
          · split at h
            · rename_i hx
              cases h
              refine ⟨_, .one ha ht hb, ?_⟩
              rw [e, hs3, hx]
              simp
            · cases h

theorem text_parse {t : Str} {v : JV} (h : parse t = some v) : JsonText ReadsAs t v := by
  unfold parse at h
  split at h
  · cases h
  · rename_i v' r hp
    split at h
    · rename_i hr
      cases h
      obtain ⟨a, u, ha, hu, e⟩ := (text_reads _).1 _ _ _ hp
      obtain ⟨b, hb, e2⟩ := skipWs_split r
      rw [hr, List.append_nil] at e2
      exact ⟨a, u, b, ha, hu, hb, by rw [← e2]; exact e⟩
    · cases h

theorem parse_iff {t : Str} {v : JV} : parse t = some v ↔ JsonText ReadsAs t v :=
  ⟨text_parse, parse_text fun _ _ h => h.2⟩

/-! ## Other relations between quotes -/

variable {S' : Str → Str → Prop}

mutual
theorem valueText_map (h : ∀ u s, S u s → ∃ s', S' u s') : ∀ {t : Str} {v : JV}, ValueText S t v → ∃ v', ValueText S' t v'
  | _, _, .null => ⟨_, .null⟩
  | _, _, .true => ⟨_, .true⟩
  | _, _, .false => ⟨_, .false⟩
  | _, _, .num hn => ⟨_, .num hn⟩
  | _, _, .str hs => (h _ _ hs).elim fun _ hs' => ⟨_, .str hs'⟩
  | _, _, .arr0 hw => ⟨_, .arr0 hw⟩
  | _, _, .arr hx => (elemsText_map h hx).elim fun _ hx' => ⟨_, .arr hx'⟩
  | _, _, .obj0 hw => ⟨_, .obj0 hw⟩
  | _, _, .obj hm => (membersText_map h hm).elim fun _ hm' => ⟨_, .obj hm'⟩
theorem elemsText_map (h : ∀ u s, S u s → ∃ s', S' u s') : ∀ {t : Str} {xs : List JV}, ElemsText S t xs → ∃ xs', ElemsText S' t xs'
  | _, _, .one ha hv hb => (valueText_map h hv).elim fun _ hv' => ⟨_, .one ha hv' hb⟩
  | _, _, .cons ha hv hb hr => (valueText_map h hv).elim fun _ hv' => (elemsText_map h hr).elim fun _ hr' => ⟨_, .cons ha hv' hb hr'⟩
theorem membersText_map (h : ∀ u s, S u s → ∃ s', S' u s') : ∀ {t : Str} {ms : List (Str × JV)}, MembersText S t ms → ∃ ms', MembersText S' t ms'
  | _, _, .one ha hk hb hc hv hd => (h _ _ hk).elim fun _ hk' => (valueText_map h hv).elim fun _ hv' => ⟨_, .one ha hk' hb hc hv' hd⟩
  | _, _, .cons ha hk hb hc hv hd hr => (h _ _ hk).elim fun _ hk' => (valueText_map h hv).elim fun _ hv' =>
      (membersText_map h hr).elim fun _ hr' => ⟨_, .cons ha hk' hb hc hv' hd hr'⟩
end

theorem jsonText_map (h : ∀ u s, S u s → ∃ s', S' u s') {t : Str} {v : JV} (ht : JsonText S t v) : ∃ v', JsonText S' t v' := by
  obtain ⟨a, u, b, ha, hu, hb, e⟩ := ht
  obtain ⟨v', hu'⟩ := valueText_map h hu
  exact ⟨v', a, u, b, ha, hu', hb, e⟩

end Ckube
