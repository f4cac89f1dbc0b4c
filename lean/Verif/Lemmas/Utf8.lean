import Verif.Model.Utf8
import Verif.Lemmas.Str

/-! # Facts about UTF-8 decoding -/

namespace Ckube

/-- `bs` is a valid multi-byte encoding of `r`. -/
inductive MultiOk : Nat → Str → Prop
  | two {b0 b1 : UInt8} : is2 b0 b1 = true → MultiOk (rune2 b0 b1) [b0, b1]
  | three {b0 b1 b2 : UInt8} : is3 b0 b1 b2 = true → MultiOk (rune3 b0 b1 b2) [b0, b1, b2]
  | four {b0 b1 b2 b3 : UInt8} : is4 b0 b1 b2 b3 = true →
      MultiOk (rune4 b0 b1 b2 b3) [b0, b1, b2, b3]

/-- Chunks that decoding can produce. -/
def Chunk.Ok : Chunk → Prop
  | .ascii b => b < 0x80
  | .multi r bs => MultiOk r bs
  | .bad b => ¬ b < 0x80

theorem chunk1_ok (b : UInt8) (r : Str) : (chunk1 b r).Ok := by
  unfold chunk1
  split
  · simpa [Chunk.Ok]
  · rename_i hb
    split
    · exact hb
    · split
      · exact MultiOk.two (by assumption)
      · split
        · exact hb
        · split
          · exact MultiOk.three (by assumption)
          · split
            · exact hb
            · split
              · exact MultiOk.four (by assumption)
              · exact hb

theorem chunk1_bytes (b : UInt8) (r : Str) : ∃ t, b :: r = (chunk1 b r).bytes ++ t
    ∧ 1 ≤ (chunk1 b r).bytes.length ∧ t = r.drop ((chunk1 b r).bytes.length - 1) := by
  unfold chunk1
  split
  · exact ⟨r, rfl, by simp [Chunk.bytes], by simp [Chunk.bytes]⟩
  · split
    · exact ⟨[], rfl, by simp [Chunk.bytes], by simp⟩
    · rename_i b1 r1
      split
      · exact ⟨r1, rfl, by simp [Chunk.bytes], by simp [Chunk.bytes]⟩
      · split
        · exact ⟨[b1], rfl, by simp [Chunk.bytes], by simp [Chunk.bytes]⟩
        · rename_i b2 r2
          split
          · exact ⟨r2, rfl, by simp [Chunk.bytes], by simp [Chunk.bytes]⟩
          · split
            · exact ⟨[b1, b2], rfl, by simp [Chunk.bytes], by simp [Chunk.bytes]⟩
            · rename_i b3 r3
              split
              · exact ⟨r3, rfl, by simp [Chunk.bytes], by simp [Chunk.bytes]⟩
              · exact ⟨b1 :: b2 :: b3 :: r3, rfl, by simp [Chunk.bytes], by simp [Chunk.bytes]⟩

theorem chunksFrom_bytes : ∀ (s : Str) (n : Nat),
    (chunksFrom n s).flatMap Chunk.bytes = s.drop n
  | [], n => by cases n <;> simp [chunksFrom]
  | b :: r, n + 1 => by simp [chunksFrom, chunksFrom_bytes r n]
  | b :: r, 0 => by
    obtain ⟨t, h1, h2, h3⟩ := chunk1_bytes b r
    simp only [chunksFrom, List.flatMap_cons, chunksFrom_bytes r, List.drop_zero]
    rw [← h3, ← h1]

/-- Decoding loses nothing. -/
theorem chunks_bytes (s : Str) : (chunks s).flatMap Chunk.bytes = s := by
  simpa [chunks] using chunksFrom_bytes s 0

theorem chunksFrom_ok : ∀ (s : Str) (n : Nat), ∀ c ∈ chunksFrom n s, c.Ok
  | [], n, c, h => by cases n <;> simp [chunksFrom] at h
  | b :: r, n + 1, c, h => chunksFrom_ok r n c (by simpa [chunksFrom] using h)
  | b :: r, 0, c, h => by
    simp only [chunksFrom, List.mem_cons] at h
    rcases h with rfl | h
    · exact chunk1_ok b r
    · exact chunksFrom_ok r _ c h

theorem chunks_ok (s : Str) : ∀ c ∈ chunks s, c.Ok := chunksFrom_ok s 0

/-- A string decodes without errors. -/
theorem validUtf8_iff {s : Str} : validUtf8 s = true ↔ ∀ b, Chunk.bad b ∉ chunks s := by
  simp only [validUtf8, List.all_eq_true]
  constructor
  · intro h b hb
    simpa using h _ hb
  · intro h c hc
    cases c with
    | ascii b => rfl
    | multi r bs => rfl
    | bad b => exact absurd hc (h b)

theorem toValidUtf8_of_valid {s : Str} (h : validUtf8 s = true) : toValidUtf8 s = s := by
  conv => rhs; rw [← chunks_bytes s]
  unfold toValidUtf8
  rw [validUtf8_iff] at h
  have : ∀ l : List Chunk, (∀ b, Chunk.bad b ∉ l) →
      l.flatMap (fun c => match c with | .bad _ => [0xEF, 0xBF, 0xBD] | c => c.bytes)
        = l.flatMap Chunk.bytes := by
    intro l
    induction l with
    | nil => intro _; rfl
    | cons c l ih =>
      intro hl
      rw [List.flatMap_cons, List.flatMap_cons, ih (fun b hb => hl b (by simp [hb]))]
      cases c with
      | ascii b => rfl
      | multi r bs => rfl
      | bad b => exact absurd (List.mem_cons_self) (hl b)
  exact this _ h

theorem isCont_iff {b : UInt8} : isCont b = true ↔ 0x80 ≤ b.toNat ∧ b.toNat ≤ 0xBF := by
  simp [isCont, UInt8.le_iff_toNat_le]

theorem is2_iff {b0 b1 : UInt8} : is2 b0 b1 = true ↔
    (0xC2 ≤ b0.toNat ∧ b0.toNat ≤ 0xDF) ∧ 0x80 ≤ b1.toNat ∧ b1.toNat ≤ 0xBF := by
  simp only [is2, Bool.and_eq_true, decide_eq_true_eq, UInt8.le_iff_toNat_le, isCont_iff]
  rfl

theorem eq_iff_toNat {a b : UInt8} : a = b ↔ a.toNat = b.toNat := UInt8.toNat_inj.symm

theorem is3_iff {b0 b1 b2 : UInt8} : is3 b0 b1 b2 = true ↔
    (0x80 ≤ b2.toNat ∧ b2.toNat ≤ 0xBF) ∧
    ((b0.toNat = 0xE0 ∧ 0xA0 ≤ b1.toNat ∧ b1.toNat ≤ 0xBF) ∨
     (0xE1 ≤ b0.toNat ∧ b0.toNat ≤ 0xEC ∧ 0x80 ≤ b1.toNat ∧ b1.toNat ≤ 0xBF) ∨
     (b0.toNat = 0xED ∧ 0x80 ≤ b1.toNat ∧ b1.toNat ≤ 0x9F) ∨
     (0xEE ≤ b0.toNat ∧ b0.toNat ≤ 0xEF ∧ 0x80 ≤ b1.toNat ∧ b1.toNat ≤ 0xBF)) := by
  simp only [is3, Bool.and_eq_true, Bool.or_eq_true, decide_eq_true_eq, UInt8.le_iff_toNat_le,
    isCont_iff, eq_iff_toNat, and_assoc, or_assoc]
  rfl

theorem is4_iff {b0 b1 b2 b3 : UInt8} : is4 b0 b1 b2 b3 = true ↔
    (0x80 ≤ b2.toNat ∧ b2.toNat ≤ 0xBF) ∧ (0x80 ≤ b3.toNat ∧ b3.toNat ≤ 0xBF) ∧
    ((b0.toNat = 0xF0 ∧ 0x90 ≤ b1.toNat ∧ b1.toNat ≤ 0xBF) ∨
     (0xF1 ≤ b0.toNat ∧ b0.toNat ≤ 0xF3 ∧ 0x80 ≤ b1.toNat ∧ b1.toNat ≤ 0xBF) ∨
     (b0.toNat = 0xF4 ∧ 0x80 ≤ b1.toNat ∧ b1.toNat ≤ 0x8F)) := by
  simp only [is4, Bool.and_eq_true, Bool.or_eq_true, decide_eq_true_eq, UInt8.le_iff_toNat_le,
    isCont_iff, eq_iff_toNat, and_assoc, or_assoc]
  rfl

theorem toUInt8_eq {n : Nat} {a : UInt8} (h : n = a.toNat) : n.toUInt8 = a := by
  subst h; simp

/-- Encoding the decoded rune gives the bytes back. -/
theorem encodeRune_multi {r : Nat} {bs : Str} (h : MultiOk r bs) : encodeRune r = bs := by
  cases h with
  | @two b0 b1 h =>
    rw [is2_iff] at h
    unfold encodeRune rune2
    rw [if_neg (by omega), if_pos (by omega), toUInt8_eq (a := b0) (by omega),
      toUInt8_eq (a := b1) (by omega)]
  | @three b0 b1 b2 h =>
    rw [is3_iff] at h
    unfold encodeRune rune3
    have := b0.toNat_lt
    rw [if_neg (by omega), if_neg (by omega), if_neg (by omega), if_pos (by omega),
      toUInt8_eq (a := b0) (by omega), toUInt8_eq (a := b1) (by omega),
      toUInt8_eq (a := b2) (by omega)]
  | @four b0 b1 b2 b3 h =>
    rw [is4_iff] at h
    unfold encodeRune rune4
    rw [if_neg (by omega), if_neg (by omega), if_neg (by omega), if_neg (by omega),
      toUInt8_eq (a := b0) (by omega), toUInt8_eq (a := b1) (by omega),
      toUInt8_eq (a := b2) (by omega), toUInt8_eq (a := b3) (by omega)]

theorem multi_bytes_high {r : Nat} {bs : Str} (h : MultiOk r bs) :
    bs ≠ [] ∧ ∀ b ∈ bs, 0x80 ≤ b.toNat := by
  cases h with
  | two h => rw [is2_iff] at h; simp; omega
  | three h => rw [is3_iff] at h; simp; omega
  | four h => rw [is4_iff] at h; simp; omega

end Ckube
