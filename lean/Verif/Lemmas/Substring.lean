import Verif.Lemmas.Search

/-! # Lemmas: where a text occurs in quoted text -/

namespace Ckube

/-- The characters of escape sequences after the backslash. -/
def escapeBytes : Str := lit "abcdefnrtvxuU0123456789\"\\"

theorem hexN_escape : ∀ (n v : Nat), ∀ b ∈ hexN n v, b ∈ escapeBytes
  | 0, _ => by simp [hexN]
  | n + 1, v => by
    intro b hb
    simp only [hexN, List.mem_append, List.mem_singleton] at hb
    rcases hb with hb | rfl
    · exact hexN_escape n _ b hb
    · have : ∀ k, k < 16 → hexDigit k ∈ escapeBytes := by decide +kernel
      exact this _ (Nat.mod_lt _ (by omega))

/-- A chunk is written as it is, or as an escape sequence. -/
theorem quoteChunk_cases (isPrint : Nat → Bool) (c : Chunk) :
    quoteChunk isPrint c = c.bytes ∨ (∃ r, quoteChunk isPrint c = 92 :: r) ∧ ∀ b ∈ quoteChunk isPrint c, b ∈ escapeBytes := by
  have hesc : ∀ {x : UInt8} {n v : Nat}, x ∈ escapeBytes → ∀ b ∈ [92, x] ++ hexN n v, b ∈ escapeBytes := by
    intro x n v hx b hb
    simp only [List.mem_append, List.mem_cons, List.not_mem_nil, or_false] at hb
    rcases hb with (rfl | rfl) | hb
    · decide
    · exact hx
    · exact hexN_escape n v b hb
  cases c with
  | ascii b =>
    simp only [quoteChunk, Chunk.bytes]
    split
    · rename_i hb
      exact Or.inr ⟨⟨_, rfl⟩, by rcases hb with rfl | rfl <;> decide⟩
    · split
      · exact Or.inl rfl
      · right
        repeat' split
        all_goals first
          | exact ⟨⟨_, rfl⟩, by decide⟩
          | exact ⟨⟨_, rfl⟩, hesc (by decide)⟩
  | multi r bs =>
    simp only [quoteChunk, Chunk.bytes]
    split
    · exact Or.inl rfl
    · right
      split
      · exact ⟨⟨_, rfl⟩, hesc (by decide)⟩
      · exact ⟨⟨_, rfl⟩, hesc (by decide)⟩
  | bad b => exact Or.inr ⟨⟨_, rfl⟩, hesc (by decide)⟩

/-- A beginning without a backslash of the quoted text is a beginning of the text. -/
theorem prefix_unquoted {isPrint : Nat → Bool} : ∀ (cs : List Chunk) (w : Str), (92 : UInt8) ∉ w →
    w <+: cs.flatMap (quoteChunk isPrint) → w <+: cs.flatMap Chunk.bytes
  | [], w, _, h => h
  | c :: cs, w, hw, h => by
    rw [List.flatMap_cons] at h ⊢
    rcases quoteChunk_cases isPrint c with hc | ⟨⟨r, hr⟩, _⟩
    · rw [hc] at h
      rcases List.prefix_or_prefix_of_prefix h (List.prefix_append c.bytes _) with h' | ⟨w', rfl⟩
      · exact h'.trans (List.prefix_append _ _)
      · exact (List.prefix_append_right_inj _).mpr (prefix_unquoted cs w' (fun hm => hw (List.mem_append_right _ hm))
          ((List.prefix_append_right_inj _).mp h))
    · rw [hr] at h
      cases w with
      | nil => exact List.nil_prefix
      | cons x w =>
        rw [List.cons_append, List.cons_prefix_cons] at h
        exact absurd (by rw [h.1]; simp) hw

/-- A text that begins with an ASCII character that is in no escape sequence and has no backslash occurs in the quoted form only where it
occurs in the text. -/
theorem infix_unquoted {isPrint : Nat → Bool} {b : UInt8} {w : Str} (hlt : b < 0x80) (hb : b ∉ escapeBytes) (hw : (92 : UInt8) ∉ w) :
    ∀ (cs : List Chunk), (∀ c ∈ cs, c.Ok) → (b :: w) <:+: cs.flatMap (quoteChunk isPrint) → (b :: w) <:+: cs.flatMap Chunk.bytes
  | [], _, h => h
  | c :: cs, hok, h => by
    have ih := infix_unquoted (isPrint := isPrint) hlt hb hw cs (fun x hx => hok x (List.mem_cons_of_mem _ hx))
    have skip : b ∉ quoteChunk isPrint c → (b :: w) <:+: (c :: cs).flatMap Chunk.bytes := by
      intro hn
      obtain ⟨pre, post, h⟩ := h
      rw [List.flatMap_cons, List.append_assoc, List.cons_append] at h
      obtain ⟨a', _, h2⟩ := append_cons_split hn h.symm
      obtain ⟨p, q, hpq⟩ := ih ⟨a', post, by rw [h2]; simp⟩
      exact ⟨c.bytes ++ p, q, by rw [List.flatMap_cons, ← hpq]; simp⟩
    rcases quoteChunk_cases isPrint c with hc | ⟨_, he⟩
    · cases c with
      | ascii x =>
        by_cases hx : x = b
        · subst hx
          obtain ⟨pre, post, h⟩ := h
          rw [List.flatMap_cons, hc] at h
          simp only [Chunk.bytes, List.singleton_append] at h
          cases pre with
          | nil =>
            simp only [List.nil_append, List.cons_append, List.cons.injEq, true_and] at h
            obtain ⟨q, hq⟩ := prefix_unquoted cs w hw ⟨post, h⟩
            exact ⟨[], q, by rw [List.flatMap_cons, ← hq]; rfl⟩
          | cons y pre =>
            simp only [List.cons_append, List.cons.injEq] at h
            obtain ⟨p, q, hpq⟩ := ih ⟨pre, post, by rw [← h.2]⟩
            exact ⟨x :: p, q, by rw [List.flatMap_cons, ← hpq]; rfl⟩
        · exact skip (by rw [hc]; intro hm; simp only [Chunk.bytes, List.mem_singleton] at hm; exact hx hm.symm)
      | multi r bs =>
        refine skip ?_
        rw [hc]
        intro hm
        have h0 : (Chunk.multi r bs).Ok := hok _ List.mem_cons_self
        have h1 := (multi_bytes_high h0).2 b hm
        have h2 := UInt8.lt_iff_toNat_lt.mp hlt
        simp at h2
        omega
      | bad x => simp [quoteChunk, Chunk.bytes] at hc
    · exact skip (fun hm => hb (he b hm))

end Ckube
