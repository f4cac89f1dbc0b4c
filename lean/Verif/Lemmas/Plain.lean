import Verif.Lemmas.Base64
import Verif.Lemmas.PageJson
import Verif.Lemmas.Search

/-! # Requests whose base64 text is alphanumeric -/

namespace Ckube

/-- An ASCII byte whose low six bits do not select `+` or `/`. -/
def okByte (b : UInt8) : Bool := b < 0x80 && b % 64 < 62

theorem sextets_ok (s : Str) (h : ∀ b ∈ s, okByte b = true) : ∀ n ∈ Base64.sextets s, n < 62 := by
  have hb : ∀ b : UInt8, okByte b = true → b.toNat < 128 ∧ b.toNat % 64 < 62 := forall_byte (by decide +kernel)
  fun_induction Base64.sextets s with
  | case1 => simp
  | case2 a =>
    have ha := hb a (h a (by simp))
    simp; omega
  | case3 a b =>
    have ha := hb a (h a (by simp))
    have hb' := hb b (h b (by simp))
    simp; omega
  | case4 a b c r ih =>
    have ha := hb a (h a (by simp))
    have hb' := hb b (h b (by simp))
    have hc := hb c (h c (by simp))
    have ih' := ih (fun x hx => h x (by simp [hx]))
    simp only [List.mem_cons]
    rintro n (h | h | h | h | h)
    · omega
    · omega
    · omega
    · omega
    · exact ih' n h

theorem encode_ok {s : Str} (h : ∀ b ∈ s, okByte b = true) : 43 ∉ Base64.encode s ∧ 47 ∉ Base64.encode s := by
  have key : ∀ n, n < 62 → Base64.char n ≠ 43 ∧ Base64.char n ≠ 47 := by decide +kernel
  rw [Base64.encode_eq]
  constructor
  · intro hm
    obtain ⟨n, hn, he⟩ := List.mem_map.mp hm
    exact (key n (sextets_ok s h n hn)).1 he
  · intro hm
    obtain ⟨n, hn, he⟩ := List.mem_map.mp hm
    exact (key n (sextets_ok s h n hn)).2 he

theorem hexN_ok : ∀ (n v : Nat), ∀ b ∈ hexN n v, okByte b = true
  | 0, _ => by simp [hexN]
  | n + 1, v => by
    intro b hb
    have key : ∀ k, k < 16 → okByte (hexDigit k) = true := by decide +kernel
    rw [hexN, List.mem_append, List.mem_singleton] at hb
    rcases hb with hb | rfl
    · exact hexN_ok n _ b hb
    · exact key _ (Nat.mod_lt _ (by decide))

theorem chunks_ascii {s : Str} (h : ∀ b ∈ s, b < 0x80) : chunks s = s.map Chunk.ascii := by
  unfold chunks
  induction s with
  | nil => rfl
  | cons b s ih =>
    have hb := h b (by simp)
    have : chunk1 b s = .ascii b := by unfold chunk1; rw [if_pos hb]
    rw [chunksFrom]
    simp only [this, List.map_cons]
    rw [← ih (fun x hx => h x (by simp [hx]))]
    rfl

/-- The text ckube writes for ASCII strings without `?`, `~` and DEL. -/
def plainByte (b : UInt8) : Bool := b < 0x80 && b ≠ 63 && b ≠ 126 && b ≠ 127

theorem encStr_ok {s : Str} (h : ∀ b ∈ s, plainByte b = true) : ∀ b ∈ Json.encStr s, okByte b = true := by
  have ha : ∀ a : UInt8, plainByte a = true → Json.htmlSafe a = true → okByte a = true := forall_byte (by decide +kernel)
  have hp : ∀ a : UInt8, plainByte a = true → a < 0x80 := forall_byte (by decide +kernel)
  have hch : ∀ a : UInt8, plainByte a = true → ∀ b ∈ Json.escChunk (.ascii a), okByte b = true := by
    intro a hpa b hb
    simp only [Json.escChunk] at hb
    split at hb
    · rename_i hs
      rw [List.mem_singleton] at hb
      subst hb
      exact ha b hpa hs
    · split at hb
      · rename_i hq
        simp only [List.mem_cons, List.not_mem_nil, or_false] at hb
        rcases hb with rfl | rfl
        · decide
        · rcases hq with rfl | rfl <;> decide
      · split at hb
        · simp only [List.mem_cons, List.not_mem_nil, or_false] at hb
          rcases hb with rfl | rfl <;> decide
        · split at hb
          · simp only [List.mem_cons, List.not_mem_nil, or_false] at hb
            rcases hb with rfl | rfl <;> decide
          · split at hb
            · simp only [List.mem_cons, List.not_mem_nil, or_false] at hb
              rcases hb with rfl | rfl <;> decide
            · rw [List.mem_append] at hb
              rcases hb with hb | hb
              · simp only [List.mem_cons, List.not_mem_nil, or_false] at hb
                rcases hb with rfl | rfl | rfl | rfl <;> decide
              · exact hexN_ok _ _ b hb
  intro b hb
  unfold Json.encStr at hb
  rw [chunks_ascii (fun b hb => hp b (h b hb))] at hb
  simp only [List.mem_append, List.mem_singleton, List.mem_flatMap, List.mem_map] at hb
  rcases hb with (rfl | ⟨c, ⟨a, ha', rfl⟩, hb⟩) | rfl
  · decide
  · exact hch a (h a ha') b hb
  · decide

theorem digits_ok : ∀ (f n : Nat), ∀ b ∈ digitsFuel f n, okByte b = true
  | 0, _ => by simp [digitsFuel]
  | f + 1, n => by
    have key : ∀ k, k < 10 → okByte ((48 + k).toUInt8) = true := by decide +kernel
    intro b hb
    unfold digitsFuel at hb
    split at hb
    · rename_i h
      rw [List.mem_singleton] at hb
      subst hb
      exact key n h
    · rw [List.mem_append, List.mem_singleton] at hb
      rcases hb with hb | rfl
      · exact digits_ok f _ b hb
      · exact key _ (Nat.mod_lt _ (by decide))

theorem intDigits_ok (i : Int) : ∀ b ∈ intDigits i, okByte b = true := by
  intro b hb
  unfold intDigits at hb
  split at hb
  · rcases List.mem_cons.mp hb with rfl | hb
    · decide
    · exact digits_ok _ _ b hb
  · exact digits_ok _ _ b hb

theorem join_bytes {P : UInt8 → Prop} {sep : Str} (hs : ∀ b ∈ sep, P b) : ∀ {l : List Str}, (∀ x ∈ l, ∀ b ∈ x, P b) →
    ∀ b ∈ join sep l, P b
  | [], _ => by simp [join]
  | [x], h => by
    intro b hb
    exact h x (by simp) b (by simpa [join] using hb)
  | x :: y :: l, h => by
    intro b hb
    rw [join, List.mem_append, List.mem_append] at hb
    rcases hb with (hb | hb) | hb
    · exact h x (by simp) b hb
    · exact hs b hb
    · exact join_bytes hs (fun z hz => h z (List.mem_cons_of_mem _ hz)) b hb

/-- The JSON text of a request with plain strings. -/
theorem toJson_ok {p : Paginate} (h1 : ∀ b ∈ p.sort, plainByte b = true) (h2 : ∀ b ∈ p.search, plainByte b = true) :
    ∀ b ∈ p.toJson, okByte b = true := by
  intro b hb
  unfold Paginate.toJson at hb
  simp only [List.mem_append, List.mem_singleton] at hb
  rcases hb with (rfl | hb) | rfl
  · decide
  · refine join_bytes (P := fun b => okByte b = true) (by decide) ?_ b hb
    intro x hx
    obtain ⟨kv, hkv, rfl⟩ := List.mem_map.mp hx
    have hv : (∀ b ∈ kv.1, okByte b = true) ∧ ∀ b ∈ kv.2, okByte b = true := by
      unfold Paginate.members at hkv
      simp only [List.mem_append] at hkv
      rcases hkv with (((hkv | hkv) | hkv) | hkv) | hkv
      all_goals
        split at hkv
        · simp at hkv
        · rw [List.mem_singleton] at hkv
          subst hkv
          refine ⟨by dsimp only; decide, ?_⟩
          first
            | exact intDigits_ok _
            | exact encStr_ok h1
            | exact encStr_ok h2
    intro b hb
    unfold encMember at hb
    simp only [List.mem_append, List.mem_cons, List.not_mem_nil, or_false] at hb
    rcases hb with ((rfl | hb) | rfl | rfl) | hb
    · decide
    · exact hv.1 b hb
    · decide
    · decide
    · exact hv.2 b hb
  · decide

end Ckube
