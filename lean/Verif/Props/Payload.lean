import Verif.Lemmas.Kube
import Verif.Lemmas.Base64
import Verif.Spec.Label

/-! # C01, C02, C03: the pagination payload

`kube.SplittingValue` (kube/label.go:14), `kube.MergeValues` (kube/label.go:30) and unpadded
base64. -/

namespace Ckube

/-- **C01**, for payloads up to 10024 bytes: whatever the order in which the label values arrive,
merging them gives back the payload. Missing for the full claim: payloads above 10024 bytes, for
which it is false (`C01_false`), because the five-digit offset `10024` sorts before `9968`. -/
theorem C01_merge_split_partial (s : Str) (hdot : (46 : UInt8) ∉ s) (hlen : s.length ≤ 10024)
    (vs : List Str) (hp : vs.Perm (splittingValue s)) : mergeValues vs = some s :=
  mergeValues_splittingValue hdot hlen hp

/-- The hypotheses of C01 are met by a payload that is split in three, in reverse order. -/
example : ∃ s : Str, (46 : UInt8) ∉ s ∧ s.length ≤ 10024 ∧ (splittingValue s).length = 3
    ∧ mergeValues (splittingValue s).reverse = some s := by
  refine ⟨List.replicate 100 97 ++ List.replicate 50 98, by decide +kernel, by decide +kernel, by decide +kernel, ?_⟩
  exact C01_merge_split_partial _ (by decide +kernel) (by decide +kernel) _ (List.reverse_perm _)

/-- The payload of the counterexample: 10024 times `a`, then `b`. -/
def longPayload : Str := List.replicate 10024 97 ++ [98]

/-- **C01 is false** beyond 10024 bytes, even for values that arrive in the order in which they
were produced. -/
theorem C01_false : (46 : UInt8) ∉ longPayload
    ∧ mergeValues (splittingValue longPayload) ≠ some longPayload := by
  decide +kernel

/-- **C01 is false** at every length beyond 10024: there is a payload of this length that no order of its label values gives back. -/
theorem C01_false_beyond (n : Nat) (hn : 10024 < n) :
    ∃ s : Str, s.length = n ∧ (46 : UInt8) ∉ s ∧ ∀ vs : List Str, vs.Perm (splittingValue s) → mergeValues vs ≠ some s := by
  obtain ⟨m, hm⟩ : ∃ m, m = 10024 := ⟨_, rfl⟩
  obtain ⟨k, rfl⟩ : ∃ k, n = m + (k + 1) := ⟨n - 10025, by omega⟩
  refine ⟨List.replicate m 97 ++ List.replicate (k + 1) 98, by simp, ?_, ?_⟩
  · simp only [List.mem_append, List.mem_replicate, not_or, not_and]
    exact ⟨fun _ => by decide, fun _ => by decide⟩
  · intro vs hp hmv
    have hsort : (List.replicate m 97 ++ List.replicate (k + 1) 98 : Str).Pairwise (fun x y => x ≤ y) := by
      rw [List.pairwise_append]
      refine ⟨?_, ?_, ?_⟩
      · rw [List.pairwise_replicate]; exact Or.inr (by decide)
      · rw [List.pairwise_replicate]; exact Or.inr (by decide)
      · intro x hx y hy
        rw [(List.mem_replicate.1 hx).2, (List.mem_replicate.1 hy).2]
        decide
    have hlen : (List.replicate m 97 ++ List.replicate (k + 1) 98 : Str).length = m + (k + 1) := by simp
    have d1 : ((List.replicate m 97 ++ List.replicate (k + 1) 98 : Str).drop (56 * 178)).take 56 = List.replicate 56 97 := by
      rw [List.drop_append_of_le_length (by rw [List.length_replicate]; omega), List.take_append_of_le_length (by rw [List.length_drop, List.length_replicate]; omega),
        List.drop_replicate, List.take_replicate, show min 56 (m - 56 * 178) = 56 by omega]
    have d2 : ((List.replicate m 97 ++ List.replicate (k + 1) 98 : Str).drop (56 * 179)).take 56 = 98 :: (List.replicate k 98).take 55 := by
      rw [List.drop_append, List.drop_eq_nil_of_le (by rw [List.length_replicate]; omega), List.length_replicate, show 56 * 179 - m = 0 by omega,
        List.nil_append, List.drop_zero, List.replicate_succ]
      rfl
    generalize (List.replicate m 97 ++ List.replicate (k + 1) 98 : Str) = s at *
    have hv : splittingValue s = splitFrom s.length 0 s := by
      unfold splittingValue
      rw [if_neg (by simp [eachPartLen]; omega)]
    rw [hv] at hp
    have hA := chunk_mem_splitFrom 178 s.length 0 s (Nat.le_refl _) (by omega)
    have hB := chunk_mem_splitFrom 179 s.length 0 s (Nat.le_refl _) (by omega)
    rw [d1] at hA
    rw [d2] at hB
    rw [mergeValues_of_length (by rw [hp.length_eq]; exact splitFrom_length _ _ _ (by omega) (Nat.le_refl _))] at hmv
    have hs := sortBy_sorted strLe_total strLe_trans vs
    have hA' := (mem_sortBy strLe).2 (hp.mem_iff.2 hA)
    have hB' := (mem_sortBy strLe).2 (hp.mem_iff.2 hB)
    obtain ⟨l1, l2, hl⟩ := List.append_of_mem hB'
    rw [hl] at hs hA' hmv
    have hAl : chunkAt (0 + 56 * 178) (List.replicate 56 97) ∈ l2 := by
      rcases List.mem_append.1 hA' with h | h
      · have h1 := (List.pairwise_append.1 hs).2.2 _ h _ List.mem_cons_self
        rw [chunkAt, chunkAt, show pad4 (0 + 56 * 178) = lit "9968" by decide +kernel, show pad4 (0 + 56 * 179) = lit "10024" by decide +kernel] at h1
        have h2 : ∀ x y : Str, strLe (lit "9968" ++ x) (lit "10024" ++ y) = false := fun _ _ => rfl
        rw [List.append_assoc, List.append_assoc, h2] at h1
        exact absurd h1 (by decide)
      · rcases List.mem_cons.1 h with h | h
        · rw [chunkAt, chunkAt, show pad4 (0 + 56 * 178) = lit "9968" by decide +kernel, show pad4 (0 + 56 * 179) = lit "10024" by decide +kernel] at h
          exact absurd (List.cons.inj h).1 (by decide)
        · exact h
    obtain ⟨x, y, _, h2, rfl⟩ := mergeLoop_append hmv
    obtain ⟨z, h3, rfl⟩ := mergeLoop_chunk (by
      simp only [List.mem_cons, not_or]
      exact ⟨by decide, fun h => absurd (List.mem_replicate.1 (List.mem_of_mem_take h)).2 (by decide)⟩) h2
    obtain ⟨m1, m2, hm2⟩ := List.append_of_mem hAl
    rw [hm2] at h3
    obtain ⟨p, q, _, h4, rfl⟩ := mergeLoop_append h3
    obtain ⟨w, _, rfl⟩ := mergeLoop_chunk (by
      intro h
      exact absurd (List.mem_replicate.1 h).2 (by decide)) h4
    have h5 := (List.pairwise_append.1 hsort).2.1
    rw [List.cons_append, List.pairwise_cons] at h5
    have h6 := h5.1 97 (by simp)
    exact absurd h6 (by decide)

theorem mem_alnum_iff (c : UInt8) : c ∈ Spec.alnum ↔ isAlnum c = true := by
  revert c; exact forall_byte (by decide +kernel)

theorem isAlnum_of_isDigit {c : UInt8} (h : isDigit c = true) : isAlnum c = true := by
  simp only [isDigit, Bool.and_eq_true] at h
  simp [isAlnum, h.1, h.2]

/-- **C02**: every label value made from an alphanumeric payload of less than a million bytes is
legal. -/
theorem C02_chunks_legal (s : Str) (hs : ∀ b ∈ s, b ∈ Spec.alnum) (hlen : s.length < 1000000) :
    ∀ c ∈ splittingValue s, Spec.LegalLabelValue c := by
  intro c hc
  unfold splittingValue at hc
  split at hc
  · rename_i h
    rw [List.mem_singleton.mp hc]
    refine ⟨by simp [eachPartLen] at h; omega, ?_⟩
    rcases List.eq_nil_or_concat s with h0 | ⟨r, z, rfl⟩
    · exact Or.inl h0
    · right
      refine ⟨fun b hb => Or.inl (hs b hb), ?_, r, z, by simp, hs z (by simp)⟩
      obtain ⟨a, t, ht⟩ := List.exists_cons_of_ne_nil (l := r.concat z) (by simp)
      exact ⟨a, t, ht, hs a (by rw [ht]; simp)⟩
  · rename_i h
    obtain ⟨j, t, rfl, h1, h2, h3, h4, h5, h6⟩ := mem_splitFrom s.length 0 s c (Nat.le_refl _) hc
    have hne : s ≠ [] := by rintro rfl; simp at h
    have htne : t ≠ [] := fun h => hne (h5 h)
    have htl := List.length_pos_iff.mpr htne
    have hj : j < 1000000 := by omega
    have hp := pad4_length_le hj
    have hpp := pad4_length_pos j
    have hdig : ∀ b ∈ pad4 j, b ∈ Spec.alnum := by
      intro b hb
      exact (mem_alnum_iff b).mpr (isAlnum_of_isDigit (List.all_eq_true.mp (pad4_all j) b hb))
    refine ⟨by simp [chunkAt, eachPartLen] at h4 ⊢; omega, Or.inr ⟨?_, ?_, ?_⟩⟩
    · intro b hb
      simp only [chunkAt, List.mem_append, List.mem_singleton] at hb
      rcases hb with (hb | rfl) | hb
      · exact Or.inl (hdig b hb)
      · exact Or.inr (by decide)
      · exact Or.inl (hs b (h6 b hb))
    · obtain ⟨a, r, har⟩ := List.exists_cons_of_ne_nil (List.length_pos_iff.mp hpp)
      exact ⟨a, r ++ [46] ++ t, by simp [chunkAt, har], hdig a (by rw [har]; simp)⟩
    · rcases List.eq_nil_or_concat t with h0 | ⟨r, z, rfl⟩
      · exact absurd h0 htne
      · exact ⟨pad4 j ++ [46] ++ r, z, by simp [chunkAt], hs z (h6 z (by simp))⟩

/-- A split payload meeting the hypotheses of C02. -/
example : ∃ s : Str, (∀ b ∈ s, b ∈ Spec.alnum) ∧ s.length < 1000000
    ∧ (splittingValue s).length = 3 := by
  exact ⟨List.replicate 100 97 ++ List.replicate 50 57, by decide +kernel, by decide +kernel, by decide +kernel⟩

/-- **C03**: decoding the unpadded base64 form gives the byte string back. -/
theorem C03_base64_roundtrip (s : Str) : Base64.decode (Base64.encode s) = some s :=
  Base64.decode_encode s

/-- **C03**, second half: a byte outside the alphabet (other than line breaks, which Go's decoder
skips) is an error. -/
theorem C03_base64_rejects (s : Str) (c : UInt8) (hc : c ∈ s)
    (hal : c ∉ lit "ABCDEFGHIJKLMNOPQRSTUVWXYZabcdefghijklmnopqrstuvwxyz0123456789+/")
    (hlf : c ∉ lit "\n\r") : Base64.decode s = none := by
  have key : ∀ c : UInt8,
      c ∉ lit "ABCDEFGHIJKLMNOPQRSTUVWXYZabcdefghijklmnopqrstuvwxyz0123456789+/" →
      c ∉ lit "\n\r" → Base64.val c = none ∧ c ≠ 10 ∧ c ≠ 13 := forall_byte (by decide +kernel)
  obtain ⟨h1, h2, h3⟩ := key c hal hlf
  unfold Base64.decode
  rw [Base64.mapM_val_none]
  · rfl
  · exact ⟨c, List.mem_filter.mpr ⟨hc, by simp [h2, h3]⟩, h1⟩

/-- The characters of an encoding are in the alphabet, and the encoding is not the identity. -/
example : Base64.encode (lit "a?>") = lit "YT8+" ∧ Base64.decode (lit "YT8=") = none := by
  decide +kernel

end Ckube
