import Verif.Model.Stream

/-! # C59: the bytes of a proxied watch -/

namespace Ckube

/-- The bytes the API server sent. -/
def Spec.sentBytes (rs : List Rd) : Str := rs.filterMap Rd.data

/-- The reader gives a byte or an error with every read, never both. -/
def Spec.OneByte (rs : List Rd) : Prop := ∀ r ∈ rs, (r.data.isSome = true ↔ r.err = false)

/-- A line: its only line end is its last byte. -/
def Spec.IsLine (s : Str) : Prop := ∃ t : Str, s = t ++ [10] ∧ (10 : UInt8) ∉ t

open Spec

/-- The loop from any buffer without a line end. -/
theorem copyLoop_spec : ∀ (rs : List Rd) (buf : Str), OneByte rs → (10 : UInt8) ∉ buf → (∀ r ∈ rs, r.gone = false) →
    (∀ pre r post, rs = pre ++ r :: post → r.err = true → post = []) →
    ∃ lines last, (∀ l ∈ lines, IsLine l) ∧ (10 : UInt8) ∉ last ∧ lines.flatten ++ last = buf ++ sentBytes rs
      ∧ (((∃ r ∈ rs, r.err = true) ∧ copyLoop buf rs = (lines ++ [last], .returned))
        ∨ ((∀ r ∈ rs, r.err = false) ∧ copyLoop buf rs = (lines, .waits last)))
  | [], buf, _, hb, _, _ => ⟨[], buf, by simp, hb, by simp [sentBytes], Or.inr ⟨by simp, rfl⟩⟩
  | r :: rs, buf, h1, hb, hg, he => by
    by_cases herr : r.err = true
    · have hrs : rs = [] := he [] r rs rfl herr
      subst hrs
      have hd : r.data = none := by
        have := (h1 r (by simp)).mp
        cases hx : r.data with
        | none => rfl
        | some b => rw [hx, herr] at this; simp at this
      exact ⟨[], buf, by simp, hb, by simp [sentBytes, hd], Or.inl ⟨⟨r, by simp, herr⟩, by simp [copyLoop, herr]⟩⟩
    · have herr : r.err = false := by simpa using herr
      obtain ⟨b, hd⟩ := Option.isSome_iff_exists.mp ((h1 r (by simp)).mpr herr)
      have hgone := hg r (by simp)
      have ih := fun buf hbuf => copyLoop_spec rs buf (fun x hx => h1 x (by simp [hx])) hbuf (fun x hx => hg x (by simp [hx]))
        (fun pre x post hx => he (r :: pre) x post (by rw [hx]; rfl))
      by_cases hb10 : b = 10
      · obtain ⟨lines, last, i1, i2, i3, i4⟩ := ih [] (by simp)
        refine ⟨(buf ++ [b]) :: lines, last, ?_, i2, ?_, ?_⟩
        · intro l hl
          rcases List.mem_cons.mp hl with rfl | hl
          · exact ⟨buf, by rw [hb10], hb⟩
          · exact i1 l hl
        · rw [List.flatten_cons, List.append_assoc, i3]
          simp [sentBytes, hd]
        · have hstep : copyLoop buf (r :: rs) = ((buf ++ [b]) :: (copyLoop [] rs).1, (copyLoop [] rs).2) := by
            rw [copyLoop]; simp [herr, hd, hb10, hgone]
          rcases i4 with ⟨⟨x, hx, hxe⟩, i4⟩ | ⟨hx, i4⟩
          · exact Or.inl ⟨⟨x, by simp [hx], hxe⟩, by rw [hstep, i4]; rfl⟩
          · refine Or.inr ⟨?_, by rw [hstep, i4]⟩
            intro y hy
            rcases List.mem_cons.mp hy with rfl | hy
            · exact herr
            · exact hx y hy
      · obtain ⟨lines, last, i1, i2, i3, i4⟩ := ih (buf ++ [b]) (by
          intro hm
          rcases List.mem_append.mp hm with hm | hm
          · exact hb hm
          · exact hb10 (List.mem_singleton.mp hm).symm)
        refine ⟨lines, last, i1, i2, ?_, ?_⟩
        · rw [i3]; simp [sentBytes, hd]
        · have hstep : copyLoop buf (r :: rs) = copyLoop (buf ++ [b]) rs := by
            rw [copyLoop]; simp [herr, hd, hb10, hgone]
          rcases i4 with ⟨⟨x, hx, hxe⟩, i4⟩ | ⟨hx, i4⟩
          · exact Or.inl ⟨⟨x, by simp [hx], hxe⟩, by rw [hstep, i4]⟩
          · refine Or.inr ⟨?_, by rw [hstep, i4]⟩
            intro y hy
            rcases List.mem_cons.mp hy with rfl | hy
            · exact herr
            · exact hx y hy

/-- **C59**: while the client listens and the reader gives a byte or an error with every read, the client receives the bytes the API
server sent: each write is one line, and the end of the stream flushes what follows the last line end. Until then only the bytes
after the last line end are held back. Missing for the full claim: a byte that comes together with the error is lost
(`C59_false_last_byte`), a read of nothing becomes a zero byte (`C59_false_empty_read`). -/
theorem C59_stream_partial (rs : List Rd) (h1 : OneByte rs) (hg : ∀ r ∈ rs, r.gone = false)
    (hend : ∀ pre r post, rs = pre ++ r :: post → r.err = true → post = []) :
    ∃ lines last, (∀ l ∈ lines, IsLine l) ∧ (10 : UInt8) ∉ last ∧ lines.flatten ++ last = sentBytes rs
      ∧ (((∃ r ∈ rs, r.err = true) ∧ copyLoop [] rs = (lines ++ [last], .returned))
        ∨ ((∀ r ∈ rs, r.err = false) ∧ copyLoop [] rs = (lines, .waits last))) := by
  obtain ⟨lines, last, i1, i2, i3, i4⟩ := copyLoop_spec rs [] h1 (by simp) hg hend
  exact ⟨lines, last, i1, i2, by simpa using i3, i4⟩

/-- When the client goes away the loop ends, and what was written is a prefix of what was sent, cut at a line end. -/
theorem C59_client_gone (pre : List Rd) (r : Rd) (post : List Rd) (h1 : OneByte (pre ++ [r]))
    (hg : ∀ x ∈ pre, x.gone = false) (he : ∀ x ∈ pre ++ [r], x.err = false) (hr : r.gone = true) :
    ∃ lines last, (∀ l ∈ lines, IsLine l) ∧ (10 : UInt8) ∉ last ∧ lines.flatten ++ last = sentBytes (pre ++ [r])
      ∧ copyLoop [] (pre ++ r :: post) = (lines, .returned) := by
  suffices key : ∀ (pre : List Rd) (buf : Str), (10 : UInt8) ∉ buf → OneByte (pre ++ [r]) → (∀ x ∈ pre, x.gone = false) →
      (∀ x ∈ pre ++ [r], x.err = false) → ∃ lines last, (∀ l ∈ lines, IsLine l) ∧ (10 : UInt8) ∉ last
        ∧ lines.flatten ++ last = buf ++ sentBytes (pre ++ [r]) ∧ copyLoop buf (pre ++ r :: post) = (lines, .returned) by
    obtain ⟨a, b, c, d, e, f⟩ := key pre [] (by simp) h1 hg he
    exact ⟨a, b, c, d, by simpa using e, f⟩
  clear h1 hg he pre
  intro pre
  induction pre with
  | nil =>
    intro buf hb h1 _ he
    have herr := he r (by simp)
    obtain ⟨b, hd⟩ := Option.isSome_iff_exists.mp ((h1 r (by simp)).mpr herr)
    by_cases hb10 : b = 10
    · refine ⟨[buf ++ [b]], [], ?_, by simp, by simp [sentBytes, hd], by simp [copyLoop, herr, hd, hb10, hr]⟩
      intro l hl
      rw [List.mem_singleton] at hl
      exact ⟨buf, by rw [hl, hb10], hb⟩
    · refine ⟨[], buf ++ [b], by simp, ?_, by simp [sentBytes, hd], by simp [copyLoop, herr, hd, hb10, hr]⟩
      intro hm
      rcases List.mem_append.mp hm with hm | hm
      · exact hb hm
      · exact hb10 (List.mem_singleton.mp hm).symm
  | cons x pre ih =>
    intro buf hb h1 hg he
    have herr := he x (by simp)
    obtain ⟨b, hd⟩ := Option.isSome_iff_exists.mp ((h1 x (by simp)).mpr herr)
    have hgone := hg x (by simp)
    have ih := fun buf hbuf => ih buf hbuf (fun y hy => h1 y (List.mem_cons_of_mem _ hy)) (fun y hy => hg y (by simp [hy]))
      (fun y hy => he y (List.mem_cons_of_mem _ hy))
    by_cases hb10 : b = 10
    · obtain ⟨lines, last, i1, i2, i3, i4⟩ := ih [] (by simp)
      refine ⟨(buf ++ [b]) :: lines, last, ?_, i2, ?_, ?_⟩
      · intro l hl
        rcases List.mem_cons.mp hl with rfl | hl
        · exact ⟨buf, by rw [hb10], hb⟩
        · exact i1 l hl
      · rw [List.flatten_cons, List.append_assoc, i3]
        simp [sentBytes, hd]
      · rw [List.cons_append, copyLoop]; simp [herr, hd, hb10, hgone, i4]
    · obtain ⟨lines, last, i1, i2, i3, i4⟩ := ih (buf ++ [b]) (by
        intro hm
        rcases List.mem_append.mp hm with hm | hm
        · exact hb hm
        · exact hb10 (List.mem_singleton.mp hm).symm)
      refine ⟨lines, last, i1, i2, ?_, ?_⟩
      · rw [i3]; simp [sentBytes, hd]
      · rw [List.cons_append, copyLoop]; simp [herr, hd, hb10, hgone, i4]

/-- Reads that give the bytes of `s` one by one. -/
def exReads (s : String) : List Rd := (lit s).map fun b => ⟨some b, false, false⟩

/-- Two lines and a rest, then the end; the client leaves after the first line. -/
example : OneByte (exReads "a\nbc\nd" ++ [⟨none, true, false⟩])
    ∧ copyLoop [] (exReads "a\nbc\nd" ++ [⟨none, true, false⟩]) = ([lit "a\n", lit "bc\n", lit "d"], .returned)
    ∧ copyLoop [] (exReads "a\nbc\nd") = ([lit "a\n", lit "bc\n"], .waits (lit "d"))
    ∧ copyLoop [] (exReads "a" ++ ⟨some 10, false, true⟩ :: exReads "bc\n") = ([lit "a\n"], .returned) := by
  refine ⟨?_, by decide +kernel, by decide +kernel, by decide +kernel⟩
  have : ∀ r ∈ exReads "a\nbc\nd" ++ [⟨none, true, false⟩], (r.data.isSome = true ↔ r.err = false) := by decide +kernel
  exact this

/-- What the loop makes of the reads without error: their bytes, and a zero byte for every read of nothing. -/
def Spec.gotBytes (rs : List Rd) : Str := rs.map fun r => r.data.getD 0

/-- **C59**, exactly, for all reads: the loop handles the reads up to the first one with an error (whose byte is lost), or up to and with the first one
after which the client has gone. The bytes of these reads, with a zero byte for every read of nothing, are `lines` and what follows the last
line end; the client receives the lines, and the rest exactly if an error ends the stream. -/
theorem C59_exact (rs : List Rd) : ∃ pre rest lines last, rs = pre ++ rest ∧ (∀ r ∈ pre, r.err = false ∧ r.gone = false)
    ∧ (∀ l ∈ lines, IsLine l) ∧ (10 : UInt8) ∉ last
    ∧ ((rest = [] ∧ lines.flatten ++ last = gotBytes pre ∧ copyLoop [] rs = (lines, .waits last))
      ∨ (∃ r post, rest = r :: post ∧ r.err = true ∧ lines.flatten ++ last = gotBytes pre ∧ copyLoop [] rs = (lines ++ [last], .returned))
      ∨ (∃ r post, rest = r :: post ∧ r.err = false ∧ r.gone = true ∧ lines.flatten ++ last = gotBytes (pre ++ [r])
        ∧ copyLoop [] rs = (lines, .returned))) := by
  suffices key : ∀ (rs : List Rd) (buf : Str), (10 : UInt8) ∉ buf → ∃ pre rest lines last, rs = pre ++ rest ∧ (∀ r ∈ pre, r.err = false ∧ r.gone = false)
      ∧ (∀ l ∈ lines, IsLine l) ∧ (10 : UInt8) ∉ last
      ∧ ((rest = [] ∧ lines.flatten ++ last = buf ++ gotBytes pre ∧ copyLoop buf rs = (lines, .waits last))
        ∨ (∃ r post, rest = r :: post ∧ r.err = true ∧ lines.flatten ++ last = buf ++ gotBytes pre ∧ copyLoop buf rs = (lines ++ [last], .returned))
        ∨ (∃ r post, rest = r :: post ∧ r.err = false ∧ r.gone = true ∧ lines.flatten ++ last = buf ++ gotBytes (pre ++ [r])
          ∧ copyLoop buf rs = (lines, .returned))) by
    simpa using key rs [] (by simp)
  intro rs
  induction rs with
  | nil => intro buf hb; exact ⟨[], [], [], buf, rfl, by simp, by simp, hb, Or.inl ⟨rfl, by simp [gotBytes], rfl⟩⟩
  | cons r rs ih =>
    intro buf hb
    cases he : r.err with
    | true =>
      exact ⟨[], r :: rs, [], buf, rfl, by simp, by simp, hb, Or.inr (Or.inl ⟨r, rs, rfl, he, by simp [gotBytes], by simp [copyLoop, he]⟩)⟩
    | false =>
      have hline : r.data.getD 0 = 10 → IsLine (buf ++ [r.data.getD 0]) := fun h => ⟨buf, by rw [h], hb⟩
      cases hg : r.gone with
      | true =>
        by_cases h10 : r.data.getD 0 = 10
        · refine ⟨[], r :: rs, [buf ++ [r.data.getD 0]], [], rfl, by simp, ?_, by simp, Or.inr (Or.inr ⟨r, rs, rfl, he, hg, by simp [gotBytes], ?_⟩)⟩
          · intro l hl
            rw [List.mem_singleton] at hl
            exact hl ▸ hline h10
          · simp [copyLoop, he, hg, h10]
        · refine ⟨[], r :: rs, [], buf ++ [r.data.getD 0], rfl, by simp, by simp, ?_, Or.inr (Or.inr ⟨r, rs, rfl, he, hg, by simp [gotBytes], ?_⟩)⟩
          · simp only [List.mem_append, List.mem_singleton, not_or]
            exact ⟨hb, fun h => h10 h.symm⟩
          · simp only [copyLoop, he, hg, if_neg h10]
            simp
      | false =>
        by_cases h10 : r.data.getD 0 = 10
        · obtain ⟨pre, rest, lines, last, rfl, h2, h3, h4, h5⟩ := ih [] (by simp)
          have hc : copyLoop buf (r :: (pre ++ rest)) = ((buf ++ [r.data.getD 0]) :: (copyLoop [] (pre ++ rest)).1, (copyLoop [] (pre ++ rest)).2) := by
            simp only [copyLoop, he, hg, if_pos h10]
            simp
          refine ⟨r :: pre, rest, (buf ++ [r.data.getD 0]) :: lines, last, rfl, ?_, ?_, h4, ?_⟩
          · intro x hx
            rcases List.mem_cons.mp hx with rfl | hx
            · exact ⟨he, hg⟩
            · exact h2 x hx
          · intro l hl
            rcases List.mem_cons.mp hl with rfl | hl
            · exact hline h10
            · exact h3 l hl
          · rcases h5 with ⟨a1, a2, a3⟩ | ⟨x, post, a1, a2, a3, a4⟩ | ⟨x, post, a1, a2, a3, a4, a5⟩
            · refine Or.inl ⟨a1, ?_, by rw [hc, a3]⟩
              rw [List.flatten_cons, List.append_assoc, a2]; simp [gotBytes]
            · refine Or.inr (Or.inl ⟨x, post, a1, a2, ?_, by rw [hc, a4]; rfl⟩)
              rw [List.flatten_cons, List.append_assoc, a3]; simp [gotBytes]
            · refine Or.inr (Or.inr ⟨x, post, a1, a2, a3, ?_, by rw [hc, a5]⟩)
              rw [List.flatten_cons, List.append_assoc, a4]; simp [gotBytes]
        · obtain ⟨pre, rest, lines, last, rfl, h2, h3, h4, h5⟩ := ih (buf ++ [r.data.getD 0]) (by
            simp only [List.mem_append, List.mem_singleton, not_or]
            exact ⟨hb, fun h => h10 h.symm⟩)
          have hc : copyLoop buf (r :: (pre ++ rest)) = copyLoop (buf ++ [r.data.getD 0]) (pre ++ rest) := by
            simp only [copyLoop, he, hg, if_neg h10]
            simp
          refine ⟨r :: pre, rest, lines, last, rfl, ?_, h3, h4, ?_⟩
          · intro x hx
            rcases List.mem_cons.mp hx with rfl | hx
            · exact ⟨he, hg⟩
            · exact h2 x hx
          · rcases h5 with ⟨a1, a2, a3⟩ | ⟨x, post, a1, a2, a3, a4⟩ | ⟨x, post, a1, a2, a3, a4, a5⟩
            · refine Or.inl ⟨a1, ?_, by rw [hc, a3]⟩
              rw [a2]; simp [gotBytes]
            · refine Or.inr (Or.inl ⟨x, post, a1, a2, ?_, by rw [hc, a4]⟩)
              rw [a3]; simp [gotBytes]
            · refine Or.inr (Or.inr ⟨x, post, a1, a2, a3, ?_, by rw [hc, a5]⟩)
              rw [a4]; simp [gotBytes]

/-- Reads of nothing, a byte with the error, and a client that goes. -/
example : copyLoop [] (exReads "a\n" ++ [⟨none, false, false⟩, ⟨some 98, true, false⟩]) = ([lit "a\n", [0]], .returned)
    ∧ gotBytes (exReads "a\n" ++ [⟨none, false, false⟩]) = lit "a\n" ++ [0]
    ∧ copyLoop [] (exReads "a\nb" ++ [⟨some 99, false, true⟩, ⟨some 10, false, false⟩]) = ([lit "a\n"], .returned) := by
  decide +kernel

/-- **C59 is false** when the last byte comes together with `io.EOF`, as Go's reader of chunked bodies does when the end is already in its
buffer: the byte is lost, here the line end of the last event. -/
theorem C59_false_last_byte : sentBytes (exReads "{}" ++ [⟨some 10, true, false⟩]) = lit "{}\n"
    ∧ copyLoop [] (exReads "{}" ++ [⟨some 10, true, false⟩]) = ([lit "{}"], .returned) := by
  decide +kernel

/-- **C59 is false** when a read gives nothing and no error, which `io.Reader` permits: the client receives a zero byte. -/
theorem C59_false_empty_read : sentBytes (exReads "a" ++ ⟨none, false, false⟩ :: exReads "\n") = lit "a\n"
    ∧ copyLoop [] (exReads "a" ++ ⟨none, false, false⟩ :: exReads "\n") = ([[97, 0, 10]], .waits []) := by
  decide +kernel

end Ckube
