import Verif.Lemmas.PageJson

/-! # C04: the JSON form of a pagination request -/

namespace Ckube

/-- **C04**: decoding the JSON form of a pagination request gives the same request, for all
`int64` numbers and all valid UTF-8 text. -/
theorem C04_json_roundtrip (p : Paginate)
    (hpage : -2^63 ≤ p.page ∧ p.page < 2^63) (hsize : -2^63 ≤ p.pageSize ∧ p.pageSize < 2^63)
    (htotal : -2^63 ≤ p.total ∧ p.total < 2^63)
    (hsort : validUtf8 p.sort = true) (hsearch : validUtf8 p.search = true) :
    decodePaginate p.toJson = p := by
  refine decode_toJson ⟨?_, ?_, ?_, hsort, hsearch⟩ <;> simp only [minInt64, maxInt64] <;> omega

/-- A request with a quote, a backslash, control and HTML characters, U+2028 and negative
numbers. -/
example : ∃ p : Paginate, p.page = -5 ∧ p.pageSize = 10 ∧ p.sort = lit "a\n desc"
    ∧ p.search = lit "\"\\<&>\x01" ++ [0xE2, 0x80, 0xA8]
    ∧ decodePaginate p.toJson = p ∧ 80 < p.toJson.length :=
  ⟨⟨-5, 10, 0, lit "a\n desc", lit "\"\\<&>\x01" ++ [0xE2, 0x80, 0xA8]⟩, rfl, rfl, rfl, rfl,
    C04_json_roundtrip _ (by decide) (by decide) (by decide) (by decide +kernel) (by decide +kernel),
    by decide +kernel⟩

/-- Text that is not valid UTF-8 does not survive (Go replaces the bad byte by U+FFFD), so the
hypothesis on the strings is needed. -/
theorem C04_invalid_utf8 : decodePaginate (Paginate.toJson { search := [0xFF] })
    = { search := [0xEF, 0xBF, 0xBD] } := by decide +kernel

end Ckube
