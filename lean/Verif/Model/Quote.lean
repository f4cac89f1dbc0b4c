import Verif.Model.Utf8

/-! # `strconv.Quote` (Go 1.19), called at page/page.go:118,127 -/

namespace Ckube

/-- Escaped form of one decoded chunk. `isPrint` is `strconv.IsPrint` on code points ≥ 0x80
(a Unicode table, left abstract); for ASCII it is the range 0x20..0x7e. -/
def quoteChunk (isPrint : Nat → Bool) : Chunk → Str
  | .ascii b =>
    if b = 34 ∨ b = 92 then [92, b]                       -- `"` and `\`
    else if 0x20 ≤ b ∧ b ≤ 0x7E then [b]
    else if b = 7 then [92, 97]                           -- \a
    else if b = 8 then [92, 98]                           -- \b
    else if b = 12 then [92, 102]                         -- \f
    else if b = 10 then [92, 110]                         -- \n
    else if b = 13 then [92, 114]                         -- \r
    else if b = 9 then [92, 116]                          -- \t
    else if b = 11 then [92, 118]                         -- \v
    else [92, 120] ++ hexN 2 b.toNat                      -- \x..
  | .multi r bs =>
    if isPrint r then bs
    else if r < 0x10000 then [92, 117] ++ hexN 4 r        -- \u....
    else [92, 85] ++ hexN 8 r                             -- \U........
  | .bad b => [92, 120] ++ hexN 2 b.toNat

/-- The text between the quotes. -/
def quoteBody (isPrint : Nat → Bool) (s : Str) : Str := (chunks s).flatMap (quoteChunk isPrint)

/-- `strconv.Quote(s)`. -/
def quote (isPrint : Nat → Bool) (s : Str) : Str := [34] ++ quoteBody isPrint s ++ [34]

end Ckube
