/-!
# Go strings and the standard-library string functions ckube calls

A Go string is a sequence of bytes.  The functions below model Go's `strings` and
`sort` packages (Go 1.19, not part of /repo); each comment names the Go function and
where /repo calls it.
-/

namespace Ckube

/-- A Go string: a byte sequence. -/
abbrev Str := List UInt8

/-- An ASCII string literal of the Go source as bytes. -/
def lit (s : String) : Str := s.toList.map (fun c => c.toNat.toUInt8)

/-- Go `strings.HasPrefix(s, p)` (page/page.go:62,86,146; api/proxy.go:112,124). -/
def hasPrefix (s p : Str) : Bool := p.isPrefixOf s

/-- Go `strings.Contains(s, sub)` (page/page.go:118,127; api/proxy.go:325;
server/server.go:155; store/memory/memory.go:197,215,369,372). -/
def contains : Str → Str → Bool
  | [], sub => sub.isEmpty
  | c :: s, sub => sub.isPrefixOf (c :: s) || contains s sub

/-- Go `strings.Split(s, sep)` for a one-byte separator (store/memory/memory.go:186,198,216;
kube/label.go:37; api/extend/deploy2service.go:84). The result is never empty. -/
def splitByte (sep : UInt8) : Str → List Str
  | [] => [[]]
  | c :: s =>
    if c = sep then [] :: splitByte sep s
    else match splitByte sep s with
      | [] => [[c]]
      | p :: ps => (c :: p) :: ps

/-- Go `strings.Join(parts, sep)` (page/page.go:187; api/extend/deploy2service.go:85). -/
def join (sep : Str) : List Str → Str
  | [] => []
  | [p] => p
  | p :: q :: ps => p ++ sep ++ join sep (q :: ps)

/-- Go `strings.Index(s, string(c))` for a one-byte needle (page/page.go:103);
`none` stands for `-1`. -/
def indexByte (c : UInt8) : Str → Option Nat
  | [] => none
  | d :: s => if d = c then some 0 else (indexByte c s).map (· + 1)

/-- Length in bytes of the Unicode white-space character (`unicode.IsSpace`) that `s`
starts with, `0` when it does not start with one. -/
def leadingSpace (s : Str) : Nat :=
  match s with
  | [] => 0
  | b0 :: r =>
    if b0 = 9 ∨ b0 = 10 ∨ b0 = 11 ∨ b0 = 12 ∨ b0 = 13 ∨ b0 = 32 then 1
    else match r with
      | [] => 0
      | b1 :: r1 =>
        -- U+0085, U+00A0
        if b0 = 0xC2 ∧ (b1 = 0x85 ∨ b1 = 0xA0) then 2
        else match r1 with
          | [] => 0
          | b2 :: _ =>
            -- U+1680, U+2000..U+200A, U+2028, U+2029, U+202F, U+205F, U+3000
            if (b0 = 0xE1 ∧ b1 = 0x9A ∧ b2 = 0x80)
              ∨ (b0 = 0xE2 ∧ b1 = 0x80 ∧ ((0x80 ≤ b2 ∧ b2 ≤ 0x8A) ∨ b2 = 0xA8 ∨ b2 = 0xA9 ∨ b2 = 0xAF))
              ∨ (b0 = 0xE2 ∧ b1 = 0x81 ∧ b2 = 0x9F)
              ∨ (b0 = 0xE3 ∧ b1 = 0x80 ∧ b2 = 0x80) then 3
            else 0

/-- The same at the end of a string, given reversed. -/
def trailingSpace (r : Str) : Nat :=
  match r with
  | [] => 0
  | c :: _ =>
    if leadingSpace [c] = 1 then 1
    else match r with
      | c :: b :: _ =>
        if leadingSpace [b, c] = 2 then 2
        else match r with
          | c :: b :: a :: _ => if leadingSpace [a, b, c] = 3 then 3 else 0
          | _ => 0
      | _ => 0

/-- Strip leading white space; the first argument bounds the number of characters. -/
def trimLeftFuel : Nat → Str → Str
  | 0, s => s
  | n + 1, s => if leadingSpace s = 0 then s else trimLeftFuel n (s.drop (leadingSpace s))

/-- Strip trailing white space of a reversed string. -/
def trimRightFuel : Nat → Str → Str
  | 0, s => s
  | n + 1, s => if trailingSpace s = 0 then s else trimRightFuel n (s.drop (trailingSpace s))

/-- Go `strings.TrimSpace` (page/page.go:82; store/memory/memory.go:189). -/
def trimSpace (s : Str) : Str :=
  let l := trimLeftFuel s.length s
  (trimRightFuel l.length l.reverse).reverse

/-- Go's `<=` on strings: byte-wise lexicographic order. -/
def strLe : Str → Str → Bool
  | [], _ => true
  | _ :: _, [] => false
  | a :: s, b :: t => if a < b then true else if a = b then strLe s t else false

/-- Go's `<` on strings (store/memory/memory.go:258). -/
def strLt (a b : Str) : Bool := !strLe b a

/-- Insertion into a list sorted by `le`, before the first element that is not smaller. -/
def insertBy {α : Type} (le : α → α → Bool) (a : α) : List α → List α
  | [] => [a]
  | b :: l => if le a b then a :: b :: l else b :: insertBy le a l

/-- A (stable) sort by `le`. Stands for Go's `sort.Strings` (kube/label.go:34),
`sets.String.List` and `sort.Sort(ByKey(..))` of apimachinery; Go's algorithms differ but for
a total order on the elements the sorted list is unique. -/
def sortBy {α : Type} (le : α → α → Bool) : List α → List α
  | [] => []
  | a :: l => insertBy le a (sortBy le l)

/-- Remove repetitions (first occurrences from the right are kept). Stands for inserting into
apimachinery's `sets.String`. -/
def dedup {α : Type} [DecidableEq α] : List α → List α
  | [] => []
  | a :: l => if a ∈ dedup l then dedup l else a :: dedup l

/-- Association-list lookup: Go `m[k]` with its `ok` flag. -/
def lookup {κ ν : Type} [DecidableEq κ] (k : κ) : List (κ × ν) → Option ν
  | [] => none
  | (k', v) :: m => if k' = k then some v else lookup k m

/-- Go `m[k] = v`: replace the entry in place or add one. -/
def insertKV {κ ν : Type} [DecidableEq κ] (k : κ) (v : ν) : List (κ × ν) → List (κ × ν)
  | [] => [(k, v)]
  | (k', v') :: m => if k' = k then (k, v) :: m else (k', v') :: insertKV k v m

/-- Go `delete(m, k)`. -/
def eraseKV {κ ν : Type} [DecidableEq κ] (k : κ) : List (κ × ν) → List (κ × ν)
  | [] => []
  | (k', v') :: m => if k' = k then m else (k', v') :: eraseKV k m

/-- An association list stands for a Go map when its keys are distinct. -/
def IsMap {κ ν : Type} (m : List (κ × ν)) : Prop := (m.map Prod.fst).Nodup

end Ckube
