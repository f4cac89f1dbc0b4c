import Verif.Model.Flags

/-! # Command lines, as the documentation of Go's package `flag` describes them -/

namespace Ckube.Spec

/-- `c` is the digit `d` of base `base`. -/
def IsDigitOf (base : Nat) (c : UInt8) (d : Nat) : Prop :=
  d < base ∧ ((lit "0123456789abcdef")[d]? = some c ∨ (lit "0123456789ABCDEF")[d]? = some c)

/-- The text `t` is the digits `ds`. -/
inductive Digits (base : Nat) : Str → List Nat → Prop
  | nil : Digits base [] []
  | cons {c d t ds} : IsDigitOf base c d → Digits base t ds → Digits base (c :: t) (d :: ds)

/-- The bases of a number and what is written before its digits. -/
def prefixes : List (Str × Nat) :=
  [([], 10), (lit "0", 8), (lit "0b", 2), (lit "0B", 2), (lit "0o", 8), (lit "0O", 8), (lit "0x", 16), (lit "0X", 16)]

/-- `u` is the number `n`, written as an integer of a Go program: the digits of the base, with underscores between them (and after the prefix). -/
def Unsigned (u : Str) (n : Nat) : Prop :=
  ∃ pre base digits ds, (pre, base) ∈ prefixes ∧ u = pre ++ digits
    ∧ Digits base (digits.filter (· ≠ 95)) ds ∧ n = ds.foldl (fun m d => m * base + d) 0
    ∧ (pre = [] → digits.head? ≠ some 48) ∧ (digits = [] → pre = lit "0")
    ∧ ¬ [95] <+: u ∧ ¬ [95] <:+ u ∧ ¬ [95, 95] <:+: u

/-- `s` is the number `i`, written as an integer of a Go program, with a sign perhaps; it fits into 64 bits. -/
def IntText (s : Str) (i : Int) : Prop :=
  ∃ sign u n, s = sign ++ u ∧ sign ∈ [[], lit "+", lit "-"] ∧ Unsigned u n ∧ i = (if sign = lit "-" then -(n : Int) else n)
    ∧ -2^63 ≤ i ∧ i < 2^63

/-- The value `x` is written as `s`. -/
def FlagText (s : Str) : FlagVal → Prop
  | .int i => IntText s i
  | .text t => s = t
  | .bool b => s ∈ if b then [lit "1", lit "t", lit "T", lit "true", lit "TRUE", lit "True"] else [lit "0", lit "f", lit "F", lit "false", lit "FALSE", lit "False"]

/-- The values of a kind. -/
def HasKind : FlagKind → FlagVal → Prop
  | .int, .int _ => True
  | .text, .text _ => True
  | .bool, .bool _ => True
  | _, _ => False

/-- The arguments that set a flag: `-name=value`, `-name value` unless it is a bool, and `-name` for a bool. One dash or two. -/
inductive Written (formal : Str → Option FlagKind) : Str × FlagVal → List Str → Prop
  | eq {dash n v k x} : dash ∈ [lit "-", lit "--"] → formal n = some k → HasKind k x → FlagText v x → Written formal (n, x) [dash ++ n ++ lit "=" ++ v]
  | sep {dash n v k x} : dash ∈ [lit "-", lit "--"] → formal n = some k → k ≠ .bool → HasKind k x → FlagText v x → Written formal (n, x) [dash ++ n, v]
  | bare {dash n} : dash ∈ [lit "-", lit "--"] → formal n = some .bool → Written formal (n, .bool true) [dash ++ n]

/-- The command line sets the flags `set` in this order, and has the arguments `left` besides. The flags end before the first word that is a single dash or
begins with something else, and after `--`. -/
inductive CmdLine (formal : Str → Option FlagKind) : List Str → List (Str × FlagVal) → List Str → Prop
  | done : CmdLine formal [] [] []
  | word {w rest} : ¬ [45] <+: w ∨ w = [45] → CmdLine formal (w :: rest) [] (w :: rest)
  | stop {rest} : CmdLine formal (lit "--" :: rest) [] rest
  | flag {x args rest set left} : Written formal x args → CmdLine formal rest set left → CmdLine formal (args ++ rest) (x :: set) left

/-- `x` is the value of the flag `n`: the one that was set last, or `dflt`. -/
def Given (set : List (Str × FlagVal)) (n : Str) (dflt x : FlagVal) : Prop :=
  (∃ a b, set = a ++ (n, x) :: b ∧ n ∉ b.map Prod.fst) ∨ (n ∉ set.map Prod.fst ∧ x = dflt)

end Ckube.Spec
