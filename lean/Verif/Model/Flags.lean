import Verif.Model.Num
import Verif.Model.Plugin

/-! # The command lines of ckubecli and cacheproxy (cmd/ckubecli/main.go:15-25, cmd/cacheproxy/main.go:164-174)

Both use the package `flag` of Go with its global flag set, which ends the process at the first mistake. `flag` and `strconv` are not in /repo and are modelled
from their source (`flag.go` `parseOne`, `Parse`; `atoi.go` `ParseInt`, `ParseUint`, `underscoreOK`; `atob.go` `ParseBool`). Not modelled: messages. -/

namespace Ckube

/-! ## Values -/

/-- `lower(c)` of strconv: `c | ('x' - 'X')`. -/
def lowerBit (c : UInt8) : UInt8 := c ||| 32

/-- The value of a digit (`ParseUint`); a letter is one for any base. -/
def digitOf (c : UInt8) : Option Nat :=
  if 48 ≤ c ∧ c ≤ 57 then some (c.toNat - 48)
  else if 97 ≤ lowerBit c ∧ lowerBit c ≤ 122 then some ((lowerBit c).toNat - 97 + 10)
  else none

/-- The loop of `ParseUint` with base 0: underscores are skipped. Go stops with an error when the number leaves the range of `uint64`; here the
number goes on growing and is refused by `parseInt0`. -/
def uintLoop (base : Nat) : Str → Nat → Option Nat
  | [], n => some n
  | c :: t, n =>
    if c = 95 then uintLoop base t n
    else match digitOf c with
      | none => none
      | some d => if base ≤ d then none else uintLoop base t (n * base + d)

/-- Base and digits of a text (`ParseUint` with base 0). -/
def baseOf : Str → Nat × Str
  | 48 :: c :: d :: t =>
    if lowerBit c = 98 then (2, d :: t)
    else if lowerBit c = 111 then (8, d :: t)
    else if lowerBit c = 120 then (16, d :: t)
    else (8, c :: d :: t)
  | 48 :: t => (8, t)
  | s => (10, s)

/-- What `underscoreOK` saw last. -/
inductive Saw where
  | start | digit | underscore | other
deriving DecidableEq

/-- The loop of `underscoreOK`. -/
def underscoreLoop (hex : Bool) : Saw → Str → Bool
  | saw, [] => saw != .underscore
  | saw, c :: t =>
    if (48 ≤ c ∧ c ≤ 57) ∨ (hex = true ∧ 97 ≤ lowerBit c ∧ lowerBit c ≤ 102) then underscoreLoop hex .digit t
    else if c = 95 then saw == .digit && underscoreLoop hex .underscore t
    else saw != .underscore && underscoreLoop hex .other t

/-- `underscoreOK` for a text without a sign (`ParseInt` has taken it off). -/
def underscoreOK : Str → Bool
  | 48 :: c :: t =>
    if lowerBit c = 98 ∨ lowerBit c = 111 ∨ lowerBit c = 120 then underscoreLoop (lowerBit c == 120) .digit t
    else underscoreLoop false .start (48 :: c :: t)
  | s => underscoreLoop false .start s

/-- `ParseUint(s, 0, 64)` without the bound. -/
def parseUint0 (s : Str) : Option Nat :=
  if s = [] then none
  else match uintLoop (baseOf s).1 (baseOf s).2 0 with
    | none => none
    | some n => if 95 ∈ (baseOf s).2 ∧ underscoreOK s = false then none else some n

/-- `strconv.ParseInt(s, 0, 64)`; `none` is an error. -/
def parseInt0 (s : Str) : Option Int :=
  match s with
  | [] => none
  | c :: t =>
    match parseUint0 (if c = 43 ∨ c = 45 then t else c :: t) with
    | none => none
    | some n =>
      let i : Int := if c = 45 then -(n : Int) else n
      if minInt64 ≤ i ∧ i ≤ maxInt64 then some i else none

/-- `strconv.ParseBool`. -/
def parseBool (s : Str) : Option Bool :=
  if s ∈ [lit "1", lit "t", lit "T", lit "true", lit "TRUE", lit "True"] then some true
  else if s ∈ [lit "0", lit "f", lit "F", lit "false", lit "FALSE", lit "False"] then some false
  else none

/-! ## Flags -/

/-- What `IntVar`, `StringVar` and `BoolVar` register. -/
inductive FlagKind where
  | int | text | bool
deriving DecidableEq

/-- The value of a flag. -/
inductive FlagVal where
  | int (i : Int) | text (s : Str) | bool (b : Bool)
deriving DecidableEq

/-- `Value.Set`. -/
def FlagKind.read : FlagKind → Str → Option FlagVal
  | .int, s => (parseInt0 s).map .int
  | .text, s => some (.text s)
  | .bool, s => (parseBool s).map .bool

/-- What `flag.Parse` has done: the flags that were set, in their order, and the arguments that are left; or the end of the process. -/
inductive FlagRes where
  | ok (set : List (Str × FlagVal)) (rest : List Str)
  | exit (code : Nat)
deriving DecidableEq

def FlagRes.cons (x : Str × FlagVal) : FlagRes → FlagRes
  | .ok set rest => .ok (x :: set) rest
  | .exit code => .exit code

/-- Name and value of a flag at the first `=` after the first byte (the loop in `parseOne`). -/
def cutFlag : Str → Str × Option Str
  | [] => ([], none)
  | c :: t => match indexByte 61 t with
    | none => (c :: t, none)
    | some i => (c :: t.take i, some (t.drop (i + 1)))

/-- `parseOne` looks at the first argument: it is no flag; it ends the flags; it is a mistake; or it is a flag with this text after the dashes. -/
inductive FlagArg where
  | word | stop | bad | flag (name : Str)
deriving DecidableEq

def flagArg : Str → FlagArg
  | 45 :: 45 :: t => match t with
    | [] => .stop
    | c :: _ => if c = 45 ∨ c = 61 then .bad else .flag t
  | 45 :: c :: t => if c = 61 then .bad else .flag (c :: t)
  | _ => .word

/-- `flag.Parse` for the flags `formal`: `parseOne` until it stops (exit code 2 for a mistake, 0 for `-h` and `-help`). -/
def flagParse (formal : Str → Option FlagKind) : List Str → FlagRes
  | [] => .ok [] []
  | s :: args =>
    match flagArg s with
    | .word => .ok [] (s :: args)
    | .stop => .ok [] args
    | .bad => .exit 2
    | .flag text =>
      match formal (cutFlag text).1 with
      | none => .exit (if (cutFlag text).1 = lit "help" ∨ (cutFlag text).1 = lit "h" then 0 else 2)
      | some kind =>
        match (cutFlag text).2 with
        | some v => match kind.read v with
          | none => .exit 2
          | some x => (flagParse formal args).cons ((cutFlag text).1, x)
        | none =>
          if kind = .bool then (flagParse formal args).cons ((cutFlag text).1, .bool true)
          else match args with
            | [] => .exit 2
            | v :: args' => match kind.read v with
              | none => .exit 2
              | some x => (flagParse formal args').cons ((cutFlag text).1, x)

/-- The variable of a flag after `Parse`: what was set last, or what it was before. -/
def flagValue (set : List (Str × FlagVal)) (name : Str) (dflt : FlagVal) : FlagVal :=
  set.foldl (fun v x => if x.1 = name then x.2 else v) dflt

def FlagVal.asInt : FlagVal → Int
  | .int i => i
  | _ => 0

def FlagVal.asText : FlagVal → Str
  | .text s => s
  | _ => []

def FlagVal.asBool : FlagVal → Bool
  | .bool b => b
  | _ => false

/-! ## ckubecli -/

/-- The flags of ckubecli (cmd/ckubecli/main.go:20-24). -/
def cliFormal (name : Str) : Option FlagKind :=
  if name = lit "p" ∨ name = lit "s" then some .int
  else if name = lit "sort" ∨ name = lit "search" ∨ name = lit "c" then some .text
  else none

/-- What a run of ckubecli prints, or its exit code. -/
inductive CliRes where
  | prints (text : Str)
  | exit (code : Nat)
deriving DecidableEq

/-- `main` of ckubecli (cmd/ckubecli/main.go:14-42) for the arguments after the program's name. -/
def ckubecliMain (printf : Str → Str) (argv : List Str) : CliRes :=
  match flagParse cliFormal argv with
  | .exit code => .exit code
  | .ok set _ =>
    match ckubecli printf (flagValue set (lit "p") (.int 0)).asInt (flagValue set (lit "s") (.int 0)).asInt (flagValue set (lit "sort") (.text [])).asText
        (flagValue set (lit "search") (.text [])).asText (flagValue set (lit "c") (.text [])).asText with
    | none => .exit 1
    | some text => .prints text

/-! ## cacheproxy -/

/-- The flags of cacheproxy (cmd/cacheproxy/main.go:170-173). -/
def proxyFormal (name : Str) : Option FlagKind :=
  if name = lit "c" ∨ name = lit "a" ∨ name = lit "k" then some .text
  else if name = lit "d" then some .bool
  else none

/-- The variables of `main` of cacheproxy (cmd/cacheproxy/main.go:165-168). -/
structure ProxyArgs where
  configFile : Str
  listen : Str
  kubeConfig : Str
  debug : Bool
deriving DecidableEq

/-- The variables after `flag.Parse()` (cmd/cacheproxy/main.go:170-174); `none`: the process has ended. -/
def proxyArgs (argv : List Str) : Option ProxyArgs :=
  match flagParse proxyFormal argv with
  | .exit _ => none
  | .ok set _ => some
    { configFile := (flagValue set (lit "c") (.text (lit "config/local.json"))).asText
      listen := (flagValue set (lit "a") (.text (lit ":80"))).asText
      kubeConfig := (flagValue set (lit "k") (.text [])).asText
      debug := (flagValue set (lit "d") (.bool false)).asBool }

end Ckube
