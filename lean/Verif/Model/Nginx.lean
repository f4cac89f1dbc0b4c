import Verif.Model.Str

/-! # nginx.conf

`nginx.conf` and `entrypoint.sh` put an nginx in front of ckube (the Dockerfile of this commit does not use them). nginx is not in /repo; its choice of a location,
its `if` and `set` and its variables `$arg_…` are modelled from its documented behaviour. The path is the one nginx compares with locations:
decoded, with slashes merged and dots resolved. The request line is passed on as it came (`proxy_pass` without a path). Not modelled: buffering,
timeouts, headers other than Authorization. The token, which entrypoint.sh puts in (Model/Entrypoint.lean), is a parameter. -/

namespace Ckube

/-! ## Regular expressions, as far as nginx.conf has them -/

/-- A regular expression. -/
inductive Rx where
  /-- the beginning of the text -/
  | bol
  /-- the end of the text, or before a newline that ends it -/
  | eol
  /-- one byte -/
  | one (p : UInt8 → Bool)
  /-- one or more bytes -/
  | plus (p : UInt8 → Bool)
  | cat (a b : Rx)
  | alt (a b : Rx)
  | opt (a : Rx)

/-- What may be left after taking one or more bytes. -/
def plusEnds (p : UInt8 → Bool) : Str → List Str
  | [] => []
  | c :: s => if p c then s :: plusEnds p s else []

/-- What may be left after a match that starts here; the boolean says whether this is the beginning of the text. -/
def Rx.ends : Rx → Bool × Str → List (Bool × Str)
  | .bol, (b, s) => if b then [(b, s)] else []
  | .eol, (b, s) => if s = [] ∨ s = [10] then [(b, s)] else []
  | .one p, (_, s) => match s with
    | [] => []
    | c :: s => if p c then [(false, s)] else []
  | .plus p, (_, s) => (plusEnds p s).map fun t => (false, t)
  | .cat a c, x => (a.ends x).flatMap c.ends
  | .alt a c, x => a.ends x ++ c.ends x
  | .opt a, x => a.ends x ++ [x]

/-- Whether the expression matches at a place after the beginning. -/
def Rx.later (r : Rx) : Str → Bool
  | [] => !(r.ends (false, [])).isEmpty
  | c :: s => !(r.ends (false, c :: s)).isEmpty || r.later s

/-- Whether the expression matches somewhere. -/
def Rx.search (r : Rx) (s : Str) : Bool :=
  !(r.ends (true, s)).isEmpty || match s with
    | [] => false
    | _ :: s => r.later s

/-- A text. -/
def Rx.txt : Str → Rx
  | [] => .opt (.one fun _ => false)
  | [c] => .one (· == c)
  | c :: s => .cat (.one (· == c)) (Rx.txt s)

/-- `[0-9a-zA-Z\.\-\_]` -/
def wordByte (c : UInt8) : Bool :=
  (48 ≤ c && c ≤ 57) || (97 ≤ c && c ≤ 122) || (65 ≤ c && c ≤ 90) || c == 46 || c == 45 || c == 95

/-- `[^/]` -/
def notSlash (c : UInt8) : Bool := c != 47

/-- The location of lists and objects (nginx.conf:72):
`(((^/api)|(^/apis/[0-9a-zA-Z\.\-\_]+))/[0-9a-zA-Z\.\-\_]+/(namespaces/[0-9a-zA-Z\.\-\_]+/)?[0-9a-zA-Z\.\-\_]+(/[^/]+)?$)` -/
def apiRx : Rx :=
  .cat (.alt (.cat .bol (.txt (lit "/api"))) (.cat .bol (.cat (.txt (lit "/apis/")) (.plus wordByte))))
    (.cat (.txt (lit "/")) (.cat (.plus wordByte) (.cat (.txt (lit "/"))
      (.cat (.opt (.cat (.txt (lit "namespaces/")) (.cat (.plus wordByte) (.txt (lit "/")))))
        (.cat (.plus wordByte) (.cat (.opt (.cat (.txt (lit "/")) (.plus notSlash))) .eol))))))

/-- A byte in any case. -/
def foldByte (c d : UInt8) : Bool := d == c || (97 ≤ c && c ≤ 122 && d == c - 32)

/-- `(1)|(true)` in any case (nginx.conf:63). -/
def watchRx : Rx :=
  .alt (.one (foldByte 49)) (.cat (.one (foldByte 116)) (.cat (.one (foldByte 114)) (.cat (.one (foldByte 117)) (.one (foldByte 101)))))

/-! ## Requests -/

/-- What nginx looks at. -/
structure NginxReq where
  method : Str
  path : Str
  /-- what follows the question mark -/
  args : Str := []
  authorization : Str := []
deriving DecidableEq

/-- Whether the argument has this name, in any case; the value. -/
def argValue (name : Str) (a : Str) : Option Str :=
  if a.length > name.length ∧ (List.zipWith foldByte name a).all id ∧ a[name.length]? = some 61 then some (a.drop (name.length + 1)) else none

/-- `$arg_watch`: the value of the first argument of this name, as it is written; empty if there is none. -/
def argWatch (args : Str) : Str := ((splitByte 38 args).findSome? (argValue (lit "watch"))).getD []

/-- Where a request goes. -/
inductive Backend where
  /-- the API server of the cluster the container runs in (nginx.conf:17-19) -/
  | kube
  /-- ckube (nginx.conf:21-23) -/
  | ckube
deriving DecidableEq

/-- `$ACT` (nginx.conf:59-65). -/
def nginxAct (q : NginxReq) : Str :=
  let act := if q.method = lit "GET" then lit "G" else []
  if watchRx.search (argWatch q.args) then act else act ++ lit "N"

/-- `$BACKEND` (nginx.conf:66-69). -/
def nginxBackend (q : NginxReq) : Backend := if nginxAct q = lit "GN" then .ckube else .kube

/-- The choice of the location and what it does (nginx.conf:28-84): a regular expression that matches goes before all prefixes, among
which the longest counts. `token` is what entrypoint.sh puts in. -/
def nginx (token : Str) (q : NginxReq) : Backend × NginxReq :=
  let bearer := { q with authorization := lit "Bearer " ++ token }
  if apiRx.search q.path then (nginxBackend q, bearer)
  else if hasPrefix q.path (lit "/custom") || hasPrefix q.path (lit "/metrics") || hasPrefix q.path (lit "/healthy") then (.ckube, q)
  else (.kube, bearer)

end Ckube
