import Verif.Model.Entrypoint

/-! # Specification: what entrypoint.sh is for -/

namespace Ckube.Spec

/-- A token that means itself to `sed` and to nginx: no slash, ampersand, backslash, newline, quote and dollar. -/
def PlainToken (t : Str) : Prop := ∀ c ∈ t, c ≠ 47 ∧ c ≠ 38 ∧ c ≠ 92 ∧ c ≠ 10 ∧ c ≠ 34 ∧ c ≠ 36

/-- A host that is a name or an IPv4 address. -/
def PlainHost (h : Str) : Prop := h ≠ [] ∧ ∀ c ∈ h, c ≠ 47 ∧ c ≠ 38 ∧ c ≠ 92 ∧ c ≠ 10 ∧ c ≠ 58 ∧ c ≠ 32

/-- A port that is a number. -/
def PlainPort (p : Str) : Prop := p ≠ [] ∧ ∀ c ∈ p, 48 ≤ c ∧ c ≤ 57

/-- The lines of nginx.conf with the holes filled: 18 by the API server's address, 37 and 81 by the token. -/
def Filled (token host port : Str) (conf : List Str) : Prop :=
  conf.length = nginxLines.length
  ∧ conf[17]? = some (lit "    server " ++ host ++ 58 :: port ++ lit ";")
  ∧ (∀ i ∈ [36, 80], conf[i]? = some (lit "            proxy_set_header 'Authorization' \"Bearer " ++ token ++ lit "\";"))
  ∧ ∀ i, i ∉ [17, 36, 80] → conf[i]? = nginxLines[i]?

end Ckube.Spec
