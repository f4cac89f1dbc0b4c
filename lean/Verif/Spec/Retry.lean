import Verif.Model.Retry
import Verif.Spec.DeleteBody

/-! # Specification: answers that ask to send the request again -/

namespace Ckube.Spec

/-- The text is a decimal number, perhaps with a sign. -/
def SaysSeconds (text : Str) (s : Int) : Prop :=
  MeansInt64 text s ∨ ∃ digits, text = 43 :: digits ∧ (∀ d ∈ digits, 48 ≤ d ∧ d ≤ 57) ∧ MeansInt64 digits s

/-- The answer asks to send the request again in `s` seconds. -/
def PutsOff (r : Reply) (s : Int) : Prop := (r.code = 429 ∨ 500 ≤ r.code) ∧ SaysSeconds r.retryAfter s

/-- After `a` it is right to send the request again at the time `t`: the API server asked for it and the time has come; a `GET` also one second after the
connection was lost. -/
def MayRepeat (get : Bool) (a : Sent) (t : Nat) : Prop :=
  (∃ r s, a.got = .reply r ∧ PutsOff r s ∧ (s ≤ 9223372036 → a.over + s * 1000000000 ≤ t))
    ∨ (get = true ∧ a.got = .reset ∧ a.over + 1000000000 ≤ t)

end Ckube.Spec
