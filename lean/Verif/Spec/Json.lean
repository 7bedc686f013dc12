import Verif.Model.Json

/-!
# Statements about JSON texts
-/

namespace Verif.Spec
open Verif.Py Verif.Model.JsonText

/-- A character which cannot continue the text of a number. -/
def EndsNumber (r : Str) : Prop := ∀ c, r.head? = some c → isDigit c = false ∧ c ≠ '.' ∧ c ≠ 'e' ∧ c ≠ 'E'

/-- The numbers of a set are written as JSON numbers and read back with the same value (which Python guarantees for all
finite floating point numbers and integers). -/
def NumbersKept {K : Type} (T : NumText K) (P : K → Prop) : Prop :=
  ∀ x, P x → lexNumber (T.repr x) = some (T.repr x, []) ∧ T.value (T.repr x) = x

mutual
/-- All numbers inside the value are in the set and the special words are those of Python. -/
def NumbersIn {K : Type} (P : K → Prop) : Json K → Prop
  | .num x => P x
  | .const s => s = "NaN".toList ∨ s = "Infinity".toList ∨ s = "-Infinity".toList
  | .arr l => NumbersInItems P l
  | .obj m => NumbersInMembers P m
  | _ => True
/-- The same for the items of an array. -/
def NumbersInItems {K : Type} (P : K → Prop) : Items K → Prop
  | .nil => True
  | .cons v l => NumbersIn P v ∧ NumbersInItems P l
/-- The same for the members of an object. -/
def NumbersInMembers {K : Type} (P : K → Prop) : Members K → Prop
  | .nil => True
  | .cons _ v l => NumbersIn P v ∧ NumbersInMembers P l
end

/-- Printable ASCII characters only. -/
def Printable (s : Str) : Prop := ∀ c ∈ s, 32 ≤ c.toNat ∧ c.toNat ≤ 126

/-- Decimal digits, at least one. -/
def Digits (s : Str) : Prop := s ≠ [] ∧ ∀ c ∈ s, '0' ≤ c ∧ c ≤ '9'

/-- A JSON number (RFC 8259, section 6): a minus sign or not, a zero or digits which begin with another digit, a
fraction or not, an exponent or not. -/
def IsNumber (s : Str) : Prop :=
  ∃ sg i f e : Str, s = sg ++ (i ++ (f ++ e)) ∧ (sg = [] ∨ sg = ['-']) ∧ (i = ['0'] ∨ Digits i ∧ i.head? ≠ some '0') ∧
    (f = [] ∨ ∃ d, Digits d ∧ f = '.' :: d) ∧
    (e = [] ∨ ∃ c g d, (c = 'e' ∨ c = 'E') ∧ (g = [] ∨ g = ['+'] ∨ g = ['-']) ∧ Digits d ∧ e = c :: (g ++ d))

/-- The value of the last member with this key. -/
def lastMember {K : Type} (k : Str) : Members K → Option (Json K)
  | .nil => none
  | .cons j v m => (lastMember k m).or (if j = k then some v else none)

end Verif.Spec
