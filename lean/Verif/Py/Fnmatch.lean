import Verif.Py.Basic

/-!
# Sets of characters in patterns of Python's `fnmatch`
-/

namespace Verif.Py

/-- Is the character in the set of a bracket expression of `fnmatch`?  `a-b` stands for the characters from `a` to `b`. -/
def setHas : Str → Char → Bool
  | a :: '-' :: b :: s, c => (decide (a.toNat ≤ c.toNat) && decide (c.toNat ≤ b.toNat)) || setHas s c
  | a :: s, c => decide (a = c) || setHas s c
  | [], _ => false

end Verif.Py
