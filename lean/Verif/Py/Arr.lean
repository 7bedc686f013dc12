import Verif.Py.Basic

/-!
# An argument that is one array or a list of arrays
-/

namespace Verif.Py

/-- A NumPy array, or a list (or tuple) of arrays. -/
inductive Arr (α : Type)
  | one (x : List α)
  | many (l : List (List α))
  deriving DecidableEq, Repr

end Verif.Py
