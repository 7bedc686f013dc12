import Verif.Py.Arr

/-!
# Specification of kernels that accept a list of arrays or a single array
-/

namespace Verif.Spec
open Verif.Py

/-- Calling `f` with the array `x` is the same as calling it with the list `[x]`, only that the
result is an array instead of a list with one array; exceptions are the same. -/
def SameForSingle {α β : Type} (f : Arr α → Res (Arr β)) (x : List α) : Prop :=
  (∃ e, f (.one x) = .error e ∧ f (.many [x]) = .error e) ∨
    ∃ y, f (.one x) = .ok (.one y) ∧ f (.many [x]) = .ok (.many [y])

end Verif.Spec
