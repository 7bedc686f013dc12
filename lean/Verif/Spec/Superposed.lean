import Mathlib.Algebra.Field.Basic

/-!
# Specification vocabulary: superposition of arrays
-/

namespace Verif.Spec

/-- The array `x` is `a` times `y` plus `b` times `z`, sample by sample. -/
def Superposed {F : Type} [Field F] (a b : F) (x y z : List F) : Prop :=
  x.length = y.length ∧ x.length = z.length ∧ ∀ m < x.length, x.getD m 0 = a * y.getD m 0 + b * z.getD m 0

end Verif.Spec
