import Verif.Spec.Simple
import Verif.Model.Simple

/-!
# Specification vocabulary: rays that turn inside of the model
-/

namespace Verif.Spec
open Verif.Py Verif.Model.Simple

variable {K : Type} [Field K] [LinearOrder K]

/-- No wave of slowness `s` (s/deg) in a layer of velocity `v`. -/
def Evanescent (v s : K) : Prop := 1 / v ^ 2 < (s / (1112 / 10)) ^ 2

/-- One of the waves of the phase (capital letters) does not exist in the layer. -/
def Blocked (phase : Str) (s : K) (l : Layer K) : Prop :=
  ('P' ∈ phase ∧ Evanescent l.vp s) ∨ ('S' ∈ phase ∧ Evanescent l.vs s)

/-- The model that consists of the uppermost `k` layers of `m`. -/
def topOf (m : SimpleModel K) (k : ℕ) : SimpleModel K :=
  { z := m.z.take k, dz := m.dz.take k, vp := m.vp.take k, vs := m.vs.take k, tRef := [] }

end Verif.Spec
