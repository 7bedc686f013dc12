import Verif.Py.Interp
import Mathlib.Algebra.BigOperators.Group.List.Basic

/-!
# Specifications for `simple_model.py`, independent of the model definitions
-/

namespace Verif.Spec
open Verif.Py

/-- A horizontal layer: P velocity, S velocity, thickness. -/
structure Layer (K : Type) where
  vp : K
  vs : K
  dz : K

variable {K : Type} [Field K]

/-- Vertical slowness in s/km of a ray with horizontal slowness `s` s/deg in a layer with velocity `v`
(111.2 km per degree). -/
def qSpec (sqrt : K → K) (v s : K) : K := sqrt (1 / v ^ 2 - (s / (1112 / 10)) ^ 2)

/-- Delay accumulated between the surface and the bottom of layer `k` (counted from 0) by a phase
with `nP` P legs and `nS` S legs, relative to the direct wave of type P or S. -/
def delaySpec (sqrt : K → K) (nP nS : Nat) (firstP : Bool) (layers : List (Layer K)) (s : K)
    (k : Nat) : K :=
  ((layers.take (k + 1)).map fun l =>
    ((nP : K) * qSpec sqrt l.vp s + (nS : K) * qSpec sqrt l.vs s
      - 2 * (if firstP then qSpec sqrt l.vp s else qSpec sqrt l.vs s)) * l.dz).sum

/-- Horizontal distance travelled between the surface and the bottom of layer `k - 1`
(i.e. through the first `k` layers), for a ray with `nP` P legs and `nS` S legs. -/
def distSpec (sqrt : K → K) (nP nS : Nat) (layers : List (Layer K)) (s : K) (k : Nat) : K :=
  ((layers.take k).map fun l =>
    (nP : K) * (s / (1112 / 10) / qSpec sqrt l.vp s * l.dz)
      + (nS : K) * (s / (1112 / 10) / qSpec sqrt l.vs s * l.dz)).sum

/-- The ray is not evanescent in any of the layers, for P and S. -/
def Propagates [LinearOrder K] (layers : List (Layer K)) (s : K) : Prop :=
  ∀ l ∈ layers, (s / (1112 / 10)) ^ 2 ≤ 1 / l.vp ^ 2 ∧ (s / (1112 / 10)) ^ 2 ≤ 1 / l.vs ^ 2

/-- The ray is strictly inside of the cone of propagating rays in all layers (no grazing incidence). -/
def PropagatesStrictly [LinearOrder K] (layers : List (Layer K)) (s : K) : Prop :=
  ∀ l ∈ layers, (s / (1112 / 10)) ^ 2 < 1 / l.vp ^ 2 ∧ (s / (1112 / 10)) ^ 2 < 1 / l.vs ^ 2

/-- What is used of the square root: non-negative and monotone on non-negative numbers. -/
def SqrtMono [LinearOrder K] (sqrt : K → K) : Prop :=
  ∀ x y, 0 ≤ x → x ≤ y → 0 ≤ sqrt x ∧ sqrt x ≤ sqrt y

end Verif.Spec
