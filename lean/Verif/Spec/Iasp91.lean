import Verif.Spec.Evanescent

/-!
# Specification vocabulary: what is used of the velocity model of the package
-/

namespace Verif.Spec
open Verif.Py Verif.Model.Simple

variable {K : Type} [Field K] [LinearOrder K]

/-- Properties of the model `m` with the layers `layers` as loaded from the file of the package. -/
structure ShippedModel (m : SimpleModel K) (layers : List (Layer K)) : Prop where
  vp : m.vp = layers.map Layer.vp
  vs : m.vs = layers.map Layer.vs
  dz : m.dz = layers.map Layer.dz
  fresh : m.tRef = []
  count : layers.length = 669
  depths : m.z.length = 669
  sorted : m.z.Pairwise (· ≤ ·)
  surface : m.z.getD 0 0 = 0
  /-- depths and thicknesses fit together -/
  bottom : ∀ i < 668, m.z.getD (i + 1) 0 = m.z.getD i 0 + (m.dz.getD i 0)
  /-- S waves are slower than P waves, no P wave is faster than at the core-mantle boundary -/
  speed : ∀ l ∈ layers, 0 < l.vs ∧ l.vs < l.vp ∧ l.vp ≤ 13691 / 1000
  /-- no layer is thicker than 50/3 km -/
  thick : ∀ l ∈ layers, 0 ≤ l.dz ∧ l.dz ≤ 50 / 3
  /-- the uppermost layer is empty, followed by ten layers of 2 km -/
  empty : (layers.take 1).map Layer.dz = [0]
  crust : ∀ l ∈ (layers.take 11).drop 1, l.vp = 58 / 10 ∧ l.vs = 336 / 100 ∧ l.dz = 2
  /-- at discontinuities there is one empty layer -/
  single : ∀ i < 668, 0 < m.dz.getD i 0 ∨ 0 < m.dz.getD (i + 1) 0
  /-- velocities above 796 km -/
  upper : ∀ l ∈ layers.take 170, l.vp ≤ 1112 / 100
  /-- first depth below 760 km -/
  deep : m.z.getD 166 0 = 760

/-- Horizontal distance per kilometre of depth travelled in a layer by a ray with `nP` P legs and `nS` S legs. -/
def distRate (sqrt : K → K) (nP nS : ℕ) (l : Layer K) (s : K) : K :=
  (nP : K) * (s / (1112 / 10) / qSpec sqrt l.vp s) + (nS : K) * (s / (1112 / 10) / qSpec sqrt l.vs s)

/-- Phases for which a conversion of a P or S wave is corrected: `'Sp'` and all phases that start with P and contain S. -/
def Converted (p : Str) : Prop :=
  p = "Sp".toList ∨ (p.length % 2 = 0 ∧ (∀ c ∈ upper p, c = 'P' ∨ c = 'S') ∧ (upper p).head? = some 'P' ∧ 'S' ∈ upper p)

/-- Delay of the phase for a conversion at the bottom of layer `j`; `'Sp'` has the delays of `'Ps'` (the time axis of S
receiver functions is reversed). -/
def delayOf (sqrt : K → K) (p : Str) (layers : List (Layer K)) (s : K) (j : ℕ) : K :=
  if p = "Sp".toList then delaySpec sqrt 1 1 true layers s j
  else delaySpec sqrt ((upper p).count 'P') ((upper p).count 'S') true layers s j

end Verif.Spec
