import Verif.Model.Iasp91
import Mathlib.Data.Rat.Floor

/-!
# Content of the file `rf/data/iasp91.dat`, checked by the kernel
-/

namespace Verif.Props
open Verif.Py Verif.Model Verif.Model.Simple Verif.Model.Ppoints Verif.Model.Iasp91

/-- Decidable version of the properties of the model. -/
def shippedCheck (m : SimpleModel ℚ) : Bool :=
  decide (m.vp.length = 669) && decide (m.vs.length = 669) && decide (m.dz.length = 669) && decide (m.z.length = 669) &&
  decide (m.z.IsChain (· ≤ ·)) && decide (m.z.getD 0 0 = 0) &&
  decide (List.zipWith (· + ·) m.z m.dz.dropLast = m.z.tail) &&
  decide (∀ x ∈ List.zip m.vp m.vs, 0 < x.2 ∧ x.2 < x.1 ∧ x.1 ≤ 13691 / 1000) &&
  decide (∀ x ∈ m.dz, 0 ≤ x ∧ x ≤ 50 / 3) && decide (m.dz.take 1 = [0]) &&
  decide ((m.vp.take 11).drop 1 = List.replicate 10 (58 / 10)) &&
  decide ((m.vs.take 11).drop 1 = List.replicate 10 (336 / 100)) &&
  decide ((m.dz.take 11).drop 1 = List.replicate 10 2) &&
  decide (∀ x ∈ List.zip m.dz m.dz.tail, 0 < x.1 ∨ 0 < x.2) && decide (∀ x ∈ m.vp.take 170, x ≤ 1112 / 100) &&
  decide (m.z.getD 166 0 = 760)

/-- The check for the content of the file. -/
def fileCheck : Res (Table ℚ) → Bool
  | .ok (.columns [z, vp, vs, n]) =>
    match SimpleModel.init z vp vs (some (n.map toInt)) with
    | .ok m => shippedCheck m
    | .error _ => false
  | _ => false

set_option maxRecDepth 100000 in
theorem file_checked : fileCheck (LoadTxt.loadTxt (fileLines.map String.toList)) = true := by decide +kernel

end Verif.Props
