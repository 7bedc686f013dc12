import Verif.Model.DoubleInterp

/-!
# Move out of S multiples in double precision (rf/simple_model.py 170-176)
-/

namespace Verif.Model.DoubleMoveoutS
open Verif.Py Verif.Model Verif.Model.Simple Verif.Model.DoubleInterp

/-- simple_model.py 171 and 173-174: `-t` with `t = -time0 - np.arange(index0) * st.delta`, each operation rounded. -/
def beforeTimes64 (index0 : ℤ) (tr : Trace ℚ) (onset : ℚ) : List ℚ :=
  let time0 := fl64 (fl64 (tr.start - onset) + fl64 ((index0 : ℚ) * fl64 tr.delta))
  (List.range index0.toNat).map fun (k : Nat) => -fl64 (-time0 - fl64 ((k : ℚ) * fl64 tr.delta))

/-- simple_model.py 170-176: the samples before the onset in double precision; changes of sign are exact. -/
def moveoutS64 (find : List ℚ → ℚ → Nat) (index0 : ℤ) (tr : Trace ℚ) (onset : ℚ) (t0 t1 : List ℚ) : Res (List ℚ) := do
  let mt := beforeTimes64 index0 tr onset
  let old := (sliceTo tr.data index0).reverse
  let newt ← interpAll64 find mt (t0.map fun x => -x) (t1.map fun x => -x) (some 0) (some 0)
  let newt := newt.map fun x => -x
  let data ← interpAll64 find mt (newt.map fun x => -x) old (some 0) (some 0)
  .ok (data.reverse ++ sliceFrom tr.data index0)

end Verif.Model.DoubleMoveoutS
