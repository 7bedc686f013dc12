import Verif.Model.Simple
import Verif.Py.Double

/-!
# Delay times in double precision (`rf/simple_model.py` lines 80-151)

Each operation is rounded to 53 bits (`fl64`; exponents are not bounded).  The two library functions `v ** (-2)` and `np.sqrt` and the
square of the horizontal slowness are parameters `pw`, `sq` and `sqr`.  NaN is `none`.
-/

namespace Verif.Model.DoubleDelay
open Verif.Py Verif.Model Verif.Model.Simple

/-- rf/simple_model.py:91, 97/99: `np.sqrt(v ** (-2) - hslow ** 2)` for one layer (NaN if negative). -/
def vslow64 (pw sq sqr : ℚ → ℚ) (v slowness : ℚ) : Option ℚ :=
  let hslow := fl64 (slowness / fl64 deg2km)
  let x := fl64 (pw v - sqr hslow)
  if x < 0 then none else some (sq x)

/-- rf/simple_model.py:80-100 `calculate_vertical_slowness` for the letter `c`, as `Simple.vertSlow`. -/
def vertSlow64 (pw sq sqr : ℚ → ℚ) (c : Char) (v : List ℚ) (slowness : ℚ) (phase : Str) : List (Option ℚ) :=
  v.map fun v => if (upper phase).contains c then vslow64 pw sq sqr v slowness else some 0

/-- rf/simple_model.py:112-113, one layer: two products, sum, twice the slowness of the first letter, difference, product with `dz`. -/
def layerDelay64 (phase : Str) (qp qs : Option ℚ) (dz : ℚ) : Option ℚ :=
  match qp, qs with
  | some a, some b =>
    some (fl64 (fl64 (fl64 (fl64 (a * (phase.count 'P' : ℚ)) + fl64 (b * (phase.count 'S' : ℚ)))
      - fl64 (2 * (if phase.head? = some 'P' then a else b))) * dz))
  | _, _ => none

/-- rf/simple_model.py:114 `np.cumsum`, one rounded addition after the other; the first value is the first summand, which is the rounded
sum of 0 and this summand. -/
def cumsum64 : Option ℚ → List (Option ℚ) → List (Option ℚ)
  | _, [] => []
  | acc, x :: xs =>
    let s := match acc, x with
      | some a, some b => some (fl64 (a + b))
      | _, _ => none
    s :: cumsum64 s xs

/-- rf/simple_model.py:102-114 `calculate_delay_times`. -/
def delayTimes64 (pw sq sqr : ℚ → ℚ) (m : SimpleModel ℚ) (slowness : ℚ) (phase : Str) : Res (List (Option ℚ)) :=
  let phase := upper phase
  if phase = [] then .error .indexError
  else
    let qp := vertSlow64 pw sq sqr 'P' m.vp slowness phase
    let qs := vertSlow64 pw sq sqr 'S' m.vs slowness phase
    .ok (cumsum64 (some 0) ((List.zip qp (List.zip qs m.dz)).map fun x => layerDelay64 phase x.1 x.2.1 x.2.2))

/-- rf/simple_model.py:133-151 `stretch_delay_times`.  `ref` is the slowness for which the times in the cache `t_ref` were calculated (the
slowness of the first call for this phase, see C30). -/
def stretch64 (pw sq sqr : ℚ → ℚ) (m : SimpleModel ℚ) (slowness : ℚ) (phase : Str) (ref : ℚ) :
    Res (List (Option ℚ) × List (Option ℚ)) :=
  if phase.length % 2 = 1 then .error .valueError
  else do
    let phase := upper phase
    let tref ← delayTimes64 pw sq sqr m ref phase
    let t ← delayTimes64 pw sq sqr m slowness phase
    let tref := if phase.head? = some 'S' then negO tref else tref
    let t := if phase.head? = some 'S' then negO t else t
    let index : Int := match firstNaN t with
      | some i => (i : Int) - 1
      | none => t.length
    .ok (mirror (sliceTo t index), mirror (sliceTo tref index))

end Verif.Model.DoubleDelay
