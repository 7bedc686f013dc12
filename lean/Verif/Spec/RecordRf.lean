import Verif.Spec.Records
import Verif.Spec.Stream

/-!
# Specification vocabulary: receiver functions of single records
-/

namespace Verif.Spec
open Verif.Py

variable {K : Type} [Field K]

/-- What happens to a deconvolved trace `t` afterwards: nothing but for the labels if the method `m` is P; for S the
samples are reversed and the onset is put to the mirrored place in the same time span. -/
def Finished (m : Str) (t t' : Trace K) : Prop :=
  (m ≠ "S".toList → EqBut ["type", "phase", "processing"] t' t) ∧
  (m = "S".toList → ∃ o, t.getTime "onset" = some o ∧ EqBut ["type", "phase", "processing"] t'
    ({ t with data := t.data.reverse }.put "onset" (.time (t.start + (t.endtime - o)))))

/-- The lag of P conversions is positive, the lag of S conversions negative. -/
def lagSign (m : Str) : K := if m = "S".toList then -1 else 1

/-- The trace `t` shows the amplitude `x[j]` at the lag of the `j`-th sample of the record `t0` after `onset`
(before `onset` for S). -/
def ShowsAt (m : Str) (t0 : Trace K) (onset : K) (x : List K) (t : Trace K) : Prop :=
  ∃ o, t.getTime "onset" = some o ∧ t.data.length = x.length ∧
    ∀ (j : Nat) (v : K), x[j]? = some v →
      SampleAtLag t o (lagSign m * (t0.start + (j : K) / t0.sr - onset)) v

/-- The phase can be read: if the traces agree on it, it is a non-empty string. -/
def PhaseReadable (h : Heap K) (s : List Nat) : Prop :=
  ∀ v, CommonEntry h s "phase" v → ∃ x : Str, x ≠ [] ∧ v = .str x

end Verif.Spec
