import Verif.Model.Stream
import Mathlib.Algebra.Order.Floor.Ring

/-!
# Specification of cutting out a part of a trace
-/

namespace Verif.Spec
open Verif.Py Verif.Model

variable {K : Type} [Field K]

/-- `n` samples of a trace from sample `i` on. -/
def samplesOf (i n : ℕ) (t : Trace K) : Trace K :=
  { t with start := t.start + (i : K) * t.delta, data := (t.data.drop i).take n }

/-- What is assumed about ObsPy's `Trace.trim` for times: it drops samples on both sides; which ones (or whether it
raises) depends on the number of samples, the sampling rate and the times relative to the start only. -/
def CutsSamples (trim : Trace K → TArg K → TArg K → Res (Trace K)) : Prop :=
  ∃ f : ℕ → K → K → K → Res (ℕ × ℕ), ∀ (t : Trace K) (x y : K),
    trim t (.utc x) (.utc y) = (f t.npts t.sr (x - t.start) (y - t.start)).map fun p => samplesOf p.1 p.2 t

/-- Cutting at the nearest samples (ObsPy's default): an example. -/
def nearestTrim [LinearOrder K] [FloorRing K] (t : Trace K) : TArg K → TArg K → Res (Trace K)
  | .utc x, .utc y =>
    if y - t.start < x - t.start then .error .valueError
    else .ok (samplesOf ⌊(x - t.start) * t.sr + 1 / 2⌋.toNat
      ((⌊(y - t.start) * t.sr + 1 / 2⌋ + 1).toNat - ⌊(x - t.start) * t.sr + 1 / 2⌋.toNat) t)
  | _, _ => .error .typeError

/-- Two traces with the same content if times are given relative to the start of the trace. -/
def SameRelative (t u : Trace K) : Prop :=
  t.net = u.net ∧ t.sta = u.sta ∧ t.loc = u.loc ∧ t.cha = u.cha ∧ t.sr = u.sr ∧ t.data = u.data ∧
    (∃ x y, t.ext.get "onset" = some (.time x) ∧ u.ext.get "onset" = some (.time y) ∧ x - t.start = y - u.start) ∧
    ∀ k, k ≠ "onset" → t.ext.get k = u.ext.get k

end Verif.Spec
