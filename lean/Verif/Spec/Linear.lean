import Verif.Py.Heap

/-!
# Specification for C139: linear combinations of traces
-/

namespace Verif.Spec
open Verif.Py

/-- `a * x + b * y`, sample by sample. -/
def comb {K : Type} [Field K] (a b : K) (x y : List K) : List K := List.zipWith (fun u v => a * u + b * v) x y

/-- The trace `t` with the samples `a * t + b * t'`. -/
def combTrace {K : Type} [Field K] (a b : K) (t t' : Trace K) : Trace K := { t with data := comb a b t.data t'.data }

/-- Two traces that differ at most in the values of their samples. -/
def SameHead {K : Type} (t t' : Trace K) : Prop := t' = { t with data := t'.data } ∧ t'.data.length = t.data.length

/-- Three computations: all raise the same exception, or the third result is the combination of the others, which have
the same length. -/
def CombRes {K : Type} [Field K] (a b : K) (x y z : Res (List K)) : Prop :=
  (∃ e, x = .error e ∧ y = .error e ∧ z = .error e) ∨
    ∃ u v, x = .ok u ∧ y = .ok v ∧ u.length = v.length ∧ z = .ok (comb a b u v)

/-- The sum of arrays of the same length, sample by sample, starting with the first one. -/
def sumRows {K : Type} [Field K] (first : List K) (rows : List (List K)) : List K :=
  rows.foldl (fun (x y : List K) => List.zipWith (· + ·) x y) first

end Verif.Spec
