import Verif.Py.Heap

/-!
# Specification vocabulary for `deconvolve`
-/

namespace Verif.Spec
open Verif.Py

/-- Index `i` of array `a` is a nearest entry to `v`. -/
def Nearest {K : Type} [Field K] [LinearOrder K] (a : List K) (v : K) (i : Nat) : Prop :=
  ∃ x, a[i]? = some x ∧ ∀ y ∈ a, |v - x| ≤ |v - y|

/-- The time `onset` is a sample time of the trace, and no sample is closer to the onset given in the header. -/
def SnappedOnset {K : Type} [Field K] [LinearOrder K] (t : Trace K) (onset : K) : Prop :=
  ∃ (o : K) (i : Nat), t.getTime "onset" = some o ∧ i < t.data.length ∧ onset = t.start + (i : K) / t.sr ∧
    ∀ j : Nat, j < t.data.length → |o - onset| ≤ |o - (t.start + (j : K) / t.sr)|

/-- The trace belongs to one of the components in `comps`. -/
def OfComp {K : Type} (comps : Str) (t : Trace K) : Prop := ∃ c, t.cha.getLast? = some c ∧ c ∈ comps

instance {K : Type} (comps : Str) (t : Trace K) : Decidable (OfComp comps t) :=
  decidable_of_iff (t.cha.getLast?.any (fun c => decide (c ∈ comps)) = true) (by
    unfold OfComp
    cases t.cha.getLast? <;> simp)

/-- The traces of the stream on the given components; all traces for `None`. -/
def onComps {K : Type} (h : Heap K) (s : List Nat) : Option Str → List Nat
  | none => s
  | some comps => s.filter (fun r => decide (OfComp comps (h r)))

/-- The documented method names (with the alias `freq`). -/
def KnownMethod (m : Str) : Prop :=
  m = "time".toList ∨ m = "freq".toList ∨ m = "waterlevel".toList ∨ m = "iterative".toList ∨
    m = "multitaper".toList ∨ m = "func".toList

/-- Nothing but the samples, the `onset` entry and the entry `iterations` differ. -/
def SameButResult {K : Type} (t t' : Trace K) : Prop :=
  t'.net = t.net ∧ t'.sta = t.sta ∧ t'.loc = t.loc ∧ t'.cha = t.cha ∧ t'.start = t.start ∧
    t'.sr = t.sr ∧ ∀ k, k ≠ "onset" → k ≠ "iterations" → t'.ext.get k = t.ext.get k

end Verif.Spec
