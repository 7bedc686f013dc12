import Verif.Py.Heap

/-!
# Specification for C130, C131: equality of traces up to some header entries
-/

namespace Verif.Spec
open Verif.Py

/-- The two traces have the same codes, times, samples and header entries, except possibly the entries
named in `ks`. -/
structure EqBut {K : Type} (ks : List String) (t t' : Trace K) : Prop where
  net : t.net = t'.net
  sta : t.sta = t'.sta
  loc : t.loc = t'.loc
  cha : t.cha = t'.cha
  start : t.start = t'.start
  sr : t.sr = t'.sr
  data : t.data = t'.data
  ext : ∀ k, k ∉ ks → t.ext.get k = t'.ext.get k

/-- Phases, where given, are non-empty strings. -/
def PhasesOk {K : Type} (h : Heap K) (s : List Nat) : Prop :=
  ∀ r ∈ s, ∀ v, (h r).ext.get "phase" = some v → ∃ x : Str, x ≠ [] ∧ v = .str x

end Verif.Spec
