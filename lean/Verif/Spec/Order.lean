import Verif.Py.Heap

/-!
# Preconditions for the independence of the order of traces (C144)
-/

namespace Verif.Spec
open Verif.Py

/-- The processing information, where given, is a list. -/
def ProcOk {K : Type} (t : Trace K) : Prop :=
  ∀ v, t.ext.get "processing" = some v → ∃ l, v = .list l

/-- The traces cover the same time span with the same sampling rate. -/
def SameSpan {K : Type} (h : Heap K) (g : List Nat) : Prop :=
  ∀ r ∈ g, ∀ q ∈ g, (h r).data.length = (h q).data.length ∧ (h r).start = (h q).start ∧ (h r).sr = (h q).sr

end Verif.Spec
