import Verif.Py.Heap

/-!
# Specification for C137: the same records with other gain factors
-/

namespace Verif.Spec
open Verif.Py

/-- A trace whose samples are multiplied with `c`; nothing else is different. -/
def gain {K : Type} [Field K] (c : K) (t : Trace K) : Trace K := { t with data := t.data.map (fun (x : K) => c * x) }

/-- The heap with trace `r` multiplied with `c r`. -/
def gainH {K : Type} [Field K] (c : Nat → K) (h : Heap K) : Heap K := fun r => gain (c r) (h r)

/-- Several arrays multiplied with one factor. -/
def gainL {K : Type} [Field K] (c : K) (l : List (List K)) : List (List K) :=
  l.map (fun x => x.map (fun (v : K) => c * v))

end Verif.Spec
