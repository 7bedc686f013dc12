import Verif.Py.Heap

/-!
# Specification vocabulary for streams
-/

namespace Verif.Spec
open Verif.Py

variable {K : Type}

/-- All traces of the stream that have the entry `k` have the value `v` for it, and there is one. -/
def CommonEntry (h : Heap K) (s : List Nat) (k : String) (v : Val K) : Prop :=
  (∃ r ∈ s, (h r).ext.get k = some v) ∧ ∀ r ∈ s, ∀ w, (h r).ext.get k = some w → w = v

/-- The trace `t` has the sample `x` at the lag `tau` seconds after the time `onset`. -/
def SampleAtLag [Field K] (t : Trace K) (onset tau x : K) : Prop :=
  ∃ k : Nat, t.data[k]? = some x ∧ t.start + (k : K) * t.delta - onset = tau

/-- The arithmetic mean of the `i`-th samples of some rows. -/
def meanAt [Field K] (rows : List (List K)) (i : Nat) : K :=
  (rows.map fun r => r.getD i 0).sum / (rows.length : K)

/-- The list of processing entries of a trace (empty if there is none). -/
def processingOf (t : Trace K) : List Str :=
  match t.ext.get "processing" with
  | some (.list l) => l
  | _ => []

/-- The processing entry is missing or a list with fewer than `n` entries. -/
def ShortHistory (n : Nat) (t : Trace K) : Prop :=
  t.ext.get "processing" = none ∨ ∃ l, t.ext.get "processing" = some (.list l) ∧ l.length < n

end Verif.Spec
