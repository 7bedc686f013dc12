import Verif.Py.Heap

/-!
# Streams that agree in some of the header entries
-/

namespace Verif.Spec
open Verif.Py

/-- Two traces with the same codes, start time, sampling rate and samples, and with the same header entries among the
keys `ks`. -/
structure SameKept {K : Type} (ks : String → Prop) (t t' : Trace K) : Prop where
  net : t.net = t'.net
  sta : t.sta = t'.sta
  loc : t.loc = t'.loc
  cha : t.cha = t'.cha
  start : t.start = t'.start
  sr : t.sr = t'.sr
  data : t.data = t'.data
  ext : ∀ k, ks k → t.ext.get k = t'.ext.get k

/-- The trace objects of two heaps agree in this sense. -/
def KeptH {K : Type} (ks : String → Prop) (h h' : Heap K) : Prop := ∀ r, SameKept ks (h r) (h' r)

/-- Outcomes of a function with a trace as result: the same exception, or traces that agree. -/
inductive KeptR {K : Type} (ks : String → Prop) : Res (Trace K) → Res (Trace K) → Prop
  | error (e : PyErr) : KeptR ks (.error e) (.error e)
  | ok (t t' : Trace K) (h : SameKept ks t t') : KeptR ks (.ok t) (.ok t')

/-- Outcomes of a function with a list of traces as result. -/
inductive KeptL {K : Type} (ks : String → Prop) : Res (List (Trace K)) → Res (List (Trace K)) → Prop
  | error (e : PyErr) : KeptL ks (.error e) (.error e)
  | ok (l l' : List (Trace K)) (h : List.Forall₂ (SameKept ks) l l') : KeptL ks (.ok l) (.ok l')

/-- States of a stream: the same trace objects, which agree; and the same exception, if any. -/
def KeptS {K : Type} (ks : String → Prop) (x y : (Heap K × List Nat) × Option PyErr) : Prop :=
  KeptH ks x.1.1 y.1.1 ∧ x.1.2 = y.1.2 ∧ x.2 = y.2

end Verif.Spec
