import Verif.Py.Heap

/-!
# Specification vocabulary for profiles
-/

namespace Verif.Spec
open Verif.Py

variable {K : Type}

/-- Position of the first box that contains the point; a box is its position together with the set of
points in it. -/
def firstBox : List (K × (K × K → Bool)) → K × K → Option K
  | [], _ => none
  | (pos, inside) :: bs, p => if inside p then some pos else firstBox bs p

/-- The bin (box position, component) a trace with piercing point belongs to, if any. -/
def binOf (boxes : List (K × (K × K → Bool))) (t : Trace K) : Option (K × Char) :=
  match t.getNum "pp_latitude", t.getNum "pp_longitude", t.cha.getLast? with
  | some a, some b, some c => (firstBox boxes (a, b)).map fun pos => (pos, c)
  | _, _, _ => none

/-- The traces of a stream that belong to a bin. -/
def binMembers [DecidableEq K] (boxes : List (K × (K × K → Bool))) (h : Heap K) (s : List Nat)
    (k : K × Char) : List Nat :=
  s.filter fun r => binOf boxes (h r) = some k

/-- The point with coordinates `p = (lon, lat)` is in the interior of the convex polygon with the given
corners: strictly on the same side of all edges. -/
def insideConvex [Field K] [LinearOrder K] (p : K × K) (corners : List (K × K)) : Prop :=
  let side (a b : K × K) : K := (b.1 - a.1) * (p.2 - a.2) - (b.2 - a.2) * (p.1 - a.1)
  let edges := List.zip corners (corners.tail ++ corners.take 1)
  (∀ e ∈ edges, 0 < side e.1 e.2) ∨ (∀ e ∈ edges, side e.1 e.2 < 0)

end Verif.Spec
