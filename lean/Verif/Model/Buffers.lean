import Verif.Model.Simple

/-!
# Arrays as objects: which memory the samples of a trace live in

The other models treat the samples of a trace as a value.  Here a trace refers to a part of an array (NumPy: a view),
several traces can refer to the same array, and the array has a type of elements.  This matters for the only place where
the package writes into an array which belongs to a trace, `SimpleModel.moveout` (`rf/simple_model.py` lines 176 and
187); all other methods bind a new array to `tr.data`.
-/

namespace Verif.Model.Buffers
open Verif.Py Verif.Model Verif.Model.Simple

/-- Element types: floating point (exact here) and integers. -/
inductive DType
  | float
  | int
  deriving DecidableEq, Repr

/-- An array in memory; cells beyond the size of the array are never referred to. -/
structure Buffer (K : Type) where
  dtype : DType
  cells : Nat → K

/-- A one-dimensional view of an array with stride 1 or -1: array, first cell, number of cells, direction. -/
structure View where
  buf : Nat
  off : Nat
  len : Nat
  rev : Bool
  deriving DecidableEq, Repr

/-- The cell of sample `i`. -/
def View.idx (v : View) (i : Nat) : Nat := if v.rev then v.off + (v.len - 1 - i) else v.off + i

/-- The sample stored in a cell. -/
def View.pos (v : View) (c : Nat) : Option Nat :=
  if v.off ≤ c ∧ c < v.off + v.len then some (if v.rev then v.len - 1 - (c - v.off) else c - v.off) else none

/-- A trace object: header (`head.data` is not used) and the view which is its `data`. -/
structure Obj (K : Type) where
  head : Trace K
  view : View

/-- Memory: arrays and trace objects. -/
structure World (K : Type) where
  bufs : Nat → Buffer K
  objs : Nat → Obj K

variable {K : Type}

/-- The samples seen through a view. -/
def World.read (w : World K) (v : View) : List K :=
  (List.range v.len).map fun (i : Nat) => (w.bufs v.buf).cells (v.idx i)

/-- A trace with its samples as value. -/
def World.value (w : World K) (r : Nat) : Trace K := { (w.objs r).head with data := w.read (w.objs r).view }

/-- Two views do not overlap. -/
def View.Disjoint (v u : View) : Prop := v.buf ≠ u.buf ∨ v.off + v.len ≤ u.off ∨ u.off + u.len ≤ v.off

section ops
variable [Field K]

/-- The trace object `q` becomes what `RFTrace(trace=tr)` (`rf/rfstream.py` lines 476-488) gives for the trace `r`: the
header is copied, the array is not. -/
def World.wrap (w : World K) (r q : Nat) : World K :=
  { w with objs := fun n => if n = q then w.objs r else w.objs n }

/-- The trace object `q` becomes the part of `n` samples from sample `a` on of trace `r`, as made by `Trace.slice` of
ObsPy, called by `slice2` (`rf/rfstream.py` lines 235-250): the data is a view of the same array. -/
def World.slice (w : World K) (r q a n : Nat) : World K :=
  let o := w.objs r
  let v := o.view
  let u : View := { v with off := if v.rev then v.off + (v.len - (a + n)) else v.off + a, len := n }
  { w with objs := fun k => if k = q then
      ⟨{ o.head with start := o.head.start + (a : K) * o.head.delta }, u⟩ else w.objs k }

/-- `tr.data = f(tr.data)` with a function that returns a new array of the same type: the samples are put into the
array `b`, which must not be in use.  `-tr.data` (`rf/rfstream.py` line 337). -/
def World.rebind (w : World K) (r b : Nat) (f : K → K) : World K :=
  let o := w.objs r
  let d := (w.read o.view).map f
  { bufs := fun n => if n = b then ⟨(w.bufs o.view.buf).dtype, fun c => d.getD c 0⟩ else w.bufs n,
    objs := fun n => if n = r then { o with view := ⟨b, 0, o.view.len, false⟩ } else w.objs n }

/-- `tr.data = tr.data[::-1]` (`rf/rfstream.py` line 349): the same cells in the other direction. -/
def World.mirror (w : World K) (r : Nat) : World K :=
  let o := w.objs r
  { w with objs := fun n => if n = r then { o with view := { o.view with rev := !o.view.rev } } else w.objs n }

/-- What an array stores if `x` is assigned to an element: integers are cut towards zero. -/
def stored [LinearOrder K] [FloorRing K] : DType → K → K
  | .float, x => x
  | .int, x => if 0 ≤ x then (⌊x⌋ : K) else (⌈x⌉ : K)

/-- `view[a:b] = d[a:b]` -/
def World.write [LinearOrder K] [FloorRing K] (w : World K) (v : View) (a b : Nat) (d : List K) : World K :=
  { w with bufs := fun n => if n = v.buf then
      { w.bufs n with cells := fun c => match v.pos c with
          | some i => if a ≤ i ∧ i < b then stored (w.bufs n).dtype (d.getD i 0) else (w.bufs n).cells c
          | none => (w.bufs n).cells c }
      else w.bufs n }

end ops

section moveout
variable [Field K] [LinearOrder K] [FloorRing K] (sqrt : K → K) (find : List K → K → Nat)

/-- The samples to which `moveout` assigns: `tr.data[:index0]` for S multiples (line 176), `tr.data[index0:]` with
`index0` of line 180 for all other phases (line 187).  A comparison with NaN is false. -/
def writeRange (phase : Str) (ref : K) (m : SimpleModel K) (tr : Trace K) : Nat × Nat :=
  match tr.getTime "onset", tr.getNum "slowness" with
  | some onset, some slowness =>
    if isSMultiple phase then (0, (index0 tr onset).toNat)
    else
      match (stretch sqrt m slowness phase ref).2 with
      | .ok (t0, t1) =>
        match allSome t0, allSome t1 with
        | some t0, some t1 =>
          ((if t0.getLastD 0 > t1.getLastD 0 then index0 tr onset + 1 else index0 tr onset).toNat, tr.npts)
        | _, _ => ((index0 tr onset).toNat, tr.npts)
      | .error _ => (0, 0)
  | _, _ => (0, 0)

/-- Loop body of `moveout` (lines 161-187) on arrays. -/
def moveoutStep (nanCase : Trace K → Res (List K)) (phase : Str) (ref : K) (m : SimpleModel K) (w : World K)
    (r : Nat) : SimpleModel K × Res (World K) :=
  match Simple.moveoutStep sqrt find nanCase phase ref m (w.value r) with
  | (m', .error e) => (m', .error e)
  | (m', .ok tr) =>
    let ab := writeRange sqrt phase ref m (w.value r)
    (m', .ok (w.write (w.objs r).view ab.1 ab.2 tr.data))

/-- `SimpleModel.moveout` (lines 153-188) on arrays. -/
def moveout (nanCase : Trace K → Res (List K)) (phase : Str) (ref : K) :
    SimpleModel K → World K → List Nat → SimpleModel K × World K × Option PyErr
  | m, w, [] => (m, w, none)
  | m, w, r :: s =>
    match moveoutStep sqrt find nanCase phase ref m w r with
    | (m', .ok w) => moveout nanCase phase ref m' w s
    | (m', .error e) => (m', w, some e)

end moveout

end Verif.Model.Buffers
