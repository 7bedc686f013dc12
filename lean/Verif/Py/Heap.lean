import Verif.Py.Basic
import Mathlib.Algebra.Order.Field.Basic

/-!
# Trace objects and the heap

Model of the parts of `obspy.Trace` / `obspy.Stats` that rf uses.  Traces are mutable objects in
Python; they are modelled by a heap from references to trace values, and a stream is the list of
references held by `stream.traces`.
-/

namespace Verif.Py

/-- Values of additional `stats` entries. -/
inductive Val (K : Type) where
  | str (s : Str)
  | num (x : K)
  | time (x : K)
  | list (l : List Str)
  deriving DecidableEq, Repr

/-- A trace: the four SEED codes, start time and sampling rate, the samples, and all other
`stats` entries (`onset`, `phase`, `slowness`, ...) in `ext`.  `npts`, `delta`, `endtime` are derived,
as in ObsPy.  Times are seconds in `K`. -/
structure Trace (K : Type) where
  net : Str
  sta : Str
  loc : Str
  cha : Str
  start : K
  sr : K
  data : List K
  ext : Dict (Val K)
  deriving DecidableEq, Repr

namespace Trace
variable {K : Type}

/-- `tr.stats.npts` / `len(tr)` -/
def npts (t : Trace K) : Nat := t.data.length

/-- `tr.id` : `net.sta.loc.cha` -/
def id (t : Trace K) : Str := t.net ++ '.' :: (t.sta ++ '.' :: (t.loc ++ '.' :: t.cha))

/-- `tr.stats.delta` -/
def delta [Field K] (t : Trace K) : K := 1 / t.sr

/-- `tr.stats.endtime` (ObsPy: `starttime + (npts-1)*delta`, or `starttime` if there are no samples) -/
def endtime [Field K] (t : Trace K) : K :=
  if t.data.length = 0 then t.start else t.start + ((t.data.length - 1 : Nat) : K) * t.delta

/-- `tr.stats.<k>` for a time-valued extra entry. -/
def getTime (t : Trace K) (k : String) : Option K :=
  match t.ext.get k with
  | some (.time x) => some x
  | _ => none

/-- `tr.stats.<k>` for a numeric extra entry. -/
def getNum (t : Trace K) (k : String) : Option K :=
  match t.ext.get k with
  | some (.num x) => some x
  | _ => none

/-- `tr.stats.<k>` for a string extra entry. -/
def getStr (t : Trace K) (k : String) : Option Str :=
  match t.ext.get k with
  | some (.str x) => some x
  | _ => none

/-- `tr.stats[k] = v` -/
def put (t : Trace K) (k : String) (v : Val K) : Trace K := { t with ext := t.ext.set k v }

/-- `tr.stats.channel[-1]`, if the channel is not empty -/
def comp (t : Trace K) : Option Char := t.cha.getLast?

end Trace

/-- The heap of trace objects. -/
abbrev Heap (K : Type) := Nat → Trace K

namespace Heap
variable {K : Type}

/-- Mutate the object `r`. -/
def set (h : Heap K) (r : Nat) (t : Trace K) : Heap K := fun r' => if r' = r then t else h r'

@[simp] theorem set_self (h : Heap K) (r : Nat) (t : Trace K) : set h r t r = t := by simp [set]

theorem set_ne (h : Heap K) {r r' : Nat} (t : Trace K) (hne : r' ≠ r) : set h r t r' = h r' := by
  simp [set, hne]

/-- `for tr in stream: tr <- f(tr)` (in-place modification of every trace of a stream). -/
def forEach (f : Trace K → Trace K) (h : Heap K) (s : List Nat) : Heap K :=
  s.foldl (fun h r => set h r (f (h r))) h

/-- In-place loop whose body may raise: returns the heap at the end or at the crash point. -/
def forEachE (f : Trace K → Res (Trace K)) : Heap K → List Nat → Heap K × Option PyErr
  | h, [] => (h, none)
  | h, r :: s =>
    match f (h r) with
    | .ok t => forEachE f (set h r t) s
    | .error e => (h, some e)

theorem forEach_not_mem (f : Trace K → Trace K) (h : Heap K) (s : List Nat) (r : Nat)
    (hr : r ∉ s) : forEach f h s r = h r := by
  induction s generalizing h with
  | nil => rfl
  | cons a s ih =>
    simp only [List.mem_cons, not_or] at hr
    show forEach f (set h a (f (h a))) s r = h r
    rw [ih _ hr.2, set_ne _ _ hr.1]

theorem forEach_mem (f : Trace K → Trace K) (h : Heap K) (s : List Nat) (r : Nat)
    (hn : s.Nodup) (hr : r ∈ s) : forEach f h s r = f (h r) := by
  induction s generalizing h with
  | nil => simp at hr
  | cons a s ih =>
    rw [List.nodup_cons] at hn
    show forEach f (set h a (f (h a))) s r = f (h r)
    rcases List.mem_cons.1 hr with rfl | hr'
    · rw [forEach_not_mem _ _ _ _ hn.1, set_self]
    · have hne : r ≠ a := fun e => hn.1 (e ▸ hr')
      rw [ih _ hn.2 hr', set_ne _ _ hne]

/-- With distinct trace objects the loop applies `f` to each of them and touches nothing else. -/
theorem forEach_apply (f : Trace K → Trace K) (h : Heap K) (s : List Nat) (r : Nat)
    (hn : s.Nodup) : forEach f h s r = if r ∈ s then f (h r) else h r := by
  by_cases hr : r ∈ s
  · rw [if_pos hr, forEach_mem f h s r hn hr]
  · rw [if_neg hr, forEach_not_mem f h s r hr]

/-- A loop that keeps an attribute of each visited object keeps it on the whole heap
(also with aliasing). -/
theorem forEach_inv {β : Type} (g : Trace K → β) (f : Trace K → Trace K)
    (hf : ∀ t, g (f t) = g t) (h : Heap K) (s : List Nat) (r : Nat) :
    g (forEach f h s r) = g (h r) := by
  induction s generalizing h with
  | nil => rfl
  | cons a s ih =>
    show g (forEach f (set h a (f (h a))) s r) = g (h r)
    rw [ih]
    by_cases hr : r = a
    · subst hr; rw [set_self, hf]
    · rw [set_ne _ _ hr]

/-- A loop establishing `P` on every object it visits, with a body that preserves `P`. -/
theorem forEach_estab (P : Trace K → Prop) (f : Trace K → Trace K)
    (hf : ∀ t, P (f t)) (h : Heap K) (s : List Nat) (r : Nat) (hr : r ∈ s) :
    P (forEach f h s r) := by
  induction s generalizing h with
  | nil => simp at hr
  | cons a s ih =>
    show P (forEach f (set h a (f (h a))) s r)
    by_cases hs : r ∈ s
    · exact ih _ hs
    · rw [forEach_not_mem _ _ _ _ hs]
      have : r = a := by simpa [hs] using hr
      subst this; rw [set_self]; exact hf _

/-- Without exception and without aliasing every visited object is transformed, nothing else. -/
theorem forEachE_ok (f : Trace K → Res (Trace K)) (h h' : Heap K) (s : List Nat)
    (hn : s.Nodup) (hok : forEachE f h s = (h', none)) (r : Nat) :
    (r ∈ s → f (h r) = .ok (h' r)) ∧ (r ∉ s → h' r = h r) := by
  induction s generalizing h with
  | nil => simp [forEachE] at hok; simp [hok]
  | cons a s ih =>
    rw [List.nodup_cons] at hn
    unfold forEachE at hok
    cases hfa : f (h a) with
    | error e => simp [hfa] at hok
    | ok t =>
      rw [hfa] at hok
      have ⟨i1, i2⟩ := ih _ hn.2 hok
      constructor
      · intro hr
        rcases List.mem_cons.1 hr with rfl | hr'
        · have := i2 hn.1
          rw [this, set_self, hfa]
        · have hne : r ≠ a := fun e => hn.1 (e ▸ hr')
          have := i1 hr'
          rwa [set_ne _ _ hne] at this
      · intro hr
        simp only [List.mem_cons, not_or] at hr
        rw [i2 hr.2, set_ne _ _ hr.1]

end Heap

end Verif.Py
