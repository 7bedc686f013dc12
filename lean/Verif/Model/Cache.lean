import Verif.Py.Basic

/-!
# Model of the example streams of `rf/util.py` (lines 182-222)

Trace objects live in a heap, a stream is a list of references.  `build` is the content computed by the
processing steps, which depends on the packaged files only (lines 193-200 and 212-220); it may raise.
`Stream.copy` is a deep copy.  The caller can only reach objects returned to it or created by it.
-/

namespace Verif.Model.Cache
open Verif.Py

/-- The two functions. -/
inductive Fn
  | rf
  | srf
  deriving DecidableEq

/-- Lines 189 and 209: `cache_key` -/
def cacheKey : Fn → String
  | .rf => "minimal_example_rf"
  | .srf => "minimal_example_Srf"

/-- The state of the process: trace objects, next free reference, module variable `__CACHE`, references the
caller holds. -/
structure CState (T : Type) where
  heap : Nat → T
  next : Nat
  cache : Dict (List Nat)
  owned : List Nat

variable {T : Type}

/-- Allocate trace objects with the given contents. -/
def alloc (s : CState T) (ts : List T) : CState T × List Nat :=
  ({ s with heap := fun r => if s.next ≤ r then (ts[r - s.next]?).getD (s.heap r) else s.heap r,
            next := s.next + ts.length },
   List.range' s.next ts.length)

/-- `stream.copy()`, handed to the caller. -/
def copyOut (s : CState T) (refs : List Nat) : CState T × List Nat :=
  let (s', new) := alloc s (refs.map s.heap)
  ({ s' with owned := s'.owned ++ new }, new)

/-- Lines 185-202 and 205-222: a call of the function. -/
def call (build : Fn → Res (List T)) (s : CState T) (f : Fn) : CState T × Res (List Nat) :=
  match s.cache.get (cacheKey f) with
  | some refs =>
    let (s', new) := copyOut s refs
    (s', .ok new)
  | none =>
    match build f with
    | .error e => (s, .error e)
    | .ok ts =>
      let (s1, refs) := alloc s ts
      let (s2, new) := copyOut { s1 with cache := s1.cache.set (cacheKey f) refs } refs
      (s2, .ok new)

/-- What can happen between calls: the caller changes an object it holds, or creates one. -/
inductive Op (T : Type)
  | call (f : Fn)
  | modify (r : Nat) (t : T)
  | create (t : T)

/-- One operation, with the contents returned by a call. -/
def step (build : Fn → Res (List T)) (s : CState T) : Op T → CState T × Option (Fn × Res (List T))
  | .call f =>
    let (s', r) := call build s f
    (s', some (f, r.map fun refs => refs.map s'.heap))
  | .modify r t =>
    (if r ∈ s.owned then { s with heap := fun r' => if r' = r then t else s.heap r' } else s, none)
  | .create t =>
    let (s', new) := alloc s [t]
    ({ s' with owned := s'.owned ++ new }, none)

/-- A sequence of operations and everything the calls returned. -/
def run (build : Fn → Res (List T)) : CState T → List (Op T) → CState T × List (Fn × Res (List T))
  | s, [] => (s, [])
  | s, op :: ops =>
    let (s', o) := step build s op
    let (s'', l) := run build s' ops
    (s'', o.toList ++ l)

/-- The state after importing the module: empty cache, whatever objects the caller already has. -/
def initial (heap : Nat → T) (next : Nat) (owned : List Nat) : CState T := ⟨heap, next, [], owned⟩

end Verif.Model.Cache
