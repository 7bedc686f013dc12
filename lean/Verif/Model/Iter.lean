import Verif.Py.Basic
import Mathlib.Data.List.Sort
import Mathlib.Data.List.Lex
import Mathlib.Data.Prod.Lex
import Mathlib.Data.Char
import Mathlib.Order.WithBot

/-!
# Model of `rf/util.py: IterMultipleComponents` (lines 132-164)
-/

namespace Verif.Model
open Verif.Py

/-- Group key of a trace, line 152: `(tr.id[:-1], str(tr.stats[key]) if key is not None else None)`.
Python compares tuples lexicographically and strings by code points; the second entry is `None` (⊥) for
all traces or for none, and `sorted` never compares two equal keys because they are dictionary keys. -/
abbrev GroupKey := Lex (Str × WithBot Str)

/-- `number_components` argument (lines 144-146, 154-157). -/
inductive NumComp
  | none
  | int (n : Nat)
  | tuple (ns : List Nat)
  deriving DecidableEq, Repr

/-- Lines 156-157: `n is None or len(s) == n or (not isinstance(n, int) and len(s) in n)` -/
def NumComp.accepts : NumComp → Nat → Bool
  | .none, _ => true
  | .int n, k => k == n
  | .tuple ns, k => ns.contains k

/-- Lines 150, 153: `substreams[k].append(tr)` for a `defaultdict` of streams
(insertion ordered association list with unique keys). -/
def dictAppend {κ τ : Type} [DecidableEq κ] : List (κ × List τ) → κ → τ → List (κ × List τ)
  | [], k, v => [(k, [v])]
  | (k', vs) :: rest, k, v =>
    if k' = k then (k', vs ++ [v]) :: rest else (k', vs) :: dictAppend rest k v

/-- Lines 150-153: the loop filling `substreams`. -/
def groupLoop {κ τ : Type} [DecidableEq κ] (keyOf : τ → κ) (stream : List τ) : List (κ × List τ) :=
  stream.foldl (fun d tr => dictAppend d (keyOf tr) tr) []

/-- Lines 155-157: `[s for _, s in sorted(substreams.items()) if ...]`. -/
def iterSubstreams {κ τ : Type} [LinearOrder κ] (keyOf : τ → κ) (n : NumComp) (stream : List τ) :
    List (List τ) :=
  (((groupLoop keyOf stream).insertionSort (fun a b => a.1 ≤ b.1)).map Prod.snd).filter
    (fun s => n.accepts s.length)

/-- Line 152: key of a trace with SEED id `ident` and (string of the) `key` entry. -/
def groupKey (ident : Str) (key : Option Str) : GroupKey :=
  toLex (ident.dropLast, match key with | some s => (s : WithBot Str) | none => ⊥)

/-- The exception raised by a computation, if any. -/
def errOf {α : Type} : Res α → Option PyErr
  | .ok _ => none
  | .error e => some e

/-- The value of a computation that is known not to raise. -/
def okD {α : Type} (d : α) : Res α → α
  | .ok x => x
  | .error _ => d

/-- `IterMultipleComponents(stream, key, number_components)`; `ident tr` is `tr.id`, `key` is
`None` or a function giving `str(tr.stats[key])` (`KeyError` if the entry is missing, line 152; the
first missing entry aborts the loop).
The result is the list iterated over by `__iter__` (lines 162-164). -/
def iterMultipleComponents {τ : Type} (ident : τ → Str) (key : Option (τ → Res Str))
    (n : NumComp) (stream : List τ) : Res (List (List τ)) :=
  match key with
  | none => .ok (iterSubstreams (fun tr => groupKey (ident tr) none) n stream)
  | some f =>
    match stream.findSome? (fun tr => errOf (f tr)) with
    | some e => .error e
    | none => .ok (iterSubstreams (fun tr => groupKey (ident tr) (some (okD [] (f tr)))) n stream)

end Verif.Model
