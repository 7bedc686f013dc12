import Verif.Props.IndependentRf

/-!
# Loops over traces and a map of all traces

`mapH φ h` applies `φ r` to trace `r`.  If the body of a loop commutes with the maps, so does the loop, also if
it ends with an exception.
-/

set_option linter.unusedSimpArgs false
set_option linter.unusedSectionVars false

namespace Verif.Props
open Verif.Py Verif.Model Verif.Spec

section base
variable {K : Type}

/-- Apply a map to every trace. -/
def mapH (φ : Nat → Trace K → Trace K) (h : Heap K) : Heap K := fun r => φ r (h r)

theorem mapH_set (φ : Nat → Trace K → Trace K) (h : Heap K) (r : Nat) (t : Trace K) :
    mapH φ (h.set r t) = (mapH φ h).set r (φ r t) := by
  funext q
  unfold mapH
  by_cases e : q = r
  · subst e; rw [Heap.set_self, Heap.set_self]
  · rw [Heap.set_ne _ _ e, Heap.set_ne _ _ e]

theorem forEach_mapH (φ : Nat → Trace K → Trace K) (f : Trace K → Trace K)
    (hf : ∀ r t, f (φ r t) = φ r (f t)) (h : Heap K) (s : List Nat) :
    Heap.forEach f (mapH φ h) s = mapH φ (Heap.forEach f h s) := by
  induction s generalizing h with
  | nil => rfl
  | cons a s ih =>
    show Heap.forEach f ((mapH φ h).set a (f (mapH φ h a))) s = mapH φ (Heap.forEach f (h.set a (f (h a))) s)
    rw [← ih, mapH_set]
    congr 2
    exact hf a (h a)

theorem forEachE_mapH (φ : Nat → Trace K → Trace K) (f : Trace K → Res (Trace K)) (h : Heap K) (s : List Nat)
    (hf : ∀ r ∈ s, ∀ t, f (φ r t) = (f t).map (φ r)) :
    Heap.forEachE f (mapH φ h) s = (mapH φ (Heap.forEachE f h s).1, (Heap.forEachE f h s).2) := by
  induction s generalizing h with
  | nil => rfl
  | cons a s ih =>
    unfold Heap.forEachE
    have e : f (mapH φ h a) = (f (h a)).map (φ a) := hf a List.mem_cons_self (h a)
    rw [e]
    cases hfa : f (h a) with
    | error er => rfl
    | ok t =>
      simp only [Except.map]
      rw [← mapH_set]
      exact ih _ (fun r hr => hf r (List.mem_cons_of_mem _ hr))

theorem uniqueHeader_mapH [DecidableEq K] (φ : Nat → Trace K → Trace K) (k : String)
    (hk : ∀ r t, (φ r t).ext.get k = t.ext.get k) (h : Heap K) (s : List Nat) :
    uniqueHeader (mapH φ h) s k = uniqueHeader h s k := by
  unfold uniqueHeader
  have : (fun r => (mapH φ h r).ext.get k) = fun r => (h r).ext.get k := by
    funext r; exact hk r (h r)
  rw [this]

theorem streamMethod_mapH [DecidableEq K] (φ : Nat → Trace K → Trace K)
    (hk : ∀ r t, (φ r t).ext.get "phase" = t.ext.get "phase") (h : Heap K) (s : List Nat) :
    streamMethod (mapH φ h) s = streamMethod h s := by
  unfold streamMethod
  rw [uniqueHeader_mapH φ "phase" hk]

/-- `trim2` commutes with maps that keep the number of samples and commute with the cut. -/
theorem trim2_mapH [Field K] (φ : Nat → Trace K → Trace K) (trim : Trace K → TArg K → TArg K → Res (Trace K))
    (a b : TArg K) (ref : RefTime K) (hn : ∀ r t, (φ r t).npts = t.npts)
    (hf : ∀ r t, cutTrace trim a b ref (φ r t) = (cutTrace trim a b ref t).map (φ r)) (h : Heap K) (s : List Nat) :
    trim2 trim a b ref (mapH φ h, s)
      = ((mapH φ (trim2 trim a b ref (h, s)).1.1, (trim2 trim a b ref (h, s)).1.2), (trim2 trim a b ref (h, s)).2) := by
  unfold trim2
  simp only
  rw [forEachE_mapH φ _ h s (fun r _ => hf r)]
  cases he : Heap.forEachE (cutTrace trim a b ref) h s with
  | mk h1 oe =>
    cases oe with
    | some e => rfl
    | none =>
      simp only
      congr 2
      refine List.filter_congr fun r _ => ?_
      rw [show (mapH φ h1 r).npts = (h1 r).npts from hn r _]

theorem addInfoAll_mapH (φ : Nat → Trace K → Trace K) (info : Str)
    (hf : ∀ r t, addInfo info (φ r t) = (addInfo info t).map (φ r)) (h : Heap K) (s : List Nat) :
    addInfoAll info (mapH φ h) s = mapH φ (addInfoAll info h s) := by
  unfold addInfoAll
  rw [forEachE_mapH φ _ h s (fun r _ => hf r)]

end base

end Verif.Props
