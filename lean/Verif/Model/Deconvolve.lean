import Verif.Py.Heap
import Mathlib.Algebra.Order.Floor.Ring

/-!
# Model of `rf/deconvolve.py: __find_nearest, deconvolve` (lines 13-161)

The numerical kernels (`deconv_time`, ...), ObsPy's `Trace.trim`, `Trace.taper` and the user function
`func` are parameters here; the kernels have their own models in `Verif.Model.DeconvTime` etc.
-/

namespace Verif.Model
open Verif.Py

/-- `np.searchsorted(array, value, side='left')` for an ascending array: index of the first entry that
is not smaller than `value`, `len(array)` if there is none. -/
def searchsortedLeft {K : Type} [LinearOrder K] (a : List K) (v : K) : Nat :=
  a.findIdx (fun x => decide (v ≤ x))

/-- deconvolve.py 13-20 `__find_nearest`.  Line 16 reads `array[idx - 1]` (which is `array[-1]` for
`idx = 0`) and `array[idx]` before the test of line 17, so both reads can raise `IndexError`. -/
def findNearest {K : Type} [Field K] [LinearOrder K] (a : List K) (v : K) : Res Nat := do
  let idx := searchsortedLeft a v
  let l ← getItem a ((idx : Int) - 1)
  let r ← getItem a idx
  if 0 < idx ∧ (idx = a.length ∨ |v - l| < |v - r|) then return idx - 1 else return idx

/-- `tr.times()`: sample times relative to the start time (ObsPy: `arange(npts) * delta`, exact). -/
def times {K : Type} [Field K] (t : Trace K) : List K :=
  (List.range t.npts).map (fun (i : Nat) => (i : K) * t.delta)

/-- The `normalize` keyword of the kernels: an index, `'src'` or `None`. -/
inductive Norm
  | idx (i : Int)
  | src
  | none
  deriving DecidableEq, Repr

/-- The `winsrc` argument: a string or a tuple (start, end, taper). -/
inductive Win (K : Type)
  | letter (s : Str)
  | tuple (a b t : K)
  deriving DecidableEq, Repr

/-- Python's `round` to an integer (ties to even). -/
def pyRound {K : Type} [Field K] [LinearOrder K] [FloorRing K] (x : K) : Int :=
  let f := ⌊x⌋
  if x - f < 1 / 2 then f else if 1 / 2 < x - f then f + 1 else if f % 2 = 0 then f else f + 1

/-- External code called by `deconvolve`.  Other keyword arguments are part of the kernels. -/
structure DeconvEnv (K : Type) where
  /-- ObsPy `tr.trim(a, b, pad=True, fill_value=0.)` -/
  trimPad : Trace K → K → K → Trace K
  /-- ObsPy `tr.taper(max_percentage=None, max_length=t)` -/
  taper : Trace K → K → Trace K
  /-- noise data of lines 147-153: the `noise` keyword, or cut from a copy of the stream (`Verif.Model.preEventNoise`) -/
  noise : Heap K → List Nat → List Nat → Option Str → Res (List (List K))
  /-- `deconv_time(rsp_data, src.data, shift, normalize)` -/
  time : List (List K) → List K → Int → Option Norm → Res (List (List K))
  /-- `deconv_waterlevel(rsp_data, src.data, sr, tshift, normalize)` -/
  water : List (List K) → List K → K → K → Option Norm → Res (List (List K))
  /-- `deconv_iterative(rsp_data, src.data, sr, tshift, normalize)`, results with iteration counts -/
  iter : List (List K) → List K → K → K → Option Norm → Res (List (List K × Nat))
  /-- `deconv_multitaper(rsp_data, src.data, nse_data, sr, tshift, normalize)` -/
  mt : List (List K) → List K → List (List K) → K → K → Option Norm → Res (List (List K))
  /-- user function: may change any object, returns the list of result traces -/
  func : Heap K → List Nat → Trace K → K → Option Norm → Heap K × Res (List Nat)

/-- Arguments of `deconvolve` (lines 24-26). -/
structure DeconvArgs (K : Type) where
  method : Str
  srcComps : Str
  rspComps : Option Str
  winsrc : Win K
  normalize : Option Norm

/-- `tr.stats.channel[-1] in comps` for every trace of a stream (lines 80, 85-86, 152-153);
`IndexError` for an empty channel code. -/
def selectComps {K : Type} (h : Heap K) (comps : Str) : List Nat → Res (List Nat)
  | [] => .ok []
  | r :: s =>
    match (h r).comp with
    | none => .error .indexError
    | some c =>
      match selectComps h comps s with
      | .error e => .error e
      | .ok l => .ok (if c ∈ comps then r :: l else l)

/-- `rsp.index(src)` / `src in rsp`: Python compares by identity first, then with ObsPy's
`Trace.__eq__`, which compares header and data (lines 87-88, 121). -/
def indexOf? {K : Type} [DecidableEq K] (h : Heap K) (src : Nat) (rsp : List Nat) : Option Nat :=
  rsp.findIdx? (fun r => decide (r = src) || decide (h r = h src))

/-- The methods accepted in lines 75-78. -/
inductive DMethod
  | time | waterlevel | iterative | multitaper | func
  deriving DecidableEq, Repr

/-- Lines 75-78: accepted method names, 'freq' is renamed to 'waterlevel'. -/
def deconvMethod (m : Str) : Option DMethod :=
  if m = "freq".toList then some .waterlevel
  else if m = "time".toList then some .time
  else if m = "waterlevel".toList then some .waterlevel
  else if m = "iterative".toList then some .iterative
  else if m = "multitaper".toList then some .multitaper
  else if m = "func".toList then some .func
  else none

/-- Lines 85-86: the responses. -/
def selectRsp {K : Type} (h : Heap K) (comps : Option Str) (s : List Nat) : Res (List Nat) :=
  match comps with
  | none => .ok s
  | some c => selectComps h c s

/-- Lines 87-88: the `normalize` keyword passed to the kernel. -/
def normKw {K : Type} [DecidableEq K] (h : Heap K) (n : Option Norm) (src : Nat) (rsp : List Nat) :
    Option Norm :=
  match n with
  | some n => some n
  | none => (indexOf? h src rsp).map (fun (i : Nat) => Norm.idx i)

/-- Lines 75-91: checks, source, responses and the `normalize` keyword. -/
def deconvSelect {K : Type} [DecidableEq K] (h : Heap K) (s : List Nat) (a : DeconvArgs K) :
    Res (DMethod × Nat × List Nat × Option Norm) :=
  match deconvMethod a.method with
  | none => .error .notImplemented
  | some m =>
    match selectComps h a.srcComps s with
    | .error e => .error e
    | .ok [src] =>
      match selectRsp h a.rspComps s with
      | .error e => .error e
      | .ok rsp =>
        if 0 < rsp.length ∧ rsp.length < 4 then .ok (m, src, rsp, normKw h a.normalize src rsp)
        else .error .valueError
    | .ok _ => .error .valueError

/-- Lines 101-114: the source window.  Letters other than 'P' and 'S' stay strings, and
`onset + winsrc[0]` (line 123) raises `TypeError` (`IndexError` for the empty string). -/
def sourceWindow {K : Type} [Field K] (m : DMethod) (w : Win K) (lenSec onsetSec : K) :
    Res (K × K × K) :=
  match w with
  | .tuple a b t => .ok (a, b, t)
  | .letter l =>
    if l = "P".toList then
      match m with
      | .time | .multitaper | .func => .ok (-10, 30, 5)
      | .iterative => .ok (-onsetSec, lenSec - onsetSec, 0)
      | .waterlevel => .ok (-onsetSec, lenSec - onsetSec, 5)
    else if l = "S".toList then
      match m with
      | .time | .multitaper | .func => .ok (-10, 30, 5)
      | .iterative => .ok (-onsetSec, lenSec - onsetSec, 0)
      | .waterlevel => .ok (-10, lenSec - onsetSec, 5)
    else if l = [] then .error .indexError else .error .typeError

/-- Lines 130-131, 142-144: write the results back; `rf_data[i]` raises `IndexError` if there are fewer
results than responses. -/
def writeBack {K : Type} : Heap K → List Nat → List (Trace K → Trace K) → Heap K × Option PyErr
  | h, [], _ => (h, none)
  | h, _ :: _, [] => (h, some .indexError)
  | h, r :: rs, f :: fs => writeBack (h.set r (f (h r))) rs fs

/-- `tr.data = d` -/
def setData {K : Type} (d : List K) (t : Trace K) : Trace K := { t with data := d }

/-- Finish a kernel call: write its results to the responses and return them. -/
def finish {K : Type} (h : Heap K) (rsp : List Nat) (res : Res (List (Trace K → Trace K))) :
    Heap K × Res (List Nat) :=
  match res with
  | .error e => (h, .error e)
  | .ok fs =>
    match writeBack h rsp fs with
    | (h', some e) => (h', .error e)
    | (h', none) => (h', .ok rsp)

/-- Lines 126-161: run the kernel selected by the method. -/
def runKernel {K : Type} [Field K] [LinearOrder K] [FloorRing K] (env : DeconvEnv K) (m : DMethod)
    (h : Heap K) (s rsp : List Nat) (rspComps : Option Str) (srcT : Trace K) (sr tshift : K)
    (nrm : Option Norm) : Heap K × Res (List Nat) :=
  let rd := rsp.map (fun r => (h r).data)
  match m with
  | .time =>
    finish h rsp ((env.time rd srcT.data
      (pyRound (tshift * sr - ((srcT.npts / 2 : Nat) : K))) nrm).map (·.map setData))
  | .waterlevel => finish h rsp ((env.water rd srcT.data sr tshift nrm).map (·.map setData))
  | .iterative =>
    finish h rsp ((env.iter rd srcT.data sr tshift nrm).map
      (·.map (fun (d : List K × Nat) t => (setData d.1 t).put "iterations" (.num ((d.2 : Nat) : K)))))
  | .multitaper =>
    finish h rsp (((env.noise h s rsp rspComps).bind fun nse => env.mt rd srcT.data nse sr (-tshift) nrm).map
      (·.map setData))
  | .func => env.func h rsp srcT tshift nrm

/-- deconvolve.py 23-161 `deconvolve` (without the processing entry added by the decorator, which is
modelled in `Verif.Model.Processing`).  Returns the heap after the call and the responses, or the
exception together with the heap at that point.  A missing onset raises `AttributeError` (line 96). -/
def deconvolve {K : Type} [Field K] [LinearOrder K] [FloorRing K]
    (env : DeconvEnv K) (h : Heap K) (s : List Nat) (a : DeconvArgs K) : Heap K × Res (List Nat) :=
  match deconvSelect h s a with
  | .error e => (h, .error e)
  | .ok (m, src, rsp, nrm) =>
    let sr := (h src).sr
    match (h src).getTime "onset" with
    | none => (h, .error .attributeError)
    | some o =>
      match findNearest (times (h src)) (o - (h src).start) with
      | .error e => (h, .error e)
      | .ok idx =>
        let onset := (h src).start + (idx : K) * (h src).delta
        let lenSec := (h src).endtime - (h src).start
        let onsetSec := onset - (h src).start
        let h := h.set src ((h src).put "onset" (.time onset))
        let h := Heap.forEach (fun t => t.put "onset" (.time onset)) h rsp
        match sourceWindow m a.winsrc lenSec onsetSec with
        | .error e => (h, .error e)
        | .ok (w0, w1, w2) =>
          let srcT := env.taper (env.trimPad (h src) (onset + w0) (onset + w1)) w2
          -- lines 121-124: a copy is cut if the source is a response, otherwise the trace itself
          let h := if (indexOf? h src rsp).isSome then h else h.set src srcT
          runKernel env m h s rsp a.rspComps srcT sr (-w0) nrm

end Verif.Model
