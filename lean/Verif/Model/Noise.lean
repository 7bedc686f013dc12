import Verif.Model.Stream

/-!
# The noise of the multitaper method (`rf/deconvolve.py` lines 145-153)
-/

namespace Verif.Model
open Verif.Py

variable {K : Type} [Field K]

/-- deconvolve.py 147-153 without the keyword `noise`: the part of a copy of the stream from the start of the first
response to 5 s before the onset (`trim2`, lines 148-149), then the data of the response components (lines 152-153).
`rsp[0]` is an `IndexError` for an empty list (excluded before, lines 90-91); an onset that is no time is an
`AttributeError` (the onset is always set in lines 97-99). The heap is not changed: the copy has new traces. -/
def preEventNoise (trim : Trace K → TArg K → TArg K → Res (Trace K)) (h : Heap K) (s rsp : List Nat)
    (rspComps : Option Str) : Res (List (List K)) :=
  match rsp with
  | [] => .error .indexError
  | r0 :: _ =>
    match (h r0).getTime "onset" with
    | none => .error .attributeError
    | some o =>
      match trim2 trim (.sec (-(o - (h r0).start))) (.sec (-5)) (.key "onset") (h, s) with
      | (_, some e) => .error e
      | ((h1, s1), none) => (selectRsp h1 rspComps s1).map (·.map fun r => (h1 r).data)

/-- `deconvolve` without the keyword `noise`; `trim` is ObsPy's `Trace.trim` with default keywords. -/
def withNoise (trim : Trace K → TArg K → TArg K → Res (Trace K)) (dec : DeconvEnv K) : DeconvEnv K :=
  { dec with noise := preEventNoise trim }

/-- deconvolve.py 146, 152-153 with the keyword `noise`: the data of the traces of this stream with a response component,
in the order of this stream.  The traces of the stream `ns` are not those of the record (heap `g`). -/
def givenNoise (g : Heap K) (ns : List Nat) (rspComps : Option Str) : Res (List (List K)) :=
  (selectRsp g rspComps ns).map (·.map fun r => (g r).data)

/-- `deconvolve` with the keyword `noise`. -/
def withGivenNoise (g : Heap K) (ns : List Nat) (dec : DeconvEnv K) : DeconvEnv K :=
  { dec with noise := fun _ _ _ rc => givenNoise g ns rc }

end Verif.Model
