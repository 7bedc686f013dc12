import Verif.Model.Headers

/-!
# Model of `RFTrace.write`, `rf/rfstream.py` lines 624-630
-/

namespace Verif.Model.Headers
open Verif.Py

variable {K : Type} [Field K] [DecidableEq K] (E : FmtEnv K)

/-- `RFTrace.write(filename, format, sh_compat)` (lines 624-630) for the object `r`: `RFStream([self])` holds the object itself, since it is
an `RFTrace` (lines 143-151). -/
def traceWrite (format : Str) (shCompat : Bool) (out : FHeap K → Str → List Nat → Option PyErr) (w : WState K) (r : Nat) :
    WState K × Option PyErr :=
  write E format shCompat out w [r]

/-- The loop `for tr in stream: tr.write(...)` (batch.py lines 92-94, without the choice of the file name). -/
def writeTraces (format : Str) (shCompat : Bool) (out : FHeap K → Str → List Nat → Option PyErr) :
    WState K → List Nat → WState K × Option PyErr
  | w, [] => (w, none)
  | w, r :: s =>
    match traceWrite E format shCompat out w r with
    | (w, some e) => (w, some e)
    | (w, none) => writeTraces format shCompat out w s

end Verif.Model.Headers
