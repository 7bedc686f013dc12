import Verif.Model.Stream
import Verif.Model.Headers

/-!
# Model of `RFTrace.__str__`, `RFStream.__init__` and `read_rf` (`rf/rfstream.py` lines 110-150 and 489-530)
-/

namespace Verif.Model.Text
open Verif.Py Verif.Model

variable {K : Type}

/-- Formatting of numbers (`'%.1f'`, `'{:.2f}'`, `'{}'`), times and other values, and `Trace.__str__` of ObsPy. -/
structure TextEnv (K : Type) where
  f1 : K → Str
  f2 : K → Str
  num : K → Str
  nat : Nat → Str
  utc : K → Str
  val : Val K → Str
  obspy : Trace K → Str

/-- `' | '.join(l)` -/
def joinBars : List Str → Str
  | [] => []
  | [w] => w
  | w :: v :: ws => w ++ " | ".toList ++ joinBars (v :: ws)

/-- The letter in front of `rf` (lines 496-497): `phase[-1].upper()`, nothing without phase, `IndexError` for an empty one. -/
def letter (t : Trace K) : Res Str :=
  match t.ext.get "phase" with
  | none => .ok []
  | some (.str p) =>
    match p.getLast? with
    | none => .error .indexError
    | some c => .ok [c.toUpper]
  | some _ => .error .typeError

/-- The first part (lines 493-506); an id which starts with `...` has no network, station and location. -/
def headPart (t : Trace K) : Res Str :=
  match t.ext.get "type" with
  | none => .ok t.id
  | some (.str ty) =>
    match letter t with
    | .error e => .error e
    | .ok m =>
      let o1 := m ++ "rf".toList
      let o1 := if ty ≠ "rf".toList then o1 ++ ' ' :: ty else o1
      .ok (if "...".toList.isPrefixOf t.id then o1 ++ " (".toList ++ (t.id.getLast?.toList) ++ ")".toList
        else o1 ++ ' ' :: t.id)
  | some _ => .error .typeError

/-- The second part (lines 507-512). -/
def timePart [Field K] [DecidableEq K] (E : TextEnv K) (t : Trace K) (onset : K) : Str :=
  let o2 := E.f1 (t.start - onset) ++ "s - ".toList ++ E.f1 (t.endtime - onset) ++ "s".toList
  if t.start ≠ 0 then o2 ++ " onset:".toList ++ E.utc onset else o2

/-- An entry with a number (lines 515-524); any other value cannot be formatted. -/
def numField (t : Trace K) (key : String) (pre : Str) (f : K → Str) (post : Str) : Res (List Str) :=
  match t.ext.get key with
  | none => .ok []
  | some (.num x) => .ok [pre ++ f x ++ post]
  | some _ => .error .valueError

/-- The last part (lines 514-529). -/
def infoPart (E : TextEnv K) (masked : Bool) (t : Trace K) : Res Str := do
  let mag ← numField t "event_magnitude" "mag:".toList E.f1 []
  let dist ← numField t "distance" "dist:".toList E.f1 []
  let baz ← numField t "back_azimuth" "baz:".toList E.f1 []
  let pos ← numField t "box_pos" "pos:".toList E.f2 "km".toList
  let slow ← numField t "slowness" "slow:".toList E.f2 []
  let mout := match t.ext.get "moveout" with
    | none => []
    | some v => ["(".toList ++ E.val v ++ " moveout)".toList]
  let mask := if masked then ["(masked)".toList] else []
  pure (joinWith ' ' (mag ++ dist ++ baz ++ pos ++ slow ++ mout ++ mask))

/-- `RFTrace.__str__` (lines 489-530).  The whole text is formatted at the end (line 530); braces in codes, types and phases
are not considered.  `masked`: some samples are masked. -/
def strTrace [Field K] [DecidableEq K] (E : TextEnv K) (masked : Bool) (t : Trace K) : Res Str :=
  match t.ext.get "onset" with
  | none => .ok (E.obspy t)
  | some (.time onset) =>
    match headPart t with
    | .error e => .error e
    | .ok o1 =>
      match infoPart E masked t with
      | .error e => .error e
      | .ok o3 =>
        .ok (joinBars [o1, timePart E t onset, E.num t.sr ++ " Hz, ".toList ++ E.nat t.npts ++ " samples".toList, o3])
  | some _ => .error .typeError

/-! ## Streams -/

section stream
open Verif.Model.Headers

/-- A trace object: its content and whether it is an `RFTrace`. -/
structure Obj (K : Type) where
  tr : FTrace K
  isRF : Bool

/-- Objects and the next free reference. -/
structure Objs (K : Type) where
  heap : Nat → Obj K
  next : Nat

/-- The argument of `RFStream`: `None`, a trace or a sequence of traces. -/
inductive TracesArg
  | none
  | trace (r : Nat)
  | seq (l : List Nat)
  deriving DecidableEq, Repr

/-- The loop of `RFStream.__init__` (lines 147-150).  A new `RFTrace` has its own copy of the header. -/
def initLoop [Field K] (E : FmtEnv K) : Objs K → List Nat → Objs K × Res (List Nat)
  | o, [] => (o, .ok [])
  | o, r :: rs =>
    if (o.heap r).isRF then
      match initLoop E o rs with
      | (o, .error e) => (o, .error e)
      | (o, .ok l) => (o, .ok (r :: l))
    else
      match initTrace E (o.heap r).tr with
      | .error e => (o, .error e)
      | .ok t =>
        match initLoop E ⟨fun q => if q = o.next then ⟨t, true⟩ else o.heap q, o.next + 1⟩ rs with
        | (o', .error e) => (o', .error e)
        | (o', .ok l) => (o', .ok (o.next :: l))

/-- `RFStream(traces)` (lines 142-150). -/
def initStream [Field K] (E : FmtEnv K) (o : Objs K) (a : TracesArg) : Objs K × Res (List Nat) :=
  initLoop E o (match a with | .none => [] | .trace r => [r] | .seq l => l)

/-- The call of ObsPy's `read` in `read_rf` (lines 116-120): file name and format. -/
def readArgs (example_ : Str) (pathname format : Option Str) : Str × Option Str :=
  match pathname with
  | none => (example_, some "SAC".toList)
  | some p => (p, format)

/-- `read_rf(pathname_or_url, format)` (lines 110-121); `read` creates new trace objects. -/
def readRf [Field K] (E : FmtEnv K) (example_ : Str) (read : Str × Option Str → Objs K → Objs K × Res (List Nat))
    (pathname format : Option Str) (o : Objs K) : Objs K × Res (List Nat) :=
  match read (readArgs example_ pathname format) o with
  | (o, .error e) => (o, .error e)
  | (o, .ok l) => initStream E o (.seq l)

end stream

end Verif.Model.Text
