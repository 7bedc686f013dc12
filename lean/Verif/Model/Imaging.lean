import Verif.Py.Heap
import Verif.Py.Interp
import Mathlib.Algebra.Order.Group.Unbundled.Abs
import Mathlib.Algebra.Order.Field.Basic

/-!
# Model of the plots in `rf/imaging.py`

A figure is described by the calls of matplotlib: size, axes, curves with their filling, points, bars, limits, ticks,
title.  Colours, fonts and tick styles are left out.  Streams are lists of trace values (plotting does not change the
traces; `slice2` returns new traces).  Values that are not a number are `none`.
-/

namespace Verif.Model.Imaging
open Verif.Py

variable {K : Type}

/-! ## Label -/

/-- `label_fmts` (lines 16-18), applied to the header of a trace. -/
def labelFmts : List (Trace K → Str) :=
  [fun t => t.net ++ '.' :: (t.sta ++ '.' :: (t.loc ++ '.' :: t.cha)),
   fun t => t.net ++ '.' :: (t.sta ++ '.' :: (t.loc ++ '.' :: (t.cha.take 2 ++ ['?']))),
   fun t => t.net ++ '.' :: t.sta]

/-- Lines 19-23: the first format which gives a single text. -/
def firstUnique (s : List (Trace K)) : List (Trace K → Str) → Str
  | [] => []
  | f :: fs =>
    match (s.map f).dedup with
    | [x] => x
    | _ => firstUnique s fs

/-- `_label(stream)` (lines 15-23). -/
def label (s : List (Trace K)) : Str := firstUnique s labelFmts

section ordered
variable [Field K] [LinearOrder K]

/-! ## Common parts -/

/-- `np.max(np.abs(data))`, `max(np.abs(data))`, `max(abs(data))`: no samples raise `ValueError`. -/
def absMax : List K → Res K
  | [] => .error .valueError
  | x :: xs => .ok (xs.foldl (fun m y => max m |y|) |x|)

/-- `max(np.max(np.abs(tr.data)) for tr in stream)` (lines 115-116 and 321). -/
def streamMax : List (Trace K) → Res K
  | [] => .error .valueError
  | [t] => absMax t.data
  | t :: ts =>
    match absMax t.data with
    | .error e => .error e
    | .ok a =>
      match streamMax ts with
      | .error e => .error e
      | .ok b => .ok (max a b)

/-- `tr.data / max_ * scale`: `max_` is zero for vanishing data only, which gives NaN. -/
def scaled (m scale : K) (data : List K) : List (Option K) :=
  data.map fun x => if m = 0 then none else some (x / m * scale)

/-- `tr.times(reftime=...)` (ObsPy) for a reference time. -/
def times (t : Trace K) (ref : K) : List K :=
  (List.range t.data.length).map fun (i : Nat) => (i : K) * t.delta + (t.start - ref)

/-- `tr.stats.onset`; `AttributeError` if there is no such entry. -/
def onset (t : Trace K) : Res K :=
  match t.getTime "onset" with
  | some o => .ok o
  | none => .error .attributeError

/-- Filled areas of one curve: colour, the samples filled and the base line. -/
structure Fill (K : Type) where
  color : Str
  which : List Bool
  base : K

/-- One curve of a panel. -/
structure Curve (K : Type) where
  t : List K
  d : List (Option K)
  base : K
  fills : List (Fill K)

/-- `_plot(ax, t, d, i)` (lines 107-113 and 433-439): the curve is `d + i`.  An empty or missing colour draws nothing;
comparisons with NaN are false. -/
def plotCurve (colors : Option Str × Option Str) (t : List K)
    (d : List (Option K)) (i : K) : Curve K :=
  { t := t, d := d, base := i,
    fills := (match colors.1 with
        | some (c :: cs) => [⟨c :: cs, d.map (fun x => x.any (fun y => decide (0 ≤ y))), i⟩]
        | _ => []) ++
      (match colors.2 with
        | some (c :: cs) => [⟨c :: cs, d.map (fun x => x.any (fun y => decide (y < 0))), i⟩]
        | _ => []) }

/-- A rectangle in figure fractions: left, bottom, width, height. -/
structure Rect (K : Type) where
  left : K
  bottom : K
  width : K
  height : K

/-! ## plot_rf -/

/-- Arguments of `plot_rf` that matter here; `trim` is the call of `slice2` (`none`: no trimming), `info` gives key and
label. -/
structure RfPlotArgs (K : Type) where
  figWidth : K
  traceHeight : K
  stackHeight : K
  traceScale : Bool
  scaleFactor : K
  fillcolors : Option Str × Option Str
  trim : Option (List (Trace K) → Res (List (Trace K)))
  info : Option (List (String × Str))
  showTraces : Bool
  showVlines : Bool

/-- Sizes of lines 74-92, in inches and as fractions of the figure. -/
structure Layout (K : Type) where
  width : K
  height : K
  traces : Rect K
  info : Rect K
  stack : Rect K

/-- Lines 74-99 and 162-164: figure size and axes; `withInfo` is `bool(info)`. -/
def layout (figWidth traceHeight stackHeight : K) (n : Nat) (withInfo : Bool) : Layout K :=
  let fh := traceHeight * ((n : K) + 2) + stackHeight + 1 / 2 + 1 / 5 + 1 / 10
  let fw2 := figWidth - 1 / 2 - 1 / 5 - (if withInfo then 1 / 10 + 4 / 5 else 0)
  let fl := 1 / 2 / figWidth
  let fr := 1 / 5 / figWidth
  let fw3 := 4 / 5 / figWidth
  let fb := 1 / 2 / fh
  let ft := 1 / 5 / fh
  let hs := stackHeight / fh
  let h := traceHeight / fh
  { width := figWidth, height := fh,
    traces := ⟨fl, fb, fw2 / figWidth, h * ((n : K) + 2)⟩,
    info := ⟨1 - fr - fw3, fb, fw3, h * ((n : K) + 2)⟩,
    stack := ⟨fl, 1 - ft - hs, fw2 / figWidth, hs⟩ }

/-- One panel of points (lines 127-129): key, label, values and vertical positions. -/
structure InfoPanel (K : Type) where
  key : String
  values : List (Val K)
  pos : List K

/-- The figure. -/
structure RfFigure (K : Type) where
  layout : Layout K
  traceAxes : Bool
  infoAxes : Bool
  curves : List (Curve K)
  info : List (InfoPanel K)
  xlim : K × K
  ylim : K × K
  stack : Option (Curve K)
  warnings : List Str
  title : Option Str

/-- State of the loop of lines 117-124: limits, curves and the times of the last trace. -/
structure LoopState (K : Type) where
  xlim : K × K
  curves : List (Curve K)
  last : List K

/-- `times[0]` and `times[-1]`: `IndexError` without samples. -/
def ends (l : List K) : Res (K × K) :=
  match l.head?, l.getLast? with
  | some a, some b => .ok (a, b)
  | _, _ => .error .indexError

/-- The divisor of one trace (lines 122-123). -/
def divisor (traceScale : Bool) (gmax : K) (t : Trace K) : Res K :=
  if traceScale then absMax t.data else .ok gmax

/-- Body of the loop of lines 117-124 for the trace with index `i`. -/
def rfLoopStep (a : RfPlotArgs K) (gmax : K) (st : LoopState K) (i : Nat) (t : Trace K) : Res (LoopState K) :=
  match onset t with
  | .error e => .error e
  | .ok o =>
    match ends (times t o) with
    | .error e => .error e
    | .ok (t0, t1) =>
      let xlim := (min st.xlim.1 t0, max st.xlim.2 t1)
      if a.showTraces then
        match divisor a.traceScale gmax t with
        | .error e => .error e
        | .ok m =>
          .ok ⟨xlim, st.curves ++ [plotCurve a.fillcolors (times t o) (scaled m a.scaleFactor t.data) ((i : K) + 1)],
            times t o⟩
      else .ok ⟨xlim, st.curves, times t o⟩

/-- The loop of lines 117-124. -/
def rfLoop (a : RfPlotArgs K) (gmax : K) : LoopState K → Nat → List (Trace K) → Res (LoopState K)
  | st, _, [] => .ok st
  | st, i, t :: ts =>
    match rfLoopStep a gmax st i t with
    | .error e => .error e
    | .ok st => rfLoop a gmax st (i + 1) ts

/-- `[tr.stats[header] for tr in stream]` (line 128) for entries beyond those of every trace. -/
def headerValues (key : String) : List (Trace K) → Res (List (Val K))
  | [] => .ok []
  | t :: ts =>
    match t.ext.get key with
    | none => .error .keyError
    | some v =>
      match headerValues key ts with
      | .error e => .error e
      | .ok vs => .ok (v :: vs)

/-- Lines 97-104 and 126-138: only the first two entries have axes; further ones cannot be unpacked (`ValueError`). -/
def infoPanels (s : List (Trace K)) : Nat → List (String × Str) → Res (List (InfoPanel K))
  | _, [] => .ok []
  | n, (key, _) :: rest =>
    if 2 ≤ n then .error .valueError
    else
      match headerValues key s with
      | .error e => .error e
      | .ok vs =>
        match infoPanels s (n + 1) rest with
        | .error e => .error e
        | .ok ps => .ok (⟨key, vs, (List.range s.length).map fun (i : Nat) => 1 + (i : K)⟩ :: ps)

/-- Line 177: `'%s traces  %s'`; `show` is `str` of a number. -/
def rfTitle (shw : Nat → Str) (s : List (Trace K)) : Str := shw s.length ++ " traces  ".toList ++ label s

/-- The stack (lines 151-174): a curve, or a warning, or an exception.  `aligner_color` of line 174 is only set with
`show_traces` (`UnboundLocalError`). -/
def stackPart (a : RfPlotArgs K) (stack : List (Trace K) → Res (List (Trace K))) (last : List K) (s : List (Trace K)) :
    Res (Option (Curve K) × List Str) :=
  match stack s with
  | .error .valueError => .ok (none, ["Different npts for traces in one RF plot. Do not plot stack.".toList])
  | .error e => .error e
  | .ok [] => .ok (none, [])
  | .ok [t] =>
    if a.showVlines && !a.showTraces then .error .other
    else .ok (some (plotCurve a.fillcolors last (t.data.map some) 0), [])
  | .ok (_ :: _ :: _) =>
    .ok (none, ["Different stations or channels in one RF plot. Do not plot stack.".toList])

/-- The optional trimming (lines 64-65 and 313-314). -/
def trimmed (trim : Option (List (Trace K) → Res (List (Trace K)))) (s : List (Trace K)) : Res (List (Trace K)) :=
  match trim with
  | none => .ok s
  | some f => f s

/-- `info` of lines 66-69. -/
def effInfo (a : RfPlotArgs K) : List (String × Str) :=
  if a.showTraces then a.info.getD [] else []

/-- `plot_rf` (lines 26-187); `none` for an empty stream.  Opening and saving of the figure is matplotlib. -/
def plotRf (shw : Nat → Str) (stack : List (Trace K) → Res (List (Trace K))) (a : RfPlotArgs K) (s : List (Trace K)) :
    Res (Option (RfFigure K)) :=
  match s with
  | [] => .ok none
  | _ :: _ =>
    match trimmed a.trim s with
    | .error e => .error e
    | .ok s =>
      match streamMax s with
      | .error e => .error e
      | .ok gmax =>
        match rfLoop a gmax ⟨(0, 0), [], []⟩ 0 s with
        | .error e => .error e
        | .ok st =>
          match infoPanels s 0 (effInfo a) with
          | .error e => .error e
          | .ok info =>
            match stackPart a stack st.last s with
            | .error e => .error e
            | .ok (sc, ws) =>
              .ok (some
                { layout := layout a.figWidth (if a.showTraces then a.traceHeight else 0) a.stackHeight s.length
                    (effInfo a ≠ []),
                  traceAxes := a.showTraces, infoAxes := effInfo a ≠ [], curves := st.curves, info := info,
                  xlim := st.xlim, ylim := (-1 / 2, (s.length : K) + 3 / 2), stack := sc, warnings := ws,
                  title := if a.showTraces then some (rfTitle shw s) else none })

/-! ## plot_profile -/

/-- Numeric attribute of the header; `AttributeError` if missing. -/
def attr (k : String) (t : Trace K) : Res K :=
  match t.getNum k with
  | some x => .ok x
  | none => .error .attributeError

/-- An attribute of all traces. -/
def attrs (k : String) : List (Trace K) → Res (List K)
  | [] => .ok []
  | t :: ts =>
    match attr k t with
    | .error e => .error e
    | .ok x =>
      match attrs k ts with
      | .error e => .error e
      | .ok xs => .ok (x :: xs)

/-- `min(l)`; `ValueError` for an empty list. -/
def pyMin : List K → Res K
  | [] => .error .valueError
  | x :: xs => .ok (xs.foldl min x)

/-- `max(l)`; `ValueError` for an empty list. -/
def pyMax : List K → Res K
  | [] => .error .valueError
  | x :: xs => .ok (xs.foldl max x)

/-- One trace of the profile (lines 322-332): the curve `x` against `y` and the filled samples. -/
structure ProfCurve (K : Type) where
  pos : K
  x : List (Option K)
  y : List K
  fills : List (Fill K)

/-- Line 323: `box_pos + scale * data / max_ * min(widths)`. -/
def profX (pos scale m w : K) (data : List K) : List (Option K) :=
  data.map fun x => if m = 0 then none else some (pos + scale * x / m * w)

/-- Line 324: `tr.times() - (onset - starttime)`. -/
def profY (t : Trace K) (o : K) : List K :=
  (List.range t.data.length).map fun (i : Nat) => (i : K) * t.delta - (o - t.start)

/-- Lines 322-332 for one trace. -/
def profCurve (colors : Option Str × Option Str) (scale m w : K) (t : Trace K) : Res (ProfCurve K) :=
  match attr "box_pos" t with
  | .error e => .error e
  | .ok pos =>
    match onset t with
    | .error e => .error e
    | .ok o =>
      let x := profX pos scale m w t.data
      .ok { pos := pos, x := x, y := profY t o,
            fills := (match colors.1 with
                | some (c :: cs) => [⟨c :: cs, x.map (fun v => v.any (fun q => decide (pos ≤ q))), pos⟩]
                | _ => []) ++
              (match colors.2 with
                | some (c :: cs) => [⟨c :: cs, x.map (fun v => v.any (fun q => decide (q < pos))), pos⟩]
                | _ => []) }

/-- The loop of lines 322-332. -/
def profCurves (colors : Option Str × Option Str) (scale m w : K) : List (Trace K) → Res (List (ProfCurve K))
  | [] => .ok []
  | t :: ts =>
    match profCurve colors scale m w t with
    | .error e => .error e
    | .ok c =>
      match profCurves colors scale m w ts with
      | .error e => .error e
      | .ok cs => .ok (c :: cs)

/-- A bar drawn by matplotlib: `bar(x, height, width)` is centred on `x` (default `align='center'`). -/
structure Bar (K : Type) where
  lo : K
  hi : K
  height : K

/-- `ax.bar(left, height, width)`. -/
def bar (x height width : K) : Bar K := ⟨x - width / 2, x + width / 2, height⟩

/-- Lines 363-365. -/
def histBars : List (Trace K) → Res (List (Bar K))
  | [] => .ok []
  | t :: ts =>
    match attr "box_pos" t with
    | .error e => .error e
    | .ok pos =>
      match attr "box_length" t with
      | .error e => .error e
      | .ok w =>
        match attr "num" t with
        | .error e => .error e
        | .ok n =>
          match histBars ts with
          | .error e => .error e
          | .ok bs => .ok (bar (pos - w / 2) n w :: bs)

/-- Depth ticks: labels and positions of the major ticks, positions of the minor ticks (lines 345-357). -/
structure Ticks (K : Type) where
  depths : List K
  major : List K
  minor : List K

/-- Lines 339-351: `delay phase slowness` is `model.calculate_delay_times`, `z` is `model.z`. -/
def depthTicks (find : List K → K → Nat) (z : List K) (delay : Str → K → Res (List K)) (t : Trace K) : Res (Ticks K) :=
  match t.getStr "moveout" with
  | none => .error .attributeError
  | some phase =>
    match attr "slowness" t with
    | .error e => .error e
    | .ok slowness =>
      match delay phase slowness with
      | .error e => .error e
      | .ok pd =>
        match onset t with
        | .error e => .error e
        | .ok o =>
          let dkm : K := if 50 < t.endtime - o then 200 else 50
          let d1 := (List.range 20).map fun (i : Nat) => (i : K) * dkm
          let d2 := (List.range 100).map fun (i : Nat) => (i : K) * dkm / 5
          match interpAll find d1 z pd none none with
          | .error e => .error e
          | .ok t1 =>
            match interpAll find d2 z pd none none with
            | .error e => .error e
            | .ok t2 => .ok ⟨d1, t1, t2⟩

/-- Arguments of `plot_profile`; `model` gives depths and delay times of the moveout model. -/
structure ProfPlotArgs (K : Type) where
  scale : K
  fillcolors : Option Str × Option Str
  trim : Option (List (Trace K) → Res (List (Trace K)))
  top : Option Str
  model : Option (List K × (Str → K → Res (List K)))

/-- The figure; `ylim` is given bottom first. -/
structure ProfFigure (K : Type) where
  curves : List (ProfCurve K)
  xlim : K × K
  ylim : K × K
  ticks : Option (Ticks K)
  bars : Option (List (Bar K))

/-- `ax.set_ylim(max(y), min(y))` with `y` of the last trace (line 334). -/
def lastYlim (cs : List (ProfCurve K)) : Res (K × K) :=
  match cs.getLast? with
  | none => .error .other
  | some c =>
    match pyMax c.y with
    | .error e => .error e
    | .ok a =>
      match pyMin c.y with
      | .error e => .error e
      | .ok b => .ok (a, b)

/-- Lines 336-359. -/
def ticksPart (find : List K → K → Nat) (model : Option (List K × (Str → K → Res (List K)))) (t : Trace K) :
    Res (Option (Ticks K)) :=
  match model with
  | none => .ok none
  | some (z, delay) =>
    match depthTicks find z delay t with
    | .error e => .error e
    | .ok k => .ok (some k)

/-- Lines 360-374. -/
def topPart (top : Option Str) (s : List (Trace K)) : Res (Option (List (Bar K))) :=
  match top with
  | none => .ok none
  | some x =>
    if x = "hist".toList then
      match histBars s with
      | .error e => .error e
      | .ok bs => .ok (some bs)
    else .error .notImplemented

/-- `plot_profile` (lines 289-380); `none` for an empty profile. -/
def plotProfile (find : List K → K → Nat) (a : ProfPlotArgs K) (s : List (Trace K)) : Res (Option (ProfFigure K)) :=
  match s with
  | [] => .ok none
  | _ :: _ =>
    match trimmed a.trim s with
    | .error e => .error e
    | .ok s =>
      match attrs "box_length" s with
      | .error e => .error e
      | .ok widths =>
        match pyMin widths with
        | .error e => .error e
        | .ok w =>
          match attrs "box_pos" s with
          | .error e => .error e
          | .ok ps =>
            match pyMin ps with
            | .error e => .error e
            | .ok lo =>
              match pyMax ps with
              | .error e => .error e
              | .ok hi =>
                match streamMax s with
                | .error e => .error e
                | .ok m =>
                  match profCurves a.fillcolors a.scale m w s with
                  | .error e => .error e
                  | .ok cs =>
                    match lastYlim cs with
                    | .error e => .error e
                    | .ok ylim =>
                      match s with
                      | [] => .error .indexError
                      | t0 :: _ =>
                        match ticksPart find a.model t0 with
                        | .error e => .error e
                        | .ok ticks =>
                          match topPart a.top s with
                          | .error e => .error e
                          | .ok bars =>
                            .ok (some ⟨cs, (lo - max 1 a.scale * w, hi + max 1 a.scale * w), ylim, ticks, bars⟩)

/-! ## plot_harmonics -/

/-- `stream.select(location=...)` (ObsPy) for a name without wildcards; ObsPy ignores the case, names here are given in
lower case by `harmonics`. -/
def selectLoc (loc : Str) (s : List (Trace K)) : List (Trace K) := s.filter fun t => t.loc = loc

/-- `hd.select(channel='0', location='mod')[0]`. -/
def constantTerm (s : List (Trace K)) : Res (Trace K) :=
  match s.filter (fun t => t.loc = "mod".toList ∧ t.cha = ['0']) with
  | [] => .error .indexError
  | t :: _ => .ok t

/-- The loops of lines 414-416 and 420-422: `if max(abs(tr.data)) > limit: ref = max(abs(tr.data))`; `limit` is the
current `ref` in the first loop and `ref0` in the second. -/
def refLoop (limit : K → K) : K → List (Trace K) → Res K
  | ref, [] => .ok ref
  | ref, t :: ts =>
    match absMax t.data with
    | .error e => .error e
    | .ok m => refLoop limit (if limit ref < m then m else ref) ts

/-- `ref0` (lines 413-416). -/
def ref0 (hd : List (Trace K)) : Res K :=
  match constantTerm hd with
  | .error e => .error e
  | .ok t =>
    match absMax t.data with
    | .error e => .error e
    | .ok m => refLoop (fun ref => ref) m hd

/-- `ref1` for the second stream (lines 419-422). -/
def ref1 (r0 : K) (hd2 : List (Trace K)) : Res K :=
  match constantTerm hd2 with
  | .error e => .error e
  | .ok t =>
    match absMax t.data with
    | .error e => .error e
    | .ok m => refLoop (fun _ => r0) m (selectLoc "mod".toList hd2)

/-- `int(channel)` for decimal digits; other texts accepted by Python (signs, spaces) do not occur. -/
def intOf (s : Str) : Res Int :=
  if s ≠ [] ∧ s.all Char.isDigit then
    .ok ((s.foldl (fun (a : Nat) (c : Char) => 10 * a + (c.toNat - 48)) 0 : Nat) : Int)
  else .error .valueError

/-- One line of a panel (lines 442-446): `j = 4 - int(channel)`, wiggle `data / ref`. -/
def harmCurve (colors : Option Str × Option Str) (ref : K) (t : Trace K) : Res (Curve K) :=
  match onset t with
  | .error e => .error e
  | .ok o =>
    match intOf t.cha with
    | .error e => .error e
    | .ok n => .ok (plotCurve colors (times t o) (scaled ref 1 t.data) (((4 - n : Int)) : K))

/-- Labels of the vertical axis from 0 on (lines 463-465); `$\\theta$` is written `t`. -/
def harmLabels : List Str :=
  ["sin(2t)".toList, "cos(2t)".toList, "sin(t)".toList, "cos(t)".toList, "constant".toList]

/-- The figure of `plot_harmonics`: scales and curves of both panels. -/
structure HarmFigure (K : Type) where
  leftScale : K
  rightScale : K
  left : List (Curve K)
  right : List (Curve K)

/-- Right panel: the second stream or the unmodelled part, and its scale (lines 418-426). -/
def rightPart (r0 : K) (hd hd2 : List (Trace K)) : Res (K × List (Trace K)) :=
  match hd2 with
  | [] => .ok (r0, selectLoc "unmod".toList hd)
  | t :: ts =>
    match ref1 r0 (t :: ts) with
    | .error e => .error e
    | .ok r1 => .ok (r1, selectLoc "mod".toList (t :: ts))

/-- One round for a panel: `tr = s[i]` and the curve. -/
def panelStep (colors : Option Str × Option Str) (ref : K) (s : List (Trace K)) (i : Nat) : Res (Curve K) :=
  match s[i]? with
  | none => .error .indexError
  | some t => harmCurve colors ref t

/-- `for i in range(5)` (lines 441-452) from index `i` on, `n` rounds: left panel, and right panel if there is anything
to show. -/
def bothPanels (colors : Option Str × Option Str) (r0 r1 : K) (mod unmod : List (Trace K)) (i : Nat) :
    Nat → Res (List (Curve K) × List (Curve K))
  | 0 => .ok ([], [])
  | n + 1 =>
    match panelStep colors r0 mod i with
    | .error e => .error e
    | .ok c =>
      if unmod = [] then
        match bothPanels colors r0 r1 mod unmod (i + 1) n with
        | .error e => .error e
        | .ok (l, r) => .ok (c :: l, r)
      else
        match panelStep colors r1 unmod i with
        | .error e => .error e
        | .ok d =>
          match bothPanels colors r0 r1 mod unmod (i + 1) n with
          | .error e => .error e
          | .ok (l, r) => .ok (c :: l, d :: r)

/-- Trimming with the fall back of lines 405-412: `AttributeError` leaves the streams as they are (the first stream
stays trimmed if only the second one fails). -/
def harmTrim (trim : Option (List (Trace K) → Res (List (Trace K)))) (hd hd2 : List (Trace K)) :
    Res (List (Trace K) × List (Trace K)) :=
  match trim with
  | none => .ok (hd, hd2)
  | some f =>
    match f hd with
    | .error .attributeError => .ok (hd, hd2)
    | .error e => .error e
    | .ok hd =>
      match hd2 with
      | [] => .ok (hd, [])
      | t :: ts =>
        match f (t :: ts) with
        | .error .attributeError => .ok (hd, t :: ts)
        | .error e => .error e
        | .ok hd2 => .ok (hd, hd2)

/-- `plot_harmonics(hd, hd2, fillcolors, trim)` (lines 383-472); `hd2 = []` stands for `None` and for an empty stream.
Titles, which need the entry `components`, are left out. -/
def plotHarmonics (colors : Option Str × Option Str) (trim : Option (List (Trace K) → Res (List (Trace K))))
    (hd hd2 : List (Trace K)) : Res (HarmFigure K) :=
  match harmTrim trim hd hd2 with
  | .error e => .error e
  | .ok (hd, hd2) =>
    match ref0 hd with
    | .error e => .error e
    | .ok r0 =>
      match rightPart r0 hd hd2 with
      | .error e => .error e
      | .ok (r1, unmod) =>
        match bothPanels colors r0 r1 (selectLoc "mod".toList hd) unmod 0 5 with
        | .error e => .error e
        | .ok (l, r) => .ok ⟨r0, r1, l, r⟩

end ordered

end Verif.Model.Imaging
