import Verif.Model.Headers

/-!
# Model of the event iterators (`rf/util.py` lines 17-129)

Events and station coordinates are opaque; ObsPy, the data service and `rfstats` are parameters.  A
generator is modelled by the list of yielded items, the number of `pbar.update(1)` calls and the exception
that ended it, if any.
-/

namespace Verif.Model.EventIter
open Verif.Py Verif.Model.Headers

/-- `d[k] = v` for an insertion ordered dictionary with `Str` keys. -/
def assocSet {V : Type} : List (Str × V) → Str → V → List (Str × V)
  | [], k, v => [(k, v)]
  | (k', v') :: rest, k, v => if k' = k then (k', v) :: rest else (k', v') :: assocSet rest k v

/-- `_get_stations(inventory)` (lines 17-20) for the channel ids of the inventory: a dictionary from
`ch[:-1] + '?'` to `ch[-1]`; an empty id raises `IndexError`. -/
def getStations (channels : List Str) : Res (List (Str × Char)) :=
  channels.foldlM (fun d ch =>
    match ch.getLast? with
    | none => .error .indexError
    | some c => .ok (assocSet d (ch.dropLast ++ ['?']) c)) []

variable {K Ev C : Type}

/-- A waveform trace as returned by `get_waveforms`: the trace object, whether its data are a masked array
after merging and whether it already is an `RFTrace`. -/
structure WTrace (K : Type) where
  tr : FTrace K
  masked : Bool
  isRF : Bool

/-- The keyword arguments of `get_waveforms` (lines 81-83). -/
structure Request (K : Type) where
  network : Str
  station : Str
  location : Str
  channel : Str
  starttime : K
  endtime : K
  deriving DecidableEq, Repr

/-- The services used by `iter_event_data`: origin time of an event (line 63, `IndexError` if there is no
origin), station coordinates, `rfstats` (`.ok none`: distance out of range; otherwise onset and all stats
entries that are not `None`), the data service (`.ok none`: it returned `None`), and trimming plus merging
(ObsPy; may raise). -/
structure Services (K Ev C : Type) where
  originTime : Ev → Res K
  coords : Str → K → Res C
  rfstats : C → Ev → Res (Option (K × Dict (Val K)))
  waveforms : Request K → Res (Option (List (WTrace K)))
  trimMerge : K → K → List (WTrace K) → Res (List (WTrace K))

/-- What is yielded: the pair it belongs to, the request and the traces of the stream. -/
structure Item (K Ev : Type) where
  event : Ev
  seedid : Str
  request : Request K
  traces : List (FTrace K)

/-- What happens with one event-station pair. -/
inductive Outcome (α : Type)
  | skip
  | yield (x : α)
  | abort (e : PyErr)

/-- `tr.stats.update(stats)` (lines 101-102). -/
def updTrace (stats : Dict (Val K)) (t : FTrace K) : FTrace K :=
  { t with st := { t.st with top := t.st.top.update stats } }

section
variable [Field K] (E : FmtEnv K)

/-- `RFStream(stream)` (line 103; `RFStream.__init__`): plain traces become `RFTrace` objects, which reads the
format specific header. -/
def toRF : List (WTrace K) → Res (List (FTrace K))
  | [] => .ok []
  | w :: ws =>
    match (if w.isRF then .ok w.tr else initTrace E w.tr) with
    | .error e => .error e
    | .ok t =>
      match toRF ws with
      | .error e => .error e
      | .ok ts => .ok (t :: ts)

/-- The part of the loop body after `rfstats` (lines 78-103). -/
def fetch (S : Services K Ev C) (win : K × K) (pad : K) (ev : Ev) (seedid : Str) (onset : K) (stats : Dict (Val K)) :
    Outcome (Item K Ev) :=
  match splitOn '.' seedid with
  | [net, sta, loc, cha] =>
    let starttime := onset + win.1
    let endtime := onset + win.2
    let req : Request K := ⟨net, sta, loc, cha, starttime - pad, endtime + pad⟩
    match S.waveforms req with
    | .error _ => .skip
    | .ok none => .abort .attributeError
    | .ok (some stream) =>
      match S.trimMerge starttime endtime stream with
      | .error e => .abort e
      | .ok stream =>
        if stream.length ≠ 3 then .skip
        else if stream.any (fun w => w.masked) then .skip
        else
          match toRF E (stream.map fun w => { w with tr := updTrace stats w.tr }) with
          | .error e => .abort e
          | .ok ts => .yield ⟨ev, seedid, req, ts⟩
  | _ => .abort .valueError

/-- Loop body of `iter_event_data` (lines 63-103) for an event, a station entry and its component. -/
def step (S : Services K Ev C) (win : K × K) (pad : K) (ev : Ev) (st : Str × Char) : Outcome (Item K Ev) :=
  match S.originTime ev with
  | .error e => .abort e
  | .ok ot =>
    match S.coords (st.1.dropLast ++ [st.2]) ot with
    | .error _ => .skip
    | .ok c =>
      match S.rfstats c ev with
      | .error _ => .skip
      | .ok none => .skip
      | .ok (some (onset, stats)) => fetch E S win pad ev st.1 onset stats

/-- Result of a generator. -/
structure GenOut (α : Type) where
  items : List α
  pbar : Nat
  err : Option PyErr

/-- A loop over pairs whose body skips, yields or raises. -/
def genLoop {ι α : Type} (body : ι → Outcome α) : List ι → GenOut α
  | [] => ⟨[], 0, none⟩
  | i :: is =>
    match body i with
    | .abort e => ⟨[], 1, some e⟩
    | .skip => let r := genLoop body is; ⟨r.items, r.pbar + 1, r.err⟩
    | .yield x => let r := genLoop body is; ⟨x :: r.items, r.pbar + 1, r.err⟩

/-- `itertools.product(events, stations)`. -/
def pairs {α β : Type} (events : List α) (stations : List β) : List (α × β) :=
  events.flatMap fun e => stations.map fun s => (e, s)

/-- The request window (lines 54-56): default by the last letter of the phase; `IndexError` for an empty
phase. -/
def requestWindow (phase : Str) (win : Option (K × K)) : Res (K × K) :=
  match phase.getLast? with
  | none => .error .indexError
  | some c =>
    match win with
    | some w => .ok w
    | none => if c.toUpper = 'P' then .ok (-50, 150) else .ok (-100, 50)

/-- `iter_event_data(events, inventory, get_waveforms, phase, request_window, pad, pbar)` (lines 23-103).
The services may behave differently for every pair: `S n` are the services while the `n`-th pair is
processed.  The second component of the result is `pbar.total`. -/
def iterEventData (S : Nat → Services K Ev C) (events : List Ev) (channels : List Str) (phase : Str) (win : Option (K × K)) (pad : K) :
    GenOut (Item K Ev) × Nat :=
  match requestWindow phase win with
  | .error e => (⟨[], 0, some e⟩, 0)
  | .ok w =>
    match getStations channels with
    | .error e => (⟨[], 0, some e⟩, 0)
    | .ok stations =>
      (genLoop (fun p => step E (S p.2) w pad p.1.1 p.1.2) (pairs events stations).zipIdx,
        events.length * stations.length)

end

/-- Metadata yielded by `iter_event_metadata`. -/
structure Meta (K : Type) where
  network : Str
  station : Str
  location : Str
  channel : Str
  eventTime : Option K
  deriving DecidableEq, Repr

/-- Loop body of `iter_event_metadata` (lines 123-129); `none` is the event `None`. -/
def metaStep (originTime : Ev → Res K) (p : Option Ev × Str) : Outcome (Meta K) :=
  match splitOn '.' p.2 with
  | [net, sta, loc, cha] =>
    match p.1 with
    | none => .yield ⟨net, sta, loc, cha, none⟩
    | some ev =>
      match originTime ev with
      | .error e => .abort e
      | .ok t => .yield ⟨net, sta, loc, cha, some t⟩
  | _ => .abort .valueError

/-- `iter_event_metadata(events, inventory, pbar)` (lines 106-129). -/
def iterEventMetadata (originTime : Ev → Res K) (events : Option (List Ev)) (channels : List Str) :
    GenOut (Meta K) :=
  match getStations channels with
  | .error e => ⟨[], 0, some e⟩
  | .ok stations =>
    genLoop (metaStep originTime)
      (pairs (match events with | none => [none] | some l => l.map some) (stations.map Prod.fst))

end Verif.Model.EventIter
