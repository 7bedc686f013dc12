import Verif.Model.Stream
import Mathlib.Data.List.Sort
import Mathlib.Data.List.Lex
import Mathlib.Data.Char

/-!
# Model of `rf/util.py: _add_processing_info` (lines 225-249)

The decorator is created with the `decorator` package; its generated wrapper binds the arguments to the
signature of the decorated function before calling `_add_processing_info(_func_, *args, **kwargs)`, which does
not change what `inspect.getcallargs` computes from them.  The signatures are those of the six decorated
functions.
-/

namespace Verif.Model.ProcInfo
open Verif.Py Verif.Model

/-- A profile box: its `repr` and the content of the key `profile` (only the first box of
`get_profile_boxes` has it, profile.py 50-54), given by the `repr` of latlon, azimuth and length, which are
numbers and tuples of numbers. -/
structure Box where
  repr : Str
  profile : Option (Str × Str × Str)
  deriving DecidableEq, Repr

/-- Argument values as far as the decorator looks at them: strings, `None`, lists of profile boxes and other
objects, for which only `repr` and the truth value matter. -/
inductive PV where
  | none
  | str (s : Str)
  | obj (repr : Str) (truth : Bool)
  | boxes (l : List Box)
  deriving DecidableEq, Repr

/-- `repr(v)` for values that are no strings -/
def PV.repr : PV → Str
  | .none => "None".toList
  | .str s => s
  | .obj r _ => r
  | .boxes l => '[' :: ((l.map Box.repr).intersperse ", ".toList).flatten ++ [']']

/-- Signature of a decorated function: name, parameters with defaults, and whether it takes `**kwargs`. -/
structure Sig where
  name : Str
  params : List (String × Option PV)
  varkw : Bool

/-- The names of the parameters. -/
def Sig.names (s : Sig) : List String := s.params.map Prod.fst

/-- Keyword arguments in `inspect.getcallargs`: bound to parameters that are not yet bound, others are
collected in `kwargs`, `TypeError` if this is not possible. -/
def bindKw (s : Sig) : Dict PV → Dict PV → Dict PV → Res (Dict PV × Dict PV)
  | named, extra, [] => .ok (named, extra)
  | named, extra, (k, v) :: rest =>
    if k ∈ s.names then
      if named.has k then .error .typeError else bindKw s (named.set k v) extra rest
    else if s.varkw then bindKw s named (extra.set k v) rest
    else .error .typeError

/-- Defaults in `inspect.getcallargs`; `TypeError` for a missing argument. -/
def fillDefaults : List (String × Option PV) → Dict PV → Res (Dict PV)
  | [], named => .ok named
  | (k, d) :: rest, named =>
    if named.has k then fillDefaults rest named
    else match d with
      | none => .error .typeError
      | some v => fillDefaults rest (named.set k v)

/-- `inspect.getcallargs(_func_, *args, **kwargs)` (line 228): values of the parameters, and the dictionary
`kwargs` separately.  Positional arguments are bound in order, too many raise `TypeError`. -/
def getcallargs (s : Sig) (pos : List PV) (kw : Dict PV) : Res (Dict PV × Dict PV) :=
  if s.params.length < pos.length then .error .typeError
  else
    match bindKw s (s.names.zip pos) [] kw with
    | .error e => .error e
    | .ok (named, extra) =>
      match fillDefaults s.params named with
      | .error e => .error e
      | .ok named => .ok (named, extra)

/-- Lines 229-230: `self` is removed, or `stream` if there is no `self`. -/
def dropStream (named : Dict PV) : Res (Dict PV) :=
  let rest := named.erase "self"
  match named.get "self" with
  | some .none | none => if rest.has "stream" then .ok (rest.erase "stream") else .error .keyError
  | some _ => .ok rest

/-- Lines 233-237: `boxes` is replaced by the profile parameters stored in the first box.  A box without
key `profile` raises `KeyError`, a true value which is no list of boxes raises an exception, too. -/
def replaceBoxes (kw : Dict PV) : Res (Dict PV) :=
  let rest := kw.erase "boxes"
  match kw.get "boxes" with
  | none => .ok rest
  | some .none => .ok rest
  | some (.str []) => .ok rest
  | some (.str (_ :: _)) => .error .typeError
  | some (.obj _ false) => .ok rest
  | some (.obj _ true) => .error .typeError
  | some (.boxes []) => .ok rest
  | some (.boxes (b :: _)) =>
    match b.profile with
    | none => .error .keyError
    | some (latlon, azimuth, length) =>
      .ok (((rest.set "latlon" (.obj latlon true)).set "azimuth" (.obj azimuth true)).set "length"
        (.obj length true))

/-- Lines 240-241: one argument, `k=repr(v)` or `k='v'` for strings. -/
def fmtArg (p : String × PV) : Str :=
  match p.2 with
  | .str s => p.1.toList ++ "='".toList ++ s ++ ['\'']
  | v => p.1.toList ++ '=' :: v.repr

/-- `'::'.join(l)` -/
def joinColons (l : List Str) : Str := (l.intersperse "::".toList).flatten

/-- Lines 238-242: `rf version: function(arguments)` -/
def infoText (version : Str) (s : Sig) (kw : Dict PV) : Str :=
  "rf ".toList ++ version ++ ": ".toList ++ s.name ++ '(' ::
    joinColons ((kw.map fmtArg).insertionSort (· ≤ ·)) ++ [')']

/-- Lines 228-242: the processing entry of a call. -/
def procInfo (version : Str) (s : Sig) (pos : List PV) (kw : Dict PV) : Res Str :=
  match getcallargs s pos kw with
  | .error e => .error e
  | .ok (named, extra) =>
    match dropStream named with
    | .error e => .error e
    | .ok named =>
      match replaceBoxes (extra.update named) with
      | .error e => .error e
      | .ok kw => .ok (infoText version s kw)

/-- What a decorated function returns: a stream, or something that is no iterable of traces. -/
inductive Ret
  | stream (s : List Nat)
  | other
  deriving DecidableEq

/-- Lines 226-249: the decorated function.  Exceptions of lines 228-242 are raised before `_func_` is called;
exceptions while adding the entry to the traces are swallowed. -/
def decorated {K : Type} (version : Str) (s : Sig) (f : Heap K → Heap K × Res Ret) (pos : List PV)
    (kw : Dict PV) (h : Heap K) : Heap K × Res Ret :=
  match procInfo version s pos kw with
  | .error e => (h, .error e)
  | .ok info =>
    match f h with
    | (h', .ok (.stream st)) => (addInfoAll info h' st, .ok (.stream st))
    | r => r

/-- Python objects used as defaults. -/
def pv (s : String) : PV := .str s.toList

/-- deconvolve.py 24-26 -/
def sigDeconvolve : Sig := ⟨"deconvolve".toList,
  [("stream", none), ("method", some (pv "time")), ("func", some .none), ("source_components", some (pv "LZ")),
   ("response_components", some .none), ("winsrc", some (pv "P"))], true⟩

/-- harmonics.py 11 -/
def sigHarmonics : Sig := ⟨"harmonics".toList,
  [("stream", none), ("components", some (pv "R")), ("azim", some (.obj "0".toList false)),
   ("method", some (pv "time"))], true⟩

/-- profile.py 76 -/
def sigProfile : Sig := ⟨"profile".toList, [("stream", none), ("boxes", none), ("crs", some .none)], false⟩

/-- rfstream.py 264-266 -/
def sigRf : Sig := ⟨"rf".toList,
  [("self", none), ("method", some .none), ("filter", some .none), ("trim", some .none),
   ("downsample", some .none), ("rotate", some (pv "ZNE->LQT")), ("deconvolve", some (pv "time")),
   ("source_components", some .none)], true⟩

/-- rfstream.py 358 -/
def sigMoveout : Sig := ⟨"moveout".toList,
  [("self", none), ("phase", some .none), ("ref", some (.obj "6.4".toList true)),
   ("model", some (pv "iasp91"))], false⟩

/-- rfstream.py 404 -/
def sigStack : Sig := ⟨"stack".toList, [("self", none)], false⟩

end Verif.Model.ProcInfo
