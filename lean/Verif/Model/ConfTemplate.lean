import Verif.Model.Json
import Verif.Model.Batch

/-!
# The template of the configuration, `rf/example/conf.json`, copied by `rf create` (`rf/batch.py` lines 196-211)
-/

namespace Verif.Model.ConfTemplate
open Verif.Py Verif.Model.JsonText Verif.Model.Batch

/-- The list of the characters of a string literal. -/
local macro "chars! " s:str : term => do
  let cs : Array (Lean.TSyntax `term) := (s.getString.toList.map fun c => Lean.Syntax.mkCharLit c).toArray
  `(([$cs,*] : List Char))

/-- The lines of `rf/example/conf.json`. -/
def templateLines : List Str := [
  chars! "### Configuration file for rf package in json format",
  chars! "# Comments are indicated with \"#\" and ignored while parsing",
  chars! "",
  chars! "{",
  chars! "",
  chars! "### Options for input and output ###",
  chars! "",
  chars! "# Filename of events file (QuakeML format)",
  chars! "\"events\": \"example_events.xml\",",
  chars! "",
  chars! "# Filename of inventory of stations (StationXML format)",
  chars! "\"inventory\": \"example_inventory.xml\",",
  chars! "",
  chars! "# Data can be",
  chars! "#   1. a glob expression of files. All files are read at once. If you have",
  chars! "#      a huge dataset think about using one of the other two available",
  chars! "#      options.",
  chars! "#   2. one of the client modules supported by ObsPy (e.g \"arclink\", \"fdsn\")",
  chars! "#      for getting the data from a webservice.",
  chars! "#      Option \"client_options\" is available.",
  chars! "#   3. \"plugin\" for a heterogeneus dataset. You have the freedom to get your",
  chars! "#       data from different locations. In this case the option \"plugin\" is",
  chars! "#       availlable",
  chars! "\"data\": \"example_data.mseed\",",
  chars! "",
  chars! "# Options for the webservices which are passed to Client.__init__.",
  chars! "# See the documentation of the clients in ObsPy for availlable options.",
  chars! "\"client_options\": {\"user\": \"name@insitution.com\"},",
  chars! "",
  chars! "# Where to find the plugin in the form \"module : func\"",
  chars! "# 'module' has to be importable (located in current path or PYTHON_PATH",
  chars! "# environment variable).",
  chars! "# 'func' has to be the function which delivers the data, e.g. for a",
  chars! "# FSDN client:",
  chars! "#     # in module.py",
  chars! "#     from obspy.fsdn import Client",
  chars! "#     client = Client()",
  chars! "#     def func(**kwargs):",
  chars! "#         kwargs.pop('event')  # event kwarg is not needed by client",
  chars! "#         return client.get_waveforms(**kwargs)",
  chars! "# Kwargs passed to func are: network, station, location, channel,",
  chars! "# starttime, endtime and event",
  chars! "\"plugin\": \"module : func\",",
  chars! "",
  chars! "# File format for output of script (one of \"Q\", \"SAC\" or \"H5\")",
  chars! "#\"format\": \"Q\",",
  chars! "",
  chars! "",
  chars! "",
  chars! "### Options for rf ###",
  chars! "",
  chars! "\"options\": {  # See documentation of util.iter_event_data and rfstream.rfstats",
  chars! "    # Phase to use (e.g. \"P\", \"PP\", \"S\"), last letter will determine",
  chars! "    # if P- or S-receiver functions are calculated.",
  chars! "#    \"phase\": \"P\",",
  chars! "    # Data request window around onset in seconds",
  chars! "#    \"request_window\":  [-50, 150],",
  chars! "    # Events outside this distance range (epicentral degree) will be discarded",
  chars! "#    \"dist_range\": [30, 90],",
  chars! "    # Depth of piercing points in km",
  chars! "    \"pp_depth\": 50",
  chars! "},",
  chars! "",
  chars! "\"rf\": {  # See RFStream.rf for options",
  chars! "    \"filter\":   {\"type\": \"bandpass\", \"freqmin\": 0.01, \"freqmax\": 2.0},",
  chars! "    # Trim window around P-onset",
  chars! "    \"trim\": [-30, 100]",
  chars! "    # Downsample stream to this frequency in Hz.",
  chars! "#    \"downsample\": 10,",
  chars! "    # Roate stream with this method.",
  chars! "    # rotate should be one of 'ZNE->LQT', 'NE->RT'",
  chars! "#    \"rotate\": \"ZNE->LQT\",",
  chars! "    # Deconvolve stream with this method.",
  chars! "    # deconvolve is one of 'time' or 'freq' for time or",
  chars! "    # frequency domain deconvolution.",
  chars! "#    \"deconvolve\": \"time\",",
  chars! "    # time domain deconvolution options",
  chars! "#    \"spiking\": 1.0,  # spiking factor for noise suppression",
  chars! "    # frequency domain deconvolution options",
  chars! "#    \"water\": 0.05,  # water level for noise suppression",
  chars! "#    \"gauss\": 2.0,  # low pass Gauss filter with corner frequency in Hz",
  chars! "    # window for source function relative to onset, (start, end, tapering)",
  chars! "#    \"winsrc\": [-10, 30, 5]",
  chars! "},",
  chars! "",
  chars! "",
  chars! "### Options for other routines ###",
  chars! "",
  chars! "#\"moveout\": {},  # See RFStream.moveout",
  chars! "",
  chars! "\"plot\": {\"fillcolors\": [\"black\", \"gray\"], \"trim\": [-5, 22]},  # See RFStream.plot_rf",
  chars! "",
  chars! "# [start of profile in km, end of profile in km, number of bins],",
  chars! "# if specified, these values will be passed to np.linspace to generate a",
  chars! "# bin list for the boxes dictionary",
  chars! "\"boxbins\": [0, 10, 10],",
  chars! "\"boxes\": {\"latlon0\": [-21.0, -69.6], \"azimuth\": 90}  # See profile.get_profile_boxes",
  chars! "#\"profile\": {}  # See profile.profile",
  chars! "#\"plot_profile\": {}  # See RFStream.plot_profile",
  chars! "}",
  chars! ""]

/-- A file with these lines. -/
def textOf (lines : List Str) : Str := joinWith '\n' lines

/-- The text of the template. -/
def template : Str := textOf templateLines

section
variable {K : Type}

/-- The numbers of an array; `none` if there are other items. -/
def numItems : Items K → Option (List K)
  | .nil => some []
  | .cons (.num x) l => (numItems l).map (x :: ·)
  | .cons _ _ => none

/-- A value inside an object as far as represented by `Leaf`. -/
def toLeaf : Json K → Leaf K
  | .null => .null
  | .num x => .num x
  | .str s => .str s
  | .arr l =>
    match numItems l with
    | some xs => .nums xs
    | none =>
      match strItems l with
      | some ss => .strs ss
      | none => .other 0
  | .bool b => .other (if b then 1 else 2)
  | .const _ => .other 3
  | .obj _ => .other 4

/-- `dict(pairs)` of the members of an object inside the configuration. -/
def leafDict : Dict (Leaf K) → Members K → Dict (Leaf K)
  | d, .nil => d
  | d, .cons k v m => leafDict (d.set (String.ofList k) (toLeaf v)) m

/-- A value of the configuration. -/
def toValue : Json K → Value K
  | .obj m => .obj (leafDict [] m)
  | v => .leaf (toLeaf v)

/-- `dict(pairs)` of the members of the configuration. -/
def valueDict : Dict (Value K) → Members K → Dict (Value K)
  | d, .nil => d
  | d, .cons k v m => valueDict (d.set (String.ofList k) (toValue v)) m

/-- `json.loads` as called by `run` (batch.py line 219, after removal of the comments): `JSONDecodeError` is a `ValueError`,
and only an object has an `update` method. -/
def confLoads (T : NumText K) (s : Str) : Res (Option (Dict (Value K))) :=
  match loads T s with
  | none => .error .valueError
  | some (.obj m) => .ok (some (valueDict [] m))
  | some _ => .ok none

/-- `json.loads` of an option given on the command line (batch.py line 249). -/
def optLoads (T : NumText K) (s : Str) : Res (Value K) :=
  match loads T s with
  | none => .error .valueError
  | some v => .ok (toValue v)

end

/-- Remove the first character of line `i` (the `#` of an option which is switched off). -/
def uncomment (i : ℕ) (lines : List Str) : List Str := lines.modify i (List.drop 1)

end Verif.Model.ConfTemplate
