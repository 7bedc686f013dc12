import Verif.Model.ConfTemplate

/-!
# Statements about the template of the configuration
-/

namespace Verif.Spec
open Verif.Py Verif.Model.Batch

/-- The options which the template sets. -/
def templateOptions : Dict (Value ℚ) :=
  [("events", .leaf (.str "example_events.xml".toList)),
   ("inventory", .leaf (.str "example_inventory.xml".toList)),
   ("data", .leaf (.str "example_data.mseed".toList)),
   ("client_options", .obj [("user", .str "name@insitution.com".toList)]),
   ("plugin", .leaf (.str "module : func".toList)),
   ("options", .obj [("pp_depth", .num 50)]),
   ("rf", .obj [("filter", .other 4), ("trim", .nums [-30, 100])]),
   ("plot", .obj [("fillcolors", .strs ["black".toList, "gray".toList]), ("trim", .nums [-5, 22])]),
   ("boxbins", .leaf (.nums [0, 10, 10])),
   ("boxes", .obj [("latlon0", .nums [-21, -348 / 5]), ("azimuth", .num 90)])]

/-- A line which switches off an option: `#`, white space, and a quoted word. -/
def SwitchedOff (l : Str) : Prop :=
  l.head? = some '#' ∧ ((l.drop 1).dropWhile (· = ' ')).head? = some '"'

instance (l : Str) : Decidable (SwitchedOff l) := inferInstanceAs (Decidable (_ ∧ _))

/-- The lines of the template (counted from 0) with options that are switched off in front of other options: `format`,
`phase`, `request_window`, `dist_range`, `moveout`. -/
def usableLines : List ℕ := [45, 54, 56, 58, 88]

/-- Those with options of the section `rf`: `downsample`, `rotate`, `deconvolve`, `spiking`, `water`, `gauss`,
`winsrc`. -/
def rfLines : List ℕ := [68, 71, 75, 77, 79, 80, 82]

/-- Those behind the last section: `profile`, `plot_profile`. -/
def lastLines : List ℕ := [97, 98]

end Verif.Spec
