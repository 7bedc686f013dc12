import Verif.Py.Basic

/-!
# Tables of the documentation
-/

namespace Verif.Spec
open Verif.Py

/-- The table of the user guide (rf/__init__.py 122-146): stats entry, field in SH/Q files, field in SAC files. -/
def documentedFields : List (String × String × String) :=
  [("station_latitude", "COMMENT", "stla"),
   ("station_longitude", "COMMENT", "stlo"),
   ("station_elevation", "COMMENT", "stel"),
   ("event_latitude", "LAT", "evla"),
   ("event_longitude", "LON", "evlo"),
   ("event_depth", "DEPTH", "evdp"),
   ("event_magnitude", "MAGNITUDE", "mag"),
   ("event_time", "ORIGIN", "o"),
   ("onset", "P-ONSET", "a"),
   ("type", "COMMENT", "kuser0"),
   ("phase", "COMMENT", "kuser1"),
   ("moveout", "COMMENT", "kuser2"),
   ("distance", "DISTANCE", "gcarc"),
   ("back_azimuth", "AZIMUTH", "baz"),
   ("inclination", "INCI", "user0"),
   ("slowness", "SLOWNESS", "user1"),
   ("pp_latitude", "COMMENT", "user2"),
   ("pp_longitude", "COMMENT", "user3"),
   ("pp_depth", "COMMENT", "user4"),
   ("box_pos", "COMMENT", "user5"),
   ("box_length", "COMMENT", "user6")]

/-- Where a receiver function is stored in an H5 file. -/
def rfPlace : Str :=
  "waveforms/{network}.{station}.{location}/{event_time.datetime:%Y-%m-%dT%H:%M:%S}/{channel}_{starttime.datetime:%Y-%m-%dT%H:%M:%S}_{endtime.datetime:%Y-%m-%dT%H:%M:%S}".toList

/-- Where a profile trace is stored in an H5 file. -/
def profilePlace : Str := "waveforms/{channel[2]}_{box_pos}".toList

/-- Piercing points of P receiver functions are those of the S wave and vice versa. -/
def convertedPhase (phase : Str) : Str :=
  match phase.getLast? with
  | some 'P' => "S".toList
  | some 'p' => "S".toList
  | _ => "P".toList

end Verif.Spec
