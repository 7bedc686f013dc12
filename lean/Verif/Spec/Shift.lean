import Verif.Model.Stream

/-!
# Specification for C138: the same records at another time
-/

namespace Verif.Spec
open Verif.Py Verif.Model

/-- A header value `d` seconds later: times move, everything else stays. -/
def laterVal {K : Type} [Field K] (d : K) : Val K → Val K
  | .time x => .time (x + d)
  | v => v

/-- A record `d` seconds later: the start time and all times in the header move, samples and all other header values
stay. -/
def later {K : Type} [Field K] (d : K) (t : Trace K) : Trace K :=
  { t with start := t.start + d, ext := t.ext.map (fun p => (p.1, laterVal d p.2)) }

/-- All records `d` seconds later. -/
def laterH {K : Type} [Field K] (d : K) (h : Heap K) : Heap K := fun r => later d (h r)

/-- A time argument `d` seconds later: absolute times move, seconds and `None` stay. -/
def laterArg {K : Type} [Field K] (d : K) : TArg K → TArg K
  | .utc x => .utc (x + d)
  | a => a

end Verif.Spec
