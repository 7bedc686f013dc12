import Verif.Props.PlotDetails

/-!
# Texts read as JSON (C180)
-/

namespace Verif.Props
open Verif.Py Verif.Model Verif.Model.JsonText Verif.Spec

/-- White space, decimals and nesting are read; a comma too much or text behind the value are errors. -/
example : loads exactText " {\"a\" : [1.50, -2e-1,true ], \"b\":{ }} ".toList =
    some (.obj (.cons "a".toList (.arr (.cons (.num (3/2)) (.cons (.num (-1/5)) (.cons (.bool true) .nil))))
      (.cons "b".toList (.obj .nil) .nil))) ∧
    loads exactText "[1,]".toList = none ∧ loads exactText "1 2".toList = none ∧
    loads exactText "{\"a\":1,}".toList = none ∧ loads exactText "01".toList = none := by
  decide +kernel

/-- A key which occurs twice. -/
example : loadsHeaders exactText "{\"phase\":\"P\",\"phase\":\"S\"}".toList = .ok [("phase", .str "S".toList)] := by
  decide +kernel

end Verif.Props
