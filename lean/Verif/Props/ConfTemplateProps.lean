import Verif.Spec.ConfTemplate
import Mathlib.Data.Rat.Floor

/-!
# C181, C182: the template of the configuration
-/

set_option linter.unusedSimpArgs false
set_option linter.unusedSectionVars false

namespace Verif.Props
open Verif.Py Verif.Model.JsonText Verif.Model.Batch Verif.Model.ConfTemplate Verif.Spec

/-- C181: the template is read. -/
theorem C181_loads : confLoads exactText (stripComments template) = .ok (some templateOptions) := by decide +kernel

/-- C181: every command starts with the options of the template, those of the command line replace them. -/
theorem C181_run (open_ : Str → Option Str) (c command : Str) (tutorial : Bool) (kw : Dict (Value ℚ))
    (hopen : open_ c = some template) (hc : c ∉ ["None".toList, "none".toList, "null".toList, []])
    (hcreate : command ≠ "create".toList) (hprint : command ≠ "print".toList) :
    run open_ (confLoads exactText) command (some c) tutorial kw = .call command (templateOptions.update kw) := by
  have h1 : ¬ (c = "None".toList ∨ c = "none".toList ∨ c = "null".toList ∨ c = []) := by
    simpa only [List.mem_cons, List.not_mem_nil, or_false] using hc
  simp only [run, if_neg hcreate, confFile, if_neg h1, ne_eq, hprint, not_false_eq_true, if_true, hopen, C181_loads]

theorem filter_set_named {V : Type} (d : Dict V) (k : String) (v : V) (q : String → Bool) (hk : q k = false) :
    (d.set k v).filter (fun p => q p.1) = d.filter fun p => q p.1 := by
  induction d with
  | nil => simp [Dict.set, hk]
  | cons p d ih =>
    simp only [Dict.set]
    split
    · rename_i h; simp [List.filter_cons, h, hk]
    · simp only [List.filter_cons, ih]

theorem filter_update_named {V : Type} (d e : Dict V) (q : String → Bool) (he : ∀ p ∈ e, q p.1 = false) :
    (d.update e).filter (fun p => q p.1) = d.filter fun p => q p.1 := by
  induction e generalizing d with
  | nil => rfl
  | cons p e ih =>
    have : d.update (p :: e) = (d.set p.1 p.2).update e := rfl
    rw [this, ih _ fun q hq => he q (List.mem_cons_of_mem _ hq), filter_set_named _ _ _ _ (he p List.mem_cons_self)]

/-- The dictionaries of options after the defaults are filled in. -/
def templateFilled : Dict (Value ℚ) :=
  [("client_options", .obj [("user", .str "name@insitution.com".toList)]),
   ("options", .obj [("pp_depth", .num 50)]),
   ("rf", .obj [("filter", .other 4), ("trim", .nums [-30, 100])]),
   ("plot", .obj [("fillcolors", .strs ["black".toList, "gray".toList]), ("trim", .nums [-5, 22])]),
   ("boxbins", .leaf (.nums [0, 10, 10])),
   ("boxes", .obj [("latlon0", .nums [-21, -348 / 5]), ("azimuth", .num 90)]),
   ("moveout", .obj []), ("profile", .obj []), ("plot_profile", .obj [])]

theorem template_filled (loads : Str → Res (Value ℚ)) :
    fillOptions loads (templateOptions.filter fun p => !namedOptions.contains p.1) = .ok templateFilled := by
  rfl

/-- A value given with an option `phase`, if any. -/
def withPhase (d : Dict (Leaf ℚ)) (phase : Option (Leaf ℚ)) : Dict (Leaf ℚ) :=
  match phase with
  | none => d
  | some v => d.set "phase" v

/-- C181: with any further options of the command line except dictionaries, the options of the template are accepted:
those of `rf`, `plot` and so on are those of the file, the edges of the boxes are computed. -/
theorem C181_prepare (loads : Str → Res (Value ℚ)) (kw : Dict (Value ℚ)) (hkw : ∀ p ∈ kw, p.1 ∈ namedOptions) :
    ∃ d, prepare loads (templateOptions.update kw) = .ok d ∧
      d.get "rf" = templateOptions.get "rf" ∧ d.get "plot" = templateOptions.get "plot" ∧
      d.get "client_options" = templateOptions.get "client_options" ∧
      d.get "options" = some (.obj (withPhase [("pp_depth", .num 50)] (argOf (templateOptions.update kw) "phase"))) ∧
      d.get "moveout" = some (.obj (withPhase [] (argOf (templateOptions.update kw) "moveout_phase"))) ∧
      d.get "boxes" = some (.obj [("latlon0", .nums [-21, -348 / 5]), ("azimuth", .num 90),
        ("bins", .nums ((List.range 10).map fun (i : ℕ) => (i : ℚ) * (10 / 9)))]) ∧
      d.get "profile" = some (.obj []) ∧ d.get "plot_profile" = some (.obj []) := by
  have hcmd : (templateOptions.update kw).has "command" = false := by
    have h0 : (templateOptions.update kw).get "command" = none := by
      have h1 : Dict.get ((templateOptions.update kw).filter fun (p : String × Value ℚ) => decide (p.1 = "command")) "command" = none := by
        have := filter_update_named templateOptions kw (fun k => decide (k = "command")) (by
          intro p hp
          have h2 := hkw p hp
          simp only [decide_eq_false_iff_not]
          intro h3; rw [h3] at h2; revert h2; decide)
        rw [this]; rfl
      have h4 : ∀ d : Dict (Value ℚ), Dict.get (d.filter fun (p : String × Value ℚ) => decide (p.1 = "command")) "command" = none →
          d.get "command" = none := by
        intro d
        induction d with
        | nil => exact fun _ => rfl
        | cons p d ih =>
          intro h
          by_cases hp : p.1 = "command"
          · simp [List.filter_cons, hp, Dict.get] at h
          · simp only [List.filter_cons, hp, decide_false, Bool.false_eq_true, if_false] at h
            simp only [Dict.get, if_neg hp]
            exact ih h
      exact h4 _ h1
    simp [Dict.has, h0]
  have hrest : (templateOptions.update kw).filter (fun p => !namedOptions.contains p.1) =
      templateOptions.filter fun p => !namedOptions.contains p.1 :=
    filter_update_named templateOptions kw (fun k => !namedOptions.contains k) fun p hp => by
      simp [hkw p hp]
  have hcheck : checkOptions (templateOptions.filter fun p => !namedOptions.contains p.1) = .ok () := by decide +kernel
  simp only [prepare, hcmd, Bool.false_eq_true, if_false, hrest, hcheck, template_filled]
  generalize argOf (templateOptions.update kw) "phase" = p1
  generalize argOf (templateOptions.update kw) "moveout_phase" = p2
  have hbins : binEdges (.leaf (.nums [0, 10, 10]) : Value ℚ) =
      .ok ((List.range 10).map fun (i : ℕ) => (i : ℚ) * (10 / 9)) := by decide +kernel
  cases p1 <;> cases p2 <;>
    simp only [setOptional, setEntry, templateFilled, Dict.get, Dict.set, String.reduceEq, if_true, if_false, setBins, hbins,
      withPhase] <;>
    refine ⟨_, rfl, ?_⟩ <;> refine ⟨?_, ?_, ?_, ?_, ?_, ?_, ?_, ?_⟩ <;>
    simp [Dict.get, Dict.set, templateOptions]

/-- C181: the files of the tutorial are found under the names in the template, seen from the directory of the
configuration. -/
theorem C181_tutorial (conf : Option Str) :
    ∀ key ∈ ["events", "inventory", "data"], ∃ f, templateOptions.get key = some (.leaf (.str f)) ∧
      (f, pathJoin (dirname (conf.getD "conf.json".toList)) f) ∈ createFiles conf true := by
  intro key hkey
  simp only [List.mem_cons, List.not_mem_nil, or_false] at hkey
  rcases hkey with rfl | rfl | rfl
  · exact ⟨"example_events.xml".toList, by decide +kernel, by simp [createFiles]⟩
  · exact ⟨"example_inventory.xml".toList, by decide +kernel, by simp [createFiles]⟩
  · exact ⟨"example_data.mseed".toList, by decide +kernel, by simp [createFiles]⟩

/-- C181: by default these are exactly the names. -/
theorem C181_tutorial_default : createFiles none true =
    ("conf.json".toList, "conf.json".toList) :: ["example_events.xml".toList, "example_inventory.xml".toList,
      "example_data.mseed".toList].map fun f => (f, f) := by
  decide +kernel

/-- The template in a file, started with an option of the command line. -/
example : run (fun c => if c = "conf.json".toList then some template else none) (confLoads exactText) "calc".toList
    (some "conf.json".toList) false [("phase", .leaf (.str "S".toList))] =
    .call "calc".toList (templateOptions.update [("phase", .leaf (.str "S".toList))]) :=
  C181_run _ _ _ _ _ (by simp) (by decide) (by decide) (by decide)

example : ∃ d, prepare (optLoads exactText) (templateOptions.update [("phase", .leaf (.str "S".toList))]) = .ok d ∧
    d.get "options" = some (.obj [("pp_depth", .num 50), ("phase", .str "S".toList)]) := by
  obtain ⟨d, h, -, -, -, h1, -⟩ := C181_prepare (optLoads exactText) [("phase", .leaf (.str "S".toList))] (by
    intro p hp; simp only [List.mem_cons, List.not_mem_nil, or_false] at hp; subst hp; decide)
  exact ⟨d, h, by rw [h1]; decide +kernel⟩

/-! ### C182: options which are switched off -/

/-- The lines with options that are switched off. -/
theorem switchedOff_lines (i : ℕ) (h : SwitchedOff (templateLines.getD i [])) :
    i ∈ usableLines ++ rfLines ++ lastLines := by
  by_cases hi : i < 101
  · have : ∀ i < 101, SwitchedOff (templateLines.getD i []) → i ∈ usableLines ++ rfLines ++ lastLines := by decide +kernel
    exact this i hi h
  · have hl : templateLines.length ≤ i := by
      have : templateLines.length = 101 := by decide +kernel
      omega
    rw [List.getD_eq_getElem?_getD, List.getElem?_eq_none hl] at h
    exact absurd h (by decide)

/-- The result of reading the template with one line switched on. -/
def switchedOn (i : ℕ) : Res (Option (Dict (Value ℚ))) :=
  confLoads exactText (stripComments (textOf (uncomment i templateLines)))

/-- Are all keys of a configuration options of the program? -/
def keysKnown : Res (Option (Dict (Value ℚ))) → Bool
  | .ok (some d) => d.keys.all fun k => namedOptions.contains k || dictOptions.contains k
  | _ => false

/-- C182, partial: removing the `#` gives a configuration that is read exactly for the options in front of others; all
its keys are known. -/
theorem C182_read_partial (i : ℕ) (h : SwitchedOff (templateLines.getD i [])) :
    (i ∈ usableLines → ∃ d, switchedOn i = .ok (some d) ∧ ∀ k ∈ d.keys, k ∈ namedOptions ∨ k ∈ dictOptions) ∧
    (i ∉ usableLines → switchedOn i = .error .valueError) := by
  have h1 := switchedOff_lines i h
  have key : ∀ i ∈ usableLines ++ rfLines ++ lastLines,
      if i ∈ usableLines then keysKnown (switchedOn i) = true else switchedOn i = .error .valueError := by decide +kernel
  have h2 := key i h1
  refine ⟨fun hu => ?_, fun hu => by rwa [if_neg hu] at h2⟩
  rw [if_pos hu] at h2
  revert h2
  generalize switchedOn i = r
  intro h2
  match r, h2 with
  | .ok (some d), h2 =>
    refine ⟨d, rfl, fun k hk => ?_⟩
    have := List.all_eq_true.1 h2 k hk
    simpa using this

/-- C182, partial: with one of the other lines switched on, every command that reads the configuration stops with a
message. -/
theorem C182_stops_partial (i : ℕ) (h : SwitchedOff (templateLines.getD i [])) (hi : i ∉ usableLines)
    (open_ : Str → Option Str) (c command : Str) (tutorial : Bool) (kw : Dict (Value ℚ))
    (hopen : open_ c = some (textOf (uncomment i templateLines)))
    (hc : c ∉ ["None".toList, "none".toList, "null".toList, []])
    (hcreate : command ≠ "create".toList) (hprint : command ≠ "print".toList) :
    run open_ (confLoads exactText) command (some c) tutorial kw = .stopped := by
  have h1 : ¬ (c = "None".toList ∨ c = "none".toList ∨ c = "null".toList ∨ c = []) := by
    simpa only [List.mem_cons, List.not_mem_nil, or_false] using hc
  have h2 : confLoads exactText (stripComments (textOf (uncomment i templateLines))) = .error .valueError :=
    (C182_read_partial i h).2 hi
  simp only [run, if_neg hcreate, confFile, if_neg h1, ne_eq, hprint, not_false_eq_true, if_true, hopen, h2]

/-- The template with a comma behind the last option of the section `rf`. -/
def withComma : List Str := templateLines.modify 66 (· ++ [','])

/-- C182, partial: also with a comma added in front, only the last option of the section `rf` can be switched on alone (the
others end with a comma); all together can. -/
theorem C182_comma_partial :
    (∀ i ∈ rfLines, (confLoads exactText (stripComments (textOf (uncomment i withComma)))).toOption.isSome = true ↔ i = 82) ∧
    (confLoads exactText (stripComments (textOf (rfLines.foldl (fun l i => uncomment i l) withComma)))).toOption.isSome = true := by
  decide +kernel

/-- C182 is false: the option `deconvolve` is switched on by removing its `#`, and the program stops. -/
theorem C182_counterexample :
    SwitchedOff (templateLines.getD 75 []) ∧ switchedOn 75 = .error .valueError ∧
    run (fun _ => some (textOf (uncomment 75 templateLines))) (confLoads exactText) "calc".toList
      (some "conf.json".toList) false ([] : Dict (Value ℚ)) = .stopped := by
  decide +kernel

/-- The hypotheses of the partial theorems are met. -/
example : SwitchedOff (templateLines.getD 45 []) ∧ 45 ∈ usableLines ∧ SwitchedOff (templateLines.getD 68 []) ∧
    68 ∉ usableLines := by
  decide +kernel

end Verif.Props
