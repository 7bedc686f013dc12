import Verif.Props.BatchRun
import Verif.Props.BatchFiles
import Verif.Props.BatchCommands
import Verif.Props.Cli
import Verif.Props.JsonGrammar
import Verif.Props.Buffers

/-!
# C78, C96: where the files of the tutorial are, which options count as given
-/

set_option linter.unusedSimpArgs false
set_option linter.unusedSectionVars false

namespace Verif.Props
open Verif.Py Verif.Spec Verif.Model Verif.Model.Batch

/-- The example files of the package. -/
def exampleFiles : List Str := ["example_events.xml".toList, "example_inventory.xml".toList, "example_data.mseed".toList]

/-- **C96** The example files stand beside the configuration: in its directory, in the working directory for a name
without directory, in the root directory for a configuration there. -/
theorem C96_where (name : Str) (hx : '/' ∉ name) :
    createFiles (some name) true = ("conf.json".toList, name) :: exampleFiles.map (fun f => (f, f)) ∧
    createFiles (some ('/' :: name)) true = ("conf.json".toList, '/' :: name) :: exampleFiles.map (fun f => (f, '/' :: f)) ∧
    ∀ dir : Str, dir ≠ [] → dir.getLast? ≠ some '/' →
      createFiles (some (dir ++ '/' :: name)) true =
        ("conf.json".toList, dir ++ '/' :: name) :: exampleFiles.map (fun f => (f, dir ++ '/' :: f)) := by
  refine ⟨?_, ?_, fun dir hne hl => ?_⟩
  · have h := (C97_dirname ['a'] name hx (by decide) (by simp)).2
    simp only [createFiles, Option.getD_some, h]
    rfl
  · have h : dirname ('/' :: name) = ['/'] := by
      have h1 : (('/' :: name).reverse.dropWhile (· ≠ '/')).reverse = ['/'] := by
        have := dropWhile_slash name.reverse [] (by simpa using hx)
        simpa using this
      unfold dirname
      simp only [h1]
      rfl
    simp only [createFiles, Option.getD_some, h]
    rfl
  · have h := (C97_dirname dir name hx hl hne).1
    simp only [createFiles, Option.getD_some, h, if_true, exampleFiles, List.map, pathJoin, if_neg hne, if_neg hl]

/-- **C78** `print` without objects reads no configuration; with an empty list of objects it fails. -/
theorem C78_print_nothing {K : Type} (conf : Str) (kw : Dict (Value K))
    (hc : conf ∉ ["None".toList, "none".toList, "null".toList, []]) :
    (kw.get "objects" = none → confFile "print".toList (some conf) kw = .ok none) ∧
    (kw.get "objects" = some (.leaf (.strs [])) → confFile "print".toList (some conf) kw = .error .indexError) := by
  simp only [List.mem_cons, List.not_mem_nil, or_false] at hc
  constructor <;> intro ho <;> unfold confFile firstObject <;> simp only [ho] <;> rw [if_neg hc, if_neg (by simp)]
  rfl

/-- **C78** Options `phase` and `moveout_phase` which are missing or `null` leave the dictionaries as they are. -/
theorem C78_phase_null {K : Type} [Field K] [LinearOrder K] [FloorRing K] (loads : Str → Res (Value K)) (kw res : Dict (Value K)) (h : prepare loads kw = .ok res)
    (d : Dict (Leaf K)) :
    (Filled loads kw "options" (.obj d) → kw.get "phase" = none ∨ kw.get "phase" = some (.leaf .null) →
      ∃ d', res.get "options" = some (.obj d') ∧ ∀ key, d'.get key = d.get key) ∧
    (Filled loads kw "moveout" (.obj d) → kw.get "moveout_phase" = none ∨ kw.get "moveout_phase" = some (.leaf .null) →
      ∃ d', res.get "moveout" = some (.obj d') ∧ ∀ key, d'.get key = d.get key) := by
  obtain ⟨-, -, h2, h3, -⟩ := prepare_ok loads kw res h
  constructor
  · intro hd hp
    obtain ⟨d', e1, e2⟩ := h2 d hd
    refine ⟨d', e1, fun key => ?_⟩
    have : argOf kw "phase" = none := by unfold argOf; rcases hp with hp | hp <;> rw [hp]
    rw [e2, this]; simp
  · intro hd hp
    obtain ⟨d', e1, e2⟩ := h3 d hd
    refine ⟨d', e1, fun key => ?_⟩
    have : argOf kw "moveout_phase" = none := by unfold argOf; rcases hp with hp | hp <;> rw [hp]
    rw [e2, this]; simp

/-- **C78** Given values are used. -/
theorem C78_phase_given {K : Type} [Field K] [LinearOrder K] [FloorRing K] (loads : Str → Res (Value K)) (kw res : Dict (Value K)) (h : prepare loads kw = .ok res)
    (d : Dict (Leaf K)) (ph : Str) :
    (Filled loads kw "options" (.obj d) → kw.get "phase" = some (.leaf (.str ph)) →
      ∃ d', res.get "options" = some (.obj d') ∧ d'.get "phase" = some (.str ph)) ∧
    (Filled loads kw "moveout" (.obj d) → kw.get "moveout_phase" = some (.leaf (.str ph)) →
      ∃ d', res.get "moveout" = some (.obj d') ∧ d'.get "phase" = some (.str ph)) := by
  have := C78_phase loads kw res h d (.str ph)
  exact ⟨fun hd hp => this.1 hd (by unfold argOf; rw [hp]), fun hd hp => this.2 hd (by unfold argOf; rw [hp])⟩

example : createFiles (some "/c.json".toList) true = [("conf.json".toList, "/c.json".toList),
    ("example_events.xml".toList, "/example_events.xml".toList),
    ("example_inventory.xml".toList, "/example_inventory.xml".toList),
    ("example_data.mseed".toList, "/example_data.mseed".toList)] := by decide +kernel

/-- **C109** The command line `rf print file1 file2 …` shows the streams of all files, in the order given; no
configuration is read. -/
theorem C109_cli {K S T W : Type} [Field K] [LinearOrder K] [FloorRing K] (open_ : Str → Option Str)
    (loadConf : Str → Res (Option (Dict (Value K)))) (loads : Str → Res (Value K)) (P : Parts K S T W) (c : Cli.CmdLine) (w : W)
    (a : Cli.Parsed K) (hp : Cli.parse c = some a) (hn : c.command = some "print".toList) (o : Str) (rest : List Str)
    (ho : a.kw.get "objects" = some (.leaf (.strs (o :: rest)))) (h1 : o ≠ "events".toList) (h2 : o ≠ "stations".toList)
    (d : Dict (Value K)) (hk : prepare loads a.kw = .ok d) :
    Cli.runCli open_ loadConf loads P c w = .ran (.shown (.files (o :: rest))) := by
  have hcmd : a.command = "print".toList := by rw [parse_isCommand c a hp, hn]; rfl
  have hrun : run open_ loadConf a.command (some a.conf) a.tutorial a.kw = .call "print".toList a.kw := by
    have hcf : confFile "print".toList (some a.conf) a.kw = .ok none := by
      unfold confFile firstObject
      simp only [ho]
      split
      · rfl
      · rw [if_neg (by simp), if_neg (fun h => h.elim h2 h1)]
    unfold run
    rw [hcmd, if_neg (by decide), hcf]
  have hobj : Cli.objectsOf a.kw = some (o :: rest) := by unfold Cli.objectsOf; rw [ho]
  have hrc := C109_print_partial loads P (Cli.commandsOf a.kw) o rest a.kw d hk w
  rw [if_neg h1, if_neg h2] at hrc
  unfold Cli.runCli
  rw [hp]
  simp only
  rw [hrun]
  simp only
  rw [hobj, hrc]

/-- **C181** A configuration which is JSON but not an object ends the program with an error. -/
theorem C181_no_object {K : Type} (T : JsonText.NumText K) (open_ : Str → Option Str) (command c text : Str) (tutorial : Bool)
    (kw : Dict (Value K)) (v : JsonText.Json K) (hcr : command ≠ "create".toList)
    (hc : confFile command (some c) kw = .ok (some c)) (ht : open_ c = some text)
    (hv : JsonText.loads T (stripComments text) = some v) (ho : ∀ m, v ≠ .obj m) :
    run open_ (ConfTemplate.confLoads T) command (some c) tutorial kw = .raised .attributeError := by
  have h : ConfTemplate.confLoads T (stripComments text) = .ok none := by
    unfold ConfTemplate.confLoads
    rw [hv]
    cases v with
    | obj m => exact absurd rfl (ho m)
    | null => rfl
    | bool b => rfl
    | num x => rfl
    | const s => rfl
    | str s => rfl
    | arr l => rfl
  unfold run
  rw [if_neg hcr, hc]
  simp only
  rw [ht]
  simp only
  rw [h]

/-- **C160** The trace object made of another trace has its header and its samples, in the same array; the other trace
objects stay as they are. -/
theorem C160_wrap {K : Type} [Field K] (w : Buffers.World K) (r q : Nat) :
    (w.wrap r q).value q = w.value r ∧ ((w.wrap r q).objs q).view = (w.objs r).view ∧
      ∀ n, n ≠ q → (w.wrap r q).value n = w.value n := by
  refine ⟨?_, ?_, fun n hn => ?_⟩
  · unfold Buffers.World.value Buffers.World.wrap Buffers.World.read
    simp only [if_true]
  · unfold Buffers.World.wrap
    simp only [if_true]
  · unfold Buffers.World.value Buffers.World.wrap Buffers.World.read
    simp only [if_neg hn]

end Verif.Props
