import Verif.Props.BatchCommands
import Verif.Model.Cli
import Verif.Props.Headers

/-!
# Command line of the batch program (C123, C124)
-/

set_option linter.unusedSimpArgs false
set_option linter.unusedSectionVars false

namespace Verif.Props
open Verif.Py Verif.Model Verif.Model.Batch Verif.Model.Cli Verif.Spec

section cli
variable {K : Type}

/-- A text as value of an option. -/
abbrev textValue (s : Str) : Value K := .leaf (.str s)

/-- The value given last for an option with this destination. -/
def lastGiven (flags : List (Str × Str)) (dest : String) : Option Str :=
  (flags.reverse.find? fun p => decide ((p.1, dest) ∈ flagNames)).map Prod.snd

theorem find_flag (f : Str) (p : Str × String) (h : (flagNames.find? fun q => q.1 = f) = some p) :
    p ∈ flagNames ∧ p.1 = f :=
  ⟨List.mem_of_find?_eq_some h, by simpa using List.find?_some h⟩

theorem flagNames_fun : ∀ p ∈ flagNames, ∀ q ∈ flagNames, p.1 = q.1 → p = q := by decide +kernel

theorem parseFlags_get (flags : List (Str × Str)) (d d' : Dict (Value K)) (h : parseFlags flags d = some d') (k : String) :
    d'.get k = ((lastGiven flags k).map textValue).or (d.get k) := by
  induction flags generalizing d with
  | nil =>
    simp only [parseFlags, Option.some.injEq] at h
    subst h
    simp [lastGiven]
  | cons x rest ih =>
    obtain ⟨f, v⟩ := x
    unfold parseFlags at h
    cases hf : (flagNames.find? fun p => p.1 = f) with
    | none => rw [hf] at h; cases h
    | some p =>
      rw [hf] at h
      simp only [] at h
      rw [ih _ h]
      obtain ⟨hp1, hp2⟩ := find_flag f p hf
      unfold lastGiven
      rw [List.reverse_cons, List.find?_append]
      cases hr : rest.reverse.find? fun p => decide ((p.1, k) ∈ flagNames) with
      | some q => rfl
      | none =>
        simp only [Option.map_none, Option.none_or, Option.or_none]
        by_cases hk : k = p.2
        · subst hk
          have : (f, p.2) ∈ flagNames := by rw [← hp2]; exact hp1
          rw [Dict.get_set_self]
          simp [List.find?, this]
        · have : (f, k) ∉ flagNames := by
            intro hmem
            have := flagNames_fun _ hmem _ hp1 (by rw [hp2])
            exact hk (by rw [← this])
          rw [Dict.get_set_ne _ _ hk]
          simp [List.find?, this]

theorem parseFlags_total (flags : List (Str × Str)) (d : Dict (Value K))
    (h : ∀ p ∈ flags, ∃ dest, (p.1, dest) ∈ flagNames) : ∃ d', parseFlags flags d = some d' := by
  induction flags generalizing d with
  | nil => exact ⟨d, rfl⟩
  | cons x rest ih =>
    obtain ⟨f, v⟩ := x
    obtain ⟨dest, hd⟩ := h (f, v) (by simp)
    unfold parseFlags
    cases hf : (flagNames.find? fun p => p.1 = f) with
    | none =>
      have := List.find?_eq_none.1 hf _ hd
      simp at this
    | some p =>
      simp only []
      exact ih _ fun q hq => h q (List.mem_cons_of_mem _ hq)

theorem parseNames_get (ns : List String) (ws : List Str) (hns : ns.Nodup) (d d' : Dict (Value K))
    (h : parseNames ns ws d = some d') :
    (∀ p ∈ ns.zip ws, d'.get p.1 = some (textValue p.2)) ∧ (∀ k, k ∉ ns → d'.get k = d.get k) := by
  induction ns generalizing ws d with
  | nil =>
    cases ws with
    | nil =>
      simp only [parseNames, Option.some.injEq] at h
      subst h
      simp
    | cons w ws => simp [parseNames] at h
  | cons n ns ih =>
    cases ws with
    | nil => simp [parseNames] at h
    | cons w ws =>
      rw [List.nodup_cons] at hns
      obtain ⟨h1, h2⟩ := ih ws hns.2 _ (show parseNames ns ws _ = some d' from h)
      constructor
      · intro p hp
        rw [List.zip_cons_cons, List.mem_cons] at hp
        rcases hp with rfl | hp
        · rw [h2 _ hns.1, Dict.get_set_self]
        · exact h1 p hp
      · intro k hk
        rw [List.mem_cons, not_or] at hk
        rw [h2 k hk.2, Dict.get_set_ne _ _ hk.1]

theorem parseNames_some (ns : List String) (ws : List Str) (d : Dict (Value K)) :
    (∃ d', parseNames ns ws d = some d') ↔ ns.length = ws.length := by
  induction ns generalizing ws d with
  | nil => cases ws <;> simp [parseNames]
  | cons n ns ih => cases ws <;> simp [parseNames, ih]

theorem fixCommands_get (d : Dict (Value K)) (k : String) (hk : k ≠ "commands") : (fixCommands d).get k = d.get k := by
  unfold fixCommands
  split
  · split
    · exact Dict.get_set_ne _ _ hk
    · rfl
  · rfl

theorem fixCommands_list (d : Dict (Value K)) (given : List Str)
    (h : d.get "commands" = some (if given = [] then .leaf (.str "moveout".toList) else .leaf (.strs given))) :
    (fixCommands d).get "commands" = some (.leaf (.strs given)) := by
  unfold fixCommands
  by_cases hg : given = []
  · rw [if_pos hg] at h
    rw [h]
    simp only []
    rw [if_pos trivial, Dict.get_set_self, hg]
  · rw [if_neg hg] at h
    rw [h]
    simp only []
    exact h

/-- Words of the sub-parsers with optional commands. -/
theorem parseWords_choices (p : SubParser) (cs : List Str) (hcs : p.choices = some cs) (given rest : List Str)
    (hl : rest.length = p.names.length) (d : Dict (Value K)) :
    parseWords p (given ++ rest) d =
      if given.all (fun c => cs.contains c) then
        parseNames p.names rest
          (d.set "commands" (if given = [] then .leaf (.str "moveout".toList) else .leaf (.strs given)))
      else none := by
  have hn : (given ++ rest).length - p.names.length = given.length := by
    rw [List.length_append, hl, Nat.add_sub_cancel]
  unfold parseWords
  rw [hcs]
  simp only []
  rw [hn, List.take_left, List.drop_left]

/-- Parsing of a command line with a known command. -/
theorem parse_command (c : CmdLine) (name : Str) (p : SubParser) (hn : c.command = some name)
    (hp : (subParsers.find? fun q => q.1 = name) = some (name, p)) (ht : c.tutorial = true → p.tutorial = true)
    (d : Dict (Value K)) (hf : parseFlags c.flags [] = some d) :
    parse (K := K) c = (parseWords p c.words d).map fun d =>
      ⟨name, c.conf.getD "conf.json".toList, c.tutorial, fixCommands d⟩ := by
  unfold parse
  rw [hf]
  simp only [hn, hp]
  rw [if_neg (by rintro ⟨h1, h2⟩; rw [ht h1] at h2; cases h2)]
  cases parseWords p c.words d <;> rfl

/-- What a command line is passed on as: the command, the further commands (`none`: not passed), the arguments by name;
options have the value given last, and nothing else is passed. -/
structure PassedOn (c : CmdLine) (name : Str) (commands : Option (List Str)) (args : List (String × Str)) (a : Parsed K) :
    Prop where
  isCommand : a.command = name
  isConf : a.conf = c.conf.getD "conf.json".toList
  further : a.kw.get "commands" = commands.map fun l => .leaf (.strs l)
  named : ∀ p ∈ args, a.kw.get p.1 = some (textValue p.2)
  others : ∀ k, k ≠ "commands" → k ∉ args.map Prod.fst → a.kw.get k = (lastGiven c.flags k).map textValue

theorem lastGiven_commands (flags : List (Str × Str)) : lastGiven flags "commands" = none := by
  unfold lastGiven
  have : ∀ f : Str, (f, "commands") ∉ flagNames := by
    intro f h
    have : "commands" ∈ flagNames.map Prod.snd := List.mem_map.2 ⟨_, h, rfl⟩
    revert this
    decide
  rw [List.find?_eq_none.2 (by intro p _; simp [this p.1])]
  rfl

/-- **C123** `data` and `calc`: the words are the further commands (each one of the offered ones), then the paths. -/
theorem C123_commands (c : CmdLine) (name : Str) (choices : List Str) (names : List String) (given paths : List Str)
    (hname : (name, choices, names) ∈ [("data".toList, ["calc".toList, "moveout".toList], ["path_out"]),
      ("calc".toList, ["moveout".toList], ["path_in", "path_out"])])
    (hn : c.command = some name) (ht : c.tutorial = false) (hw : c.words = given ++ paths)
    (hl : paths.length = names.length) (hf : ∀ p ∈ c.flags, ∃ dest, (p.1, dest) ∈ flagNames) :
    ((∀ x ∈ given, x ∈ choices) → ∃ a : Parsed K, parse c = some a ∧ PassedOn c name (some given) (names.zip paths) a) ∧
    ((∃ x ∈ given, x ∉ choices) → parse (K := K) c = none) := by
  obtain ⟨d, hd⟩ := parseFlags_total (K := K) c.flags [] hf
  have key : ∃ p : SubParser, (subParsers.find? fun q => q.1 = name) = some (name, p) ∧ p.choices = some choices ∧
      p.names = names ∧ names.Nodup ∧ "commands" ∉ names := by
    simp only [List.mem_cons, List.not_mem_nil, or_false, Prod.mk.injEq] at hname
    rcases hname with ⟨rfl, rfl, rfl⟩ | ⟨rfl, rfl, rfl⟩
    · exact ⟨⟨some ["calc".toList, "moveout".toList], false, false, ["path_out"]⟩, by decide +kernel, rfl, rfl,
        by decide, by decide⟩
    · exact ⟨⟨some ["moveout".toList], false, false, ["path_in", "path_out"]⟩, by decide +kernel, rfl, rfl, by decide,
        by decide⟩
  obtain ⟨p, hp, hcs, rfl, hnd, hncmd⟩ := key
  rw [parse_command c name p hn hp (by rw [ht]; simp) d hd, hw, parseWords_choices p choices hcs given paths hl]
  constructor
  · intro hg
    rw [if_pos (by simpa [List.all_eq_true] using hg)]
    obtain ⟨d', hd'⟩ := (parseNames_some p.names paths
      (d.set "commands" (if given = [] then Value.leaf (.str "moveout".toList) else .leaf (.strs given)))).2 hl.symm
    obtain ⟨h1, h2⟩ := parseNames_get _ _ hnd _ _ hd'
    rw [hd']
    refine ⟨_, rfl, ⟨rfl, rfl, ?_, ?_, ?_⟩⟩
    · refine fixCommands_list d' given ?_
      rw [h2 _ hncmd, Dict.get_set_self]
    · intro q hq
      have hne : q.1 ≠ "commands" := by
        intro he
        exact hncmd (he ▸ (List.of_mem_zip hq).1)
      rw [fixCommands_get _ _ hne, h1 q hq]
    · intro k hk1 hk2
      have hk3 : k ∉ p.names := by
        intro hmem
        apply hk2
        rw [List.map_fst_zip (by rw [hl])]
        exact hmem
      rw [fixCommands_get _ _ hk1, h2 k hk3, Dict.get_set_ne _ _ hk1, parseFlags_get c.flags [] d hd k, Dict.get_nil,
        Option.or_none]
  · rintro ⟨x, hx, hnx⟩
    rw [if_neg]
    · rfl
    · rw [List.all_eq_true]
      intro hall
      exact hnx (by simpa using hall x hx)

/-- **C123** The other commands take exactly their paths (and the new format), nothing else. -/
theorem C123_paths (c : CmdLine) (name : Str) (names : List String)
    (hname : (name, names) ∈ [("moveout".toList, ["path_in", "path_out"]), ("stack".toList, ["path_in", "path_out"]),
      ("profile".toList, ["path_in", "path_out"]), ("plot".toList, ["path_in", "path_out"]),
      ("plot-profile".toList, ["path_in", "path_out"]), ("convert".toList, ["path_in", "path_out", "newformat"])])
    (hn : c.command = some name) (ht : c.tutorial = false) (hf : ∀ p ∈ c.flags, ∃ dest, (p.1, dest) ∈ flagNames) :
    (c.words.length = names.length → ∃ a : Parsed K, parse c = some a ∧ PassedOn c name none (names.zip c.words) a) ∧
    (c.words.length ≠ names.length → parse (K := K) c = none) := by
  obtain ⟨d, hd⟩ := parseFlags_total (K := K) c.flags [] hf
  have key : (subParsers.find? fun q => q.1 = name) = some (name, ⟨none, false, false, names⟩) ∧
      names.Nodup ∧ "commands" ∉ names := by
    simp only [List.mem_cons, List.not_mem_nil, or_false, Prod.mk.injEq] at hname
    rcases hname with ⟨rfl, rfl⟩ | ⟨rfl, rfl⟩ | ⟨rfl, rfl⟩ | ⟨rfl, rfl⟩ | ⟨rfl, rfl⟩ | ⟨rfl, rfl⟩ <;>
      exact ⟨by decide +kernel, by decide, by decide⟩
  obtain ⟨hp, hnd, hncmd⟩ := key
  rw [parse_command c name _ hn hp (by rw [ht]; simp) d hd]
  have hpw : parseWords (⟨none, false, false, names⟩ : SubParser) c.words d = parseNames names c.words d := rfl
  rw [hpw]
  have hdc : d.get "commands" = none := by
    rw [parseFlags_get c.flags [] d hd, lastGiven_commands]
    rfl
  constructor
  · intro hl
    obtain ⟨d', hd'⟩ := (parseNames_some names c.words d).2 hl.symm
    obtain ⟨h1, h2⟩ := parseNames_get _ _ hnd _ _ hd'
    rw [hd']
    have hc' : d'.get "commands" = none := by rw [h2 _ hncmd, hdc]
    have hfix : fixCommands d' = d' := by
      unfold fixCommands
      rw [hc']
    refine ⟨_, rfl, ⟨rfl, rfl, ?_, ?_, ?_⟩⟩
    · simp only [hfix]
      exact hc'
    · intro q hq
      simp only [hfix]
      exact h1 q hq
    · intro k _ hk2
      have hk3 : k ∉ names := by
        intro hmem
        apply hk2
        rw [List.map_fst_zip (by rw [hl])]
        exact hmem
      simp only [hfix]
      rw [h2 k hk3, parseFlags_get c.flags [] d hd k, Dict.get_nil, Option.or_none]
  · intro hl
    cases hpn : parseNames names c.words d with
    | none => rfl
    | some d' => exact absurd ((parseNames_some names c.words d).1 ⟨d', hpn⟩).symm hl

/-- **C123** `print` takes at least one object. -/
theorem C123_print (c : CmdLine) (hn : c.command = some "print".toList) (ht : c.tutorial = false)
    (hf : ∀ p ∈ c.flags, ∃ dest, (p.1, dest) ∈ flagNames) :
    (c.words = [] → parse (K := K) c = none) ∧
    (c.words ≠ [] → ∃ a : Parsed K, parse c = some a ∧ a.command = "print".toList ∧
      a.kw.get "objects" = some (.leaf (.strs c.words))) := by
  obtain ⟨d, hd⟩ := parseFlags_total (K := K) c.flags [] hf
  rw [parse_command c _ ⟨none, true, false, []⟩ hn (by decide +kernel) (by rw [ht]; simp) d hd]
  unfold parseWords
  simp only [if_true]
  constructor
  · intro hw
    rw [if_pos hw]
    rfl
  · intro hw
    rw [if_neg hw]
    refine ⟨_, rfl, rfl, ?_⟩
    rw [fixCommands_get _ _ (by decide), Dict.get_set_self]

/-- **C123** Unknown options and commands are rejected. -/
theorem C123_unknown (c : CmdLine) (h : (∃ p ∈ c.flags, ∀ dest, (p.1, dest) ∉ flagNames) ∨
    ∃ name, c.command = some name ∧ ∀ p, (name, p) ∉ subParsers) : parse (K := K) c = none := by
  rcases h with ⟨p, hp, hno⟩ | ⟨name, hn, hno⟩
  · have : ∀ (l : List (Str × Str)) (d : Dict (Value K)), p ∈ l → parseFlags l d = none := by
      intro l
      induction l with
      | nil => intro d h; simp at h
      | cons x rest ih =>
        intro d hm
        obtain ⟨f, v⟩ := x
        unfold parseFlags
        cases hf : (flagNames.find? fun p => p.1 = f) with
        | none => rfl
        | some q =>
          simp only []
          rw [List.mem_cons] at hm
          rcases hm with rfl | hm
          · obtain ⟨h1, h2⟩ := find_flag _ _ hf
            exact absurd (show (f, q.2) ∈ flagNames by rw [← h2]; exact h1) (hno q.2)
          · exact ih _ hm
    unfold parse
    rw [this _ _ hp]
  · unfold parse
    cases parseFlags c.flags ([] : Dict (Value K)) with
    | none => rfl
    | some d =>
      simp only [hn]
      cases hs : (subParsers.find? fun p => p.1 = name) with
      | none => rfl
      | some q =>
        have h1 := List.mem_of_find?_eq_some hs
        have h2 : q.1 = name := by simpa using List.find?_some hs
        exact absurd (show (name, q.2) ∈ subParsers by rw [← h2]; exact h1) (hno q.2)

/-- **C123** Every option of the command line is one `run_commands` knows: without a configuration file the program never
complains about unknown options. -/
theorem C123_known (c : CmdLine) (a : Parsed K) (h : parse c = some a) :
    ∀ p ∈ a.kw, p.1 ∈ namedOptions ∨ p.1 ∈ dictOptions := by
  have hset : ∀ (d : Dict (Value K)) (k : String) (v : Value K), (k ∈ namedOptions ∨ k ∈ dictOptions) →
      (∀ p ∈ d, p.1 ∈ namedOptions ∨ p.1 ∈ dictOptions) → ∀ p ∈ d.set k v, p.1 ∈ namedOptions ∨ p.1 ∈ dictOptions := by
    intro d k v hk
    induction d with
    | nil =>
      intro _ p hp
      simp only [Dict.set, List.mem_singleton] at hp
      subst hp
      exact hk
    | cons q d ih =>
      obtain ⟨k', v'⟩ := q
      intro hd p hp
      unfold Dict.set at hp
      by_cases hkk : k' = k
      · rw [if_pos hkk, List.mem_cons] at hp
        rcases hp with rfl | hp
        · rw [hkk]; exact hk
        · exact hd p (List.mem_cons_of_mem _ hp)
      · rw [if_neg hkk, List.mem_cons] at hp
        rcases hp with rfl | hp
        · exact hd _ (by simp)
        · exact ih (fun q hq => hd q (List.mem_cons_of_mem _ hq)) p hp
  have hflagdest : ∀ p ∈ flagNames, p.2 ∈ namedOptions ∨ p.2 ∈ dictOptions := by decide +kernel
  have hflags : ∀ (l : List (Str × Str)) (d d' : Dict (Value K)), parseFlags l d = some d' →
      (∀ p ∈ d, p.1 ∈ namedOptions ∨ p.1 ∈ dictOptions) → ∀ p ∈ d', p.1 ∈ namedOptions ∨ p.1 ∈ dictOptions := by
    intro l
    induction l with
    | nil =>
      intro d d' hd hall
      simp only [parseFlags, Option.some.injEq] at hd
      subst hd
      exact hall
    | cons x rest ih =>
      intro d d' hd hall
      obtain ⟨f, v⟩ := x
      unfold parseFlags at hd
      cases hf : (flagNames.find? fun p => p.1 = f) with
      | none => rw [hf] at hd; cases hd
      | some q =>
        rw [hf] at hd
        exact ih _ _ hd (hset d _ _ (hflagdest q (find_flag _ _ hf).1) hall)
  have hnames : ∀ (ns : List String) (ws : List Str) (d d' : Dict (Value K)), parseNames ns ws d = some d' →
      (∀ n ∈ ns, n ∈ namedOptions ∨ n ∈ dictOptions) →
      (∀ p ∈ d, p.1 ∈ namedOptions ∨ p.1 ∈ dictOptions) → ∀ p ∈ d', p.1 ∈ namedOptions ∨ p.1 ∈ dictOptions := by
    intro ns
    induction ns with
    | nil =>
      intro ws d d' hd _ hall
      cases ws with
      | nil =>
        simp only [parseNames, Option.some.injEq] at hd
        subst hd
        exact hall
      | cons w ws => simp [parseNames] at hd
    | cons n ns ih =>
      intro ws d d' hd hns hall
      cases ws with
      | nil => simp [parseNames] at hd
      | cons w ws =>
        exact ih ws _ d' hd (fun m hm => hns m (List.mem_cons_of_mem _ hm)) (hset d n _ (hns n (by simp)) hall)
  have hsub : ∀ p ∈ subParsers, ∀ n ∈ p.2.names, n ∈ namedOptions ∨ n ∈ dictOptions := by decide +kernel
  have hfix : ∀ d : Dict (Value K), (∀ p ∈ d, p.1 ∈ namedOptions ∨ p.1 ∈ dictOptions) →
      ∀ p ∈ fixCommands d, p.1 ∈ namedOptions ∨ p.1 ∈ dictOptions := by
    intro d hall
    unfold fixCommands
    split
    · split
      · exact hset d _ _ (.inl (by decide)) hall
      · exact hall
    · exact hall
  unfold parse at h
  cases hf : parseFlags c.flags ([] : Dict (Value K)) with
  | none => rw [hf] at h; cases h
  | some d =>
    rw [hf] at h
    have hd := hflags _ _ _ hf (by simp)
    simp only [] at h
    cases hc : c.command with
    | none =>
      rw [hc] at h
      simp only [] at h
      split at h
      · simp only [Option.some.injEq] at h
        subst h
        exact hfix d hd
      · cases h
    | some name =>
      rw [hc] at h
      simp only [] at h
      cases hs : (subParsers.find? fun p => p.1 = name) with
      | none => rw [hs] at h; cases h
      | some q =>
        rw [hs] at h
        simp only [] at h
        split at h
        · cases h
        · cases hw : parseWords q.2 c.words d with
          | none => rw [hw] at h; cases h
          | some d' =>
            rw [hw] at h
            simp only [Option.some.injEq] at h
            subst h
            refine hfix d' ?_
            unfold parseWords at hw
            cases hch : q.2.choices with
            | some cs =>
              rw [hch] at hw
              simp only [] at hw
              split at hw
              · exact hnames _ _ _ _ hw (hsub q (List.mem_of_find?_eq_some hs)) (hset d _ _ (.inl (by decide)) hd)
              · cases hw
            | none =>
              rw [hch] at hw
              simp only [] at hw
              split at hw
              · split at hw
                · cases hw
                · simp only [Option.some.injEq] at hw
                  subst hw
                  exact hset d _ _ (.inl (by decide)) hd
              · exact hnames _ _ _ _ hw (hsub q (List.mem_of_find?_eq_some hs)) hd

end cli

/-- What the examples look at. -/
def seen (c : CmdLine) : Option (Str × List Str × Option (Value ℚ)) :=
  (parse (K := ℚ) c).map fun a => (a.command, commandsOf a.kw, a.kw.get "path_out")

/-- `rf --phase S data calc moveout out`, `rf data moveout` (a directory) and `rf calc calc in out`. -/
example : seen ⟨none, [("phase".toList, "S".toList)], some "data".toList, false,
      ["calc".toList, "moveout".toList, "out".toList]⟩ =
    some ("data".toList, ["calc".toList, "moveout".toList], some (textValue "out".toList)) := by decide +kernel
example : seen ⟨none, [], some "data".toList, false, ["moveout".toList]⟩ =
    some ("data".toList, [], some (textValue "moveout".toList)) := by decide +kernel
example : seen ⟨none, [], some "calc".toList, false, ["calc".toList, "in".toList, "out".toList]⟩ = none := by
  decide +kernel
example : seen ⟨none, [], some "stack".toList, false, ["in".toList, "out".toList]⟩ =
    some ("stack".toList, [], some (textValue "out".toList)) := by decide +kernel

/-! ### C123: what reaches `run_commands` -/

theorem parseFlags_nodup (flags : List (Str × Str)) (d d' : Dict (Value K)) (hd : d.NodupKeys) (h : parseFlags flags d = some d') :
    d'.NodupKeys := by
  induction flags generalizing d with
  | nil => simp only [parseFlags, Option.some.injEq] at h; exact h ▸ hd
  | cons p rest ih =>
    obtain ⟨f, v⟩ := p
    unfold parseFlags at h
    split at h
    · cases h
    · exact ih _ (set_nodupKeys _ _ _ hd) h

theorem parseNames_nodup (ns : List String) (ws : List Str) (d d' : Dict (Value K)) (hd : d.NodupKeys) (h : parseNames ns ws d = some d') :
    d'.NodupKeys := by
  induction ns generalizing ws d with
  | nil =>
    cases ws with
    | nil => simp only [parseNames, Option.some.injEq] at h; exact h ▸ hd
    | cons w ws => simp only [parseNames, reduceCtorEq] at h
  | cons n ns ih =>
    cases ws with
    | nil => simp only [parseNames, reduceCtorEq] at h
    | cons w ws => exact ih ws _ (set_nodupKeys _ _ _ hd) h

theorem fixCommands_nodup (d : Dict (Value K)) (hd : d.NodupKeys) : (fixCommands d).NodupKeys := by
  unfold fixCommands
  split
  · split
    · exact set_nodupKeys _ _ _ hd
    · exact hd
  · exact hd

theorem parse_nodup (c : CmdLine) (a : Parsed K) (h : parse c = some a) : a.kw.NodupKeys := by
  unfold parse at h
  split at h
  · cases h
  · next d hd =>
    have hd' := parseFlags_nodup c.flags [] d (by simp [Dict.NodupKeys, Dict.keys]) hd
    simp only [] at h
    split at h
    · split at h
      · simp only [Option.some.injEq] at h
        rw [← h]
        exact fixCommands_nodup _ hd'
      · cases h
    · split at h
      · cases h
      · split at h
        · cases h
        · split at h
          · cases h
          · next d2 hd2 =>
            simp only [Option.some.injEq] at h
            rw [← h]
            apply fixCommands_nodup
            unfold parseWords at hd2
            split at hd2
            · simp only [] at hd2
              split at hd2
              · exact parseNames_nodup _ _ _ _ (set_nodupKeys _ _ _ hd') hd2
              · cases hd2
            · split at hd2
              · split at hd2
                · cases hd2
                · simp only [Option.some.injEq] at hd2
                  rw [← hd2]
                  exact set_nodupKeys _ _ _ hd'
              · exact parseNames_nodup _ _ _ _ hd' hd2

theorem parse_isCommand (c : CmdLine) (a : Parsed K) (h : parse c = some a) : a.command = c.command.getD [] := by
  unfold parse at h
  split at h
  · cases h
  · simp only [] at h
    split at h
    · next hc =>
      split at h
      · simp only [Option.some.injEq] at h; rw [← h, hc]; rfl
      · cases h
    · next name hc =>
      split at h
      · cases h
      · split at h
        · cases h
        · split at h
          · cases h
          · simp only [Option.some.injEq] at h; rw [← h, hc]; rfl

/-- What the program does after `run_commands`: a `ParseError` becomes a usage message. -/
def reported {W : Type} : CommandResult W → Outcome W
  | .raised .parseError => .usage
  | r => .ran r

/-- **C123** The program calls `run_commands` with the command, the further commands and the options of the command line; entries
of the configuration file are used for what the command line does not give. -/
theorem C123_run {S T W : Type} [Field K] [LinearOrder K] [FloorRing K] (open_ : Str → Option Str)
    (loadConf : Str → Res (Option (Dict (Value K)))) (loads : Str → Res (Value K)) (P : Parts K S T W) (c : CmdLine) (w : W)
    (a : Parsed K) (hp : parse c = some a) (name : Str) (hn : c.command = some name) (h1 : name ≠ "create".toList)
    (h2 : name ≠ "print".toList) :
    let noConf := a.conf ∈ ["None".toList, "none".toList, "null".toList, []]
    (noConf → runCli open_ loadConf loads P c w = reported (runCommands loads P name (commandsOf a.kw) (objectsOf a.kw) a.kw w)) ∧
    (¬ noConf → open_ a.conf = none → runCli open_ loadConf loads P c w = .stopped) ∧
    (¬ noConf → ∀ text d given, open_ a.conf = some text → loadConf (stripComments text) = .ok (some d) →
      a.kw.get "commands" = some (.leaf (.strs given)) →
      ∃ kw : Dict (Value K), (∀ k, kw.get k = (a.kw.get k).or (d.get k)) ∧
        runCli open_ loadConf loads P c w = reported (runCommands loads P name given (objectsOf kw) kw w)) := by
  have hcmd : a.command = name := by rw [parse_isCommand c a hp, hn]; rfl
  intro noConf
  have hno : noConf ↔ (a.conf = "None".toList ∨ a.conf = "none".toList ∨ a.conf = "null".toList ∨ a.conf = []) := by
    show a.conf ∈ _ ↔ _
    simp only [List.mem_cons, List.not_mem_nil, or_false]
  have hrep : ∀ r : CommandResult W, (match r with | .raised .parseError => Outcome.usage | r => .ran r) = reported r := by
    intro r
    unfold reported
    split <;> rfl
  have hrun : ∀ kw : Dict (Value K), run open_ loadConf a.command (some a.conf) a.tutorial a.kw = .call name kw →
      runCli open_ loadConf loads P c w = reported (runCommands loads P name (commandsOf kw) (objectsOf kw) kw w) := by
    intro kw hr
    unfold runCli
    rw [hp]
    simp only []
    rw [hr]
    simp only []
    generalize runCommands loads P name (commandsOf kw) (objectsOf kw) kw w = r
    exact hrep r
  refine ⟨?_, ?_, ?_⟩
  · intro h
    apply hrun
    unfold run confFile
    rw [hcmd, if_neg h1]
    simp only []
    rw [if_pos (hno.mp h)]
  · intro h ho
    unfold runCli run confFile
    rw [hp]
    simp only []
    rw [hcmd, if_neg h1, if_neg (fun hf => h (hno.mpr hf)), if_pos h2]
    simp only []
    rw [ho]
  · intro h text d given ho hl hg
    have hget : ∀ k, Dict.get (d.update a.kw) k = (a.kw.get k).or (d.get k) := by
      intro k
      rw [Dict.get_update, Dict.get_reverse _ (parse_nodup c a hp)]
    refine ⟨d.update a.kw, hget, ?_⟩
    have hc : commandsOf (d.update a.kw) = given := by
      unfold commandsOf
      rw [hget, hg]
      rfl
    rw [hrun (d.update a.kw), hc]
    unfold run confFile
    rw [hcmd, if_neg h1]
    simp only []
    rw [if_neg (fun hf => h (hno.mpr hf)), if_pos h2]
    simp only []
    rw [ho]
    simp only []
    rw [hl]

example : ∃ a : Parsed ℚ, parse ⟨none, [], some "data".toList, false, ["calc".toList, "out".toList]⟩ = some a ∧
    a.conf ∉ ["None".toList, "none".toList, "null".toList, []] ∧ a.kw.get "commands" = some (.leaf (.strs ["calc".toList])) := by
  refine ⟨_, rfl, ?_, ?_⟩ <;> decide +kernel

/-! ## C124: calls without a command -/

section nocommand
variable {K S T W : Type} [Field K] [LinearOrder K] [FloorRing K]

theorem processLoop_unknown (O : Ops K S W) (kw : Dict (Value K)) (commands : List Str) (err : Option PyErr) (w : W)
    (ss : List S) :
    processLoop O kw ([] :: commands) err w ss = (w, if ss = [] then err else some .notImplemented) := by
  cases ss with
  | nil => rfl
  | cons s ss =>
    unfold processLoop applyCommands
    rw [List.foldlM_cons]
    have : applyCommand O kw s [] = .error .notImplemented := by
      unfold applyCommand
      rw [if_neg (by decide), if_neg (by decide), if_neg (by decide)]
    rw [this]
    rfl

theorem dispatch_none (P : Parts K S T W) (commands : List Str) (kw : Dict (Value K)) (w : W) :
    dispatch P [] commands kw w = (w, if (P.streams (.processed false)).1 = [] then (P.streams (.processed false)).2
      else some .notImplemented) := by
  unfold dispatch
  simp only []
  rw [if_neg (by decide), if_neg (by decide), if_neg (by decide), if_neg (by decide), if_neg (by decide),
    processLoop_unknown]
  have : sourceOf [] = .processed false := by decide
  rw [this]

/-- **C124** (what holds) A call without a command writes nothing, whatever the configuration and the files are; if any
processed data are found, it ends with an exception. -/
theorem C124_no_command_partial (open_ : Str → Option Str) (loadConf : Str → Res (Option (Dict (Value K))))
    (loads : Str → Res (Value K)) (P : Parts K S T W) (c : CmdLine) (hc : c.command = none) (w w' : W) (err : Option PyErr)
    (h : runCli open_ loadConf loads P c w = .ran (.ran w' err)) :
    w' = w ∧ ((P.streams (.processed false)).1 ≠ [] → err = some .notImplemented) := by
  unfold runCli at h
  cases hp : parse (K := K) c with
  | none => rw [hp] at h; cases h
  | some a =>
    rw [hp] at h
    have ha : a.command = [] := by
      unfold parse at hp
      cases hf : parseFlags c.flags ([] : Dict (Value K)) with
      | none => rw [hf] at hp; cases hp
      | some d =>
        rw [hf, hc] at hp
        simp only [] at hp
        split at hp
        · simp only [Option.some.injEq] at hp
          rw [← hp]
        · cases hp
    simp only [ha] at h
    cases hr : run open_ loadConf [] (some a.conf) a.tutorial a.kw with
    | copied fs => rw [hr] at h; cases h
    | stopped => rw [hr] at h; cases h
    | raised e => rw [hr] at h; cases e <;> cases h
    | call command kw =>
      rw [hr] at h
      have hcmd : command = [] := by
        unfold run at hr
        rw [if_neg (by decide)] at hr
        split at hr
        · cases hr
        · cases hr; rfl
        · split at hr
          · cases hr
          · split at hr
            · cases hr
            · cases hr
            · cases hr
            · cases hr; rfl
      subst hcmd
      simp only [] at h
      have hrc : ∀ r, runCommands loads P [] (commandsOf kw) (objectsOf kw) kw w = r →
          (∀ w1 e1, r = .ran w1 e1 → ∃ d : Dict (Value K), (w1, e1) = dispatch P [] (commandsOf kw) d w) := by
        intro r hr w1 e1 h1
        rw [h1] at hr
        unfold runCommands at hr
        split at hr
        · cases hr
        · rename_i d _
          split at hr
          · cases hr
          · split at hr
            · cases hr
            · split at hr
              · cases hr
              · split at hr
                · cases hr
                · split at hr
                  · cases hr
                  · rw [if_neg (by decide)] at hr
                    refine ⟨d, ?_⟩
                    simp only [CommandResult.ran.injEq] at hr
                    exact (Prod.ext hr.1 hr.2).symm
      cases hrr : runCommands loads P [] (commandsOf kw) (objectsOf kw) kw w with
      | raised e => rw [hrr] at h; cases e <;> cases h
      | message => rw [hrr] at h; cases h
      | shown p => rw [hrr] at h; cases h
      | ran w1 e1 =>
        rw [hrr] at h
        simp only [Outcome.ran.injEq, CommandResult.ran.injEq] at h
        obtain ⟨rfl, rfl⟩ := h
        obtain ⟨d, hd⟩ := hrc _ hrr w1 e1 rfl
        rw [dispatch_none] at hd
        simp only [Prod.mk.injEq] at hd
        refine ⟨hd.1, fun hne => ?_⟩
        rw [hd.2, if_neg hne]

end nocommand

/-- An installation with readable events and stations and the given processed data; commands write their number. -/
def tinyParts (data : List Nat) : Parts ℚ Nat Nat (List Nat) where
  readEvents := .ok ()
  readInventory := .ok ()
  initData := .ok ()
  streams _ := (data, none)
  traces := ([], none)
  ops := ⟨fun _ s => .ok s, fun _ s => .ok s, fun s w => (w ++ [s], none)⟩
  convert s w := (w ++ [s], none)
  plot _ s w := (w ++ [s], none)
  plotProfile _ s w := (w ++ [s], none)
  stack s := .ok s
  writeStack s w := (w ++ [s], none)
  profile _ _ _ := .ok 0
  writeProfile s w := (w ++ [s], none)

/-- Outcome: `none` for a message of argparse, otherwise what was written and the exception. -/
def outcome (c : CmdLine) (data : List Nat) : Option (List Nat × Option PyErr) :=
  match runCli (fun _ => some []) (fun _ => .ok (some [])) (fun _ => .error .valueError) (tinyParts data) c [] with
  | .ran (.ran w e) => some (w, e)
  | _ => none

/-- **C124** is false: `rf` without anything reads the configuration, events and stations, and ends without a message; with
processed data in the way it ends with `NotImplementedError`.  An unknown command is rejected. -/
theorem C124_counterexample :
    outcome ⟨none, [], none, false, []⟩ [] = some ([], none) ∧
    outcome ⟨none, [], none, false, []⟩ [1, 2] = some ([], some .notImplemented) ∧
    outcome ⟨none, [], some "stak".toList, false, ["a".toList, "b".toList]⟩ [1, 2] = none ∧
    outcome ⟨none, [], some "stack".toList, false, ["a".toList, "b".toList]⟩ [1, 2] = some ([1, 2], none) := by
  refine ⟨?_, ?_, ?_, ?_⟩ <;> decide +kernel

end Verif.Props
