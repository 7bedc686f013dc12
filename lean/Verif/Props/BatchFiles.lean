import Verif.Props.BatchNames

/-!
# Writing files in the batch program (C82, C97)
-/

set_option linter.unusedSimpArgs false
set_option linter.unusedSectionVars false

namespace Verif.Props
open Verif.Py Verif.Model.Batch Verif.Spec

section write
variable (wr : Str → Format → List Nat → Option PyErr) (h : Nat → Fields)

/-- **C82** Nothing is written for an empty stream, whatever the format. -/
theorem C82_empty (fs : FS) (root format : Str) (kind : Kind) : write wr h fs [] root format kind = (fs, none) := rfl

theorem writeFile_cases (fs : FS) (w : Written) :
    (∃ e, writeFile wr fs w = (fs, some e)) ∨ writeFile wr fs w = ({ fs with writes := fs.writes ++ [w] }, none) := by
  unfold writeFile
  split
  · exact .inl ⟨_, rfl⟩
  · split
    · exact .inl ⟨_, rfl⟩
    · exact .inr rfl

/-- The loop writes the traces in order, each to its own name, up to the first failure. -/
theorem writeSac_spec (root : Str) (pat : List Piece) (fs : FS) (s : List Nat) :
    ∃ (done : List Nat) (ws : List Written), done <+: s ∧ (writeSac wr h root pat fs s).1.dirs = fs.dirs ∧
      (writeSac wr h root pat fs s).1.writes = fs.writes ++ ws ∧ ws.map Written.traces = done.map (fun r => [r]) ∧
      (∀ w ∈ ws, w.format = .sac ∧ ∃ r ∈ done, w.traces = [r] ∧ fmtPattern root (h r) pat = .ok w.file) ∧
      ((writeSac wr h root pat fs s).2 = none → done = s) := by
  induction s generalizing fs with
  | nil =>
    refine ⟨[], [], List.nil_prefix, rfl, ?_, rfl, by simp, fun _ => rfl⟩
    simp [writeSac]
  | cons r s ih =>
    unfold writeSac
    cases hp : fmtPattern root (h r) pat with
    | error e => exact ⟨[], [], List.nil_prefix, rfl, by simp, rfl, by simp, fun hn => by cases hn⟩
    | ok fname =>
      simp only []
      rcases writeFile_cases wr fs ⟨fname, .sac, [r]⟩ with ⟨e, he⟩ | he
      · rw [he]
        exact ⟨[], [], List.nil_prefix, rfl, by simp, rfl, by simp, fun hn => by cases hn⟩
      · rw [he]
        simp only []
        obtain ⟨done, ws, h1, h2, h3, h4, h5, h6⟩ := ih { fs with writes := fs.writes ++ [⟨fname, .sac, [r]⟩] }
        refine ⟨r :: done, ⟨fname, .sac, [r]⟩ :: ws, ?_, h2, ?_, ?_, ?_, ?_⟩
        · exact List.cons_prefix_cons.2 ⟨rfl, h1⟩
        · rw [h3]; simp
        · simp [h4]
        · intro w hw
          rcases List.mem_cons.1 hw with rfl | hw
          · exact ⟨rfl, r, by simp, rfl, hp⟩
          · obtain ⟨h7, r', h8, h9, h10⟩ := h5 w hw
            exact ⟨h7, r', List.mem_cons_of_mem _ h8, h9, h10⟩
        · intro hn
          rw [h6 hn]

theorem createDir_writes (fs : FS) (f : Str) : (createDir fs f).writes = fs.writes := by
  unfold createDir
  simp only []
  split <;> rfl

/-- **C82** SAC: on success every trace of the stream is written exactly once, in order, to the file named after it. -/
theorem C82_sac (fs fs' : FS) (stream : List Nat) (root format : Str) (kind : Kind)
    (hf : upper format = "SAC".toList) (hw : write wr h fs stream root format kind = (fs', none)) :
    ∃ ws : List Written, fs'.writes = fs.writes ++ ws ∧ ws.map Written.traces = stream.map (fun r => [r]) ∧
      ∀ w ∈ ws, w.format = .sac ∧
        ∃ r ∈ stream, w.traces = [r] ∧ fmtPattern root (h r) (patterns kind .sac) = .ok w.file := by
  unfold write at hw
  cases stream with
  | nil =>
    simp only [Prod.mk.injEq, and_true] at hw
    exact ⟨[], by rw [hw]; simp, rfl, by simp⟩
  | cons r s =>
    rw [hf, show formatKey "SAC".toList = some .sac by decide] at hw
    simp only [] at hw
    cases hp : fmtPattern root (h r) (patterns kind .sac) with
    | error e => rw [hp] at hw; cases hw
    | ok fname =>
      rw [hp] at hw
      simp only [] at hw
      obtain ⟨done, ws, h1, h2, h3, h4, h5, h6⟩ := writeSac_spec wr h root (patterns kind .sac)
        (createDir fs fname) (r :: s)
      rw [hw] at h3 h6
      have hd := h6 rfl
      rw [hd] at h4 h5
      exact ⟨ws, by rw [h3, createDir_writes], h4, h5⟩

/-- **C82** Q and H5: the stream as a whole is written once, to the file named after its first trace. -/
theorem C82_single (fs fs' : FS) (r : Nat) (s : List Nat) (root format : Str) (kind : Kind) (f : Format)
    (hf : formatKey (upper format) = some f) (hs : f ≠ .sac)
    (hw : write wr h fs (r :: s) root format kind = (fs', none)) :
    ∃ fname, fmtPattern root (h r) (patterns kind f) = .ok fname ∧
      fs'.writes = fs.writes ++ [⟨fname, f, r :: s⟩] := by
  unfold write at hw
  rw [hf] at hw
  simp only [] at hw
  cases hp : fmtPattern root (h r) (patterns kind f) with
  | error e => rw [hp] at hw; cases hw
  | ok fname =>
    rw [hp] at hw
    refine ⟨fname, rfl, ?_⟩
    cases f with
    | sac => exact absurd rfl hs
    | h5 =>
      simp only [] at hw
      rcases writeFile_cases wr (createDir fs fname) ⟨fname, .h5, r :: s⟩ with ⟨e, he⟩ | he
      · rw [he] at hw; cases hw
      · rw [he] at hw
        cases hw
        simp [createDir_writes]
    | q =>
      simp only [] at hw
      rcases writeFile_cases wr (createDir fs fname) ⟨fname, .q, r :: s⟩ with ⟨e, he⟩ | he
      · rw [he] at hw; cases hw
      · rw [he] at hw
        cases hw
        simp [createDir_writes]

/-- **C82** A format without file name pattern raises `KeyError` before anything is written. -/
theorem C82_unknown (fs : FS) (r : Nat) (s : List Nat) (root format : Str) (kind : Kind)
    (hf : upper format ≠ "Q".toList ∧ upper format ≠ "SAC".toList ∧ upper format ≠ "H5".toList) :
    write wr h fs (r :: s) root format kind = (fs, some .keyError) := by
  have : formatKey (upper format) = none := by
    unfold formatKey
    rw [if_neg hf.1, if_neg hf.2.1, if_neg hf.2.2]
  unfold write
  rw [this]

/-- **C82** Written files are never removed or changed by later writes. -/
theorem C82_keeps (fs : FS) (stream : List Nat) (root format : Str) (kind : Kind) :
    fs.writes <+: (write wr h fs stream root format kind).1.writes := by
  unfold write
  cases stream with
  | nil => exact List.prefix_refl _
  | cons r s =>
    simp only []
    cases hk : formatKey (upper format) with
    | none => exact List.prefix_refl _
    | some f =>
      simp only []
      cases hp : fmtPattern root (h r) (patterns kind f) with
      | error e => exact List.prefix_refl _
      | ok fname =>
        simp only []
        cases f with
        | sac =>
          obtain ⟨done, ws, h1, h2, h3, h4, h5, h6⟩ := writeSac_spec wr h root (patterns kind .sac)
            (createDir fs fname) (r :: s)
          simp only []
          rw [h3, createDir_writes]
          exact List.prefix_append _ _
        | h5 =>
          rcases writeFile_cases wr (createDir fs fname) ⟨fname, .h5, r :: s⟩ with ⟨e, he⟩ | he
          · simp only []; rw [he, createDir_writes]; exact List.prefix_refl _
          · simp only []; rw [he]; simp [createDir_writes]
        | q =>
          rcases writeFile_cases wr (createDir fs fname) ⟨fname, .q, r :: s⟩ with ⟨e, he⟩ | he
          · simp only []; rw [he, createDir_writes]; exact List.prefix_refl _
          · simp only []; rw [he]; simp [createDir_writes]

/-! ## C97: directories -/

theorem dropWhile_slash (x p : Str) (hx : '/' ∉ x) :
    (x ++ '/' :: p).dropWhile (fun c => decide (c ≠ '/')) = '/' :: p := by
  induction x with
  | nil => simp
  | cons c x ih =>
    simp only [List.mem_cons, not_or] at hx
    rw [List.cons_append, List.dropWhile_cons_of_pos (by simpa using Ne.symm hx.1), ih hx.2]

/-- The directory depends on the part before the last slash only. -/
theorem dirname_append (p x y : Str) (hx : '/' ∉ x) (hy : '/' ∉ y) :
    dirname (p ++ '/' :: x) = dirname (p ++ '/' :: y) := by
  have hh : ∀ x : Str, '/' ∉ x → ((p ++ '/' :: x).reverse.dropWhile (fun c => decide (c ≠ '/'))) = '/' :: p.reverse := by
    intro x hx
    have : (p ++ '/' :: x).reverse = x.reverse ++ '/' :: p.reverse := by simp
    rw [this]
    exact dropWhile_slash _ _ (by simpa using hx)
  unfold dirname
  simp only []
  rw [hh x hx, hh y hy]

theorem createDir_dirs (fs : FS) (f : Str) : dirname f = [] ∨ (createDir fs f).dirs (dirname f) = true := by
  by_cases h1 : dirname f = []
  · exact .inl h1
  · right
    unfold createDir
    simp only []
    by_cases h2 : fs.dirs (dirname f) = false
    · rw [if_pos ⟨h1, h2⟩]
      simp
    · rw [if_neg (fun hh => h2 hh.2)]
      simpa using h2

/-- If all file names are in the directory of the first one, the loop does not miss a directory. -/
theorem writeSac_ok (root : Str) (pat : List Piece) (d : Str) (fs : FS) (hd : d = [] ∨ fs.dirs d = true)
    (s : List Nat) (hs : ∀ r ∈ s, ∃ f, fmtPattern root (h r) pat = .ok f ∧ dirname f = d ∧ wr f .sac [r] = none) :
    (writeSac wr h root pat fs s).2 = none := by
  induction s generalizing fs with
  | nil => rfl
  | cons r s ih =>
    obtain ⟨f, h1, h2, h3⟩ := hs r (by simp)
    unfold writeSac
    simp only [h1]
    have : writeFile wr fs ⟨f, .sac, [r]⟩ = ({ fs with writes := fs.writes ++ [⟨f, .sac, [r]⟩] }, none) := by
      unfold writeFile
      rw [if_neg]
      · simp only [h3]
      · rintro ⟨h4, h5⟩
        simp only [h2] at h4 h5
        rcases hd with hd | hd
        · exact h4 hd
        · rw [hd] at h5; cases h5
    rw [this]
    exact ih _ hd (fun r' hr' => hs r' (List.mem_cons_of_mem _ hr'))

theorem writeFile_ok (fs : FS) (w : Written) (hd : dirname w.file = [] ∨ fs.dirs (dirname w.file) = true)
    (hw : wr w.file w.format w.traces = none) : (writeFile wr fs w).2 = none := by
  unfold writeFile
  rw [if_neg]
  · rw [hw]
  · rintro ⟨h1, h2⟩
    rcases hd with hd | hd
    · exact h1 hd
    · rw [hd] at h2; cases h2

/-- **C97** Q and H5 files, and SAC files of stacks and profiles, are always written to an existing directory: if
writing itself does not fail, `write` succeeds.  The same holds for SAC files of streams from a single network, station
and location. -/
theorem C97_directory_partial (hwr : ∀ f fm l, wr f fm l = none) (fs : FS) (stream : List Nat) (root format : Str)
    (kind : Kind) (f : Format) (hf : formatKey (upper format) = some f)
    (hn : ∀ r ∈ stream, ∃ n, fmtPattern root (h r) (patterns kind f) = .ok n)
    (hc : ∀ r ∈ stream, Fields.Clean (h r) ∧ ∀ x, (h r).boxPos = some x → '/' ∉ x)
    (hid : kind = .plain → f = .sac → ∀ r ∈ stream, ∀ r' ∈ stream, (h r).network = (h r').network ∧
      (h r).station = (h r').station ∧ (h r).location = (h r').location)
    (htime : ∀ r ∈ stream, (h r).eventTime ≠ some .dummy) :
    (write wr h fs stream root format kind).2 = none := by
  unfold write
  cases stream with
  | nil => rfl
  | cons r s =>
    simp only [hf]
    obtain ⟨n, hn0⟩ := hn r (by simp)
    simp only [hn0]
    have hdir := createDir_dirs fs n
    cases f with
    | h5 => exact writeFile_ok wr _ _ hdir (hwr _ _ _)
    | q => exact writeFile_ok wr _ _ hdir (hwr _ _ _)
    | sac =>
      simp only []
      refine writeSac_ok wr h root _ (dirname n) _ hdir _ ?_
      intro r' hr'
      obtain ⟨n', hn'⟩ := hn r' hr'
      refine ⟨n', hn', ?_, hwr _ _ _⟩
      have hslash : ∀ q : Fields, Fields.Clean q → '/' ∉ idText q := by
        intro q hq
        unfold idText
        simp only [List.mem_append, List.mem_cons, not_or]
        exact ⟨hq.1.2.1, by decide, hq.2.1.2.1, by decide, hq.2.2.1.2.1⟩
      cases kind with
      | plain =>
        have form : ∀ r1 ∈ r :: s, ∀ n, fmtPattern root (h r1) (fnames .sac) = .ok n →
            ∃ x, '/' ∉ x ∧ n = (root ++ '/' :: idText (h r1)) ++ '/' :: x := by
          intro r1 hr1 n1 hn1
          cases ht : (h r1).eventTime with
          | none => simp [fmtPattern, fnames, idPieces, fmtPiece, ht] at hn1
          | some tf =>
            cases tf with
            | dummy => exact absurd ht (htime r1 hr1)
            | time t =>
              rw [sac_name root _ t ht] at hn1
              cases hn1
              refine ⟨idText (h r1) ++ '.' :: ((h r1).channel ++ '_' :: (timeText t ++ ".SAC".toList)), ?_, by simp⟩
              simp only [List.mem_append, List.mem_cons, not_or]
              exact ⟨hslash _ (hc r1 hr1).1, by decide, (hc r1 hr1).1.2.2.2.2.1, by decide,
                timeText_not_mem t _ (by decide), by decide⟩
        obtain ⟨x, hx, rfl⟩ := form r (by simp) n hn0
        obtain ⟨x', hx', rfl⟩ := form r' hr' n' hn'
        obtain ⟨e1, e2, e3⟩ := hid rfl rfl r' hr' r (by simp)
        have : idText (h r') = idText (h r) := by unfold idText; rw [e1, e2, e3]
        rw [this]
        exact dirname_append _ _ _ hx' hx
      | stack =>
        have form : ∀ r1 ∈ r :: s, ∀ n, fmtPattern root (h r1) (stackFnames .sac) = .ok n →
            ∃ x, '/' ∉ x ∧ n = root ++ '/' :: x := by
          intro r1 hr1 n1 hn1
          have : fmtPattern root (h r1) (stackFnames .sac) = .ok (root ++ '/' :: (idText (h r1) ++ '.' ::
              ((h r1).channel ++ ".SAC".toList))) := by
            simp [fmtPattern, stackFnames, idPieces, fmtPiece, idText]
          rw [this] at hn1
          cases hn1
          refine ⟨_, ?_, rfl⟩
          simp only [List.mem_append, List.mem_cons, not_or]
          exact ⟨hslash _ (hc r1 hr1).1, by decide, (hc r1 hr1).1.2.2.2.2.1, by decide⟩
        obtain ⟨x, hx, rfl⟩ := form r (by simp) n hn0
        obtain ⟨x', hx', rfl⟩ := form r' hr' n' hn'
        exact dirname_append _ _ _ hx' hx
      | profile =>
        have form : ∀ r1 ∈ r :: s, ∀ n, fmtPattern root (h r1) (profileFnames .sac) = .ok n →
            ∃ x, '/' ∉ x ∧ n = root ++ '/' :: x := by
          intro r1 hr1 n1 hn1
          simp only [fmtPattern, profileFnames, fmtPiece] at hn1
          cases h2 : (h r1).channel[2]? with
          | none => rw [h2] at hn1; cases hn1
          | some c =>
            rw [h2] at hn1
            cases h3 : (h r1).boxPos with
            | none => rw [h3] at hn1; cases hn1
            | some x =>
              rw [h3] at hn1
              simp only [Except.ok.injEq] at hn1
              refine ⟨"profile_".toList ++ (c :: ('_' :: (x ++ ".SAC".toList))), ?_, ?_⟩
              · have hc1 : c ∈ (h r1).channel := List.mem_of_getElem? h2
                have hc2 : c ≠ '/' := fun e => (hc r1 hr1).1.2.2.2.2.1 (e ▸ hc1)
                have hc3 := (hc r1 hr1).2 x h3
                simp only [List.mem_append, List.mem_cons, not_or]
                exact ⟨by decide, Ne.symm hc2, by decide, hc3, by decide⟩
              · rw [← hn1]; simp
        obtain ⟨x, hx, rfl⟩ := form r (by simp) n hn0
        obtain ⟨x', hx', rfl⟩ := form r' hr' n' hn'
        exact dirname_append _ _ _ hx' hx

/-- A file system in which every directory lies in a directory. -/
def ParentsExist (dirs : Str → Bool) : Prop := ∀ d rest, dirs (d ++ '/' :: rest) = true → dirs d = true

theorem createDir_parents (fs : FS) (f : Str) (hp : ParentsExist fs.dirs) : ParentsExist (createDir fs f).dirs := by
  unfold createDir
  simp only []
  split
  · intro d rest hd
    simp only [Bool.or_eq_true, decide_eq_true_eq] at hd ⊢
    rcases hd with (hd | hd) | hd
    · exact Or.inl (Or.inl (hp d rest hd))
    · right
      rw [List.isPrefixOf_iff_prefix, ← hd]
      exact ⟨rest, by simp⟩
    · right
      rw [List.isPrefixOf_iff_prefix] at hd ⊢
      obtain ⟨x, hx⟩ := hd
      exact ⟨rest ++ '/' :: x, by rw [← hx]; simp⟩
  · exact hp

/-- **C97** With a directory all directories above are created; existing directories stay. -/
theorem C97_parents (fs : FS) (stream : List Nat) (root format : Str) (kind : Kind) (hp : ParentsExist fs.dirs) :
    ParentsExist (write wr h fs stream root format kind).1.dirs ∧
    ∀ d, fs.dirs d = true → (write wr h fs stream root format kind).1.dirs d = true := by
  have hkeep : ∀ (fs : FS) (f : Str) d, fs.dirs d = true → (createDir fs f).dirs d = true := by
    intro fs f d hd
    unfold createDir
    simp only []
    split
    · simp [hd]
    · exact hd
  have hwf : ∀ (fs : FS) (w : Written), (writeFile wr fs w).1.dirs = fs.dirs := by
    intro fs w
    rcases writeFile_cases wr fs w with ⟨e, he⟩ | he <;> rw [he]
  unfold write
  cases stream with
  | nil => exact ⟨hp, fun d hd => hd⟩
  | cons r s =>
    simp only []
    split
    · exact ⟨hp, fun d hd => hd⟩
    · rename_i f hf
      split
      · exact ⟨hp, fun d hd => hd⟩
      · rename_i fname hfn
        cases f with
        | h5 =>
          simp only [hwf]
          exact ⟨createDir_parents fs fname hp, hkeep fs fname⟩
        | q =>
          simp only [hwf]
          exact ⟨createDir_parents fs fname hp, hkeep fs fname⟩
        | sac =>
          obtain ⟨done, ws, -, hd, -⟩ := writeSac_spec wr h root (patterns kind .sac) (createDir fs fname) (r :: s)
          simp only [hd]
          exact ⟨createDir_parents fs fname hp, hkeep fs fname⟩

/-- The directory of a path is what stands before its last slash. -/
theorem C97_dirname (p x : Str) (hx : '/' ∉ x) (hp : p.getLast? ≠ some '/') (hne : p ≠ []) :
    dirname (p ++ '/' :: x) = p ∧ dirname x = [] := by
  have hlast : ∃ q c, p = q ++ [c] ∧ c ≠ '/' := by
    refine ⟨p.dropLast, p.getLast hne, (List.dropLast_concat_getLast hne).symm, ?_⟩
    intro hc
    exact hp (by rw [List.getLast?_eq_some_getLast hne, hc])
  obtain ⟨q, c, rfl, hc⟩ := hlast
  constructor
  · unfold dirname
    simp only []
    have h1 : ((q ++ [c] ++ '/' :: x).reverse.dropWhile (· ≠ '/')).reverse = q ++ [c] ++ ['/'] := by
      have := dropWhile_slash x.reverse (q ++ [c]).reverse (by simpa using hx)
      simpa using this
    rw [h1]
    rw [if_neg]
    · unfold rstripSlash
      simp [hc]
    · simp [hc]
  · unfold dirname
    have h2 : (x.reverse.dropWhile (· ≠ '/')) = [] := by
      have hall : ∀ l : Str, '/' ∉ l → l.dropWhile (· ≠ '/') = [] := by
        intro l
        induction l with
        | nil => intro _; rfl
        | cons a l ih =>
          intro hl
          simp only [List.mem_cons, not_or] at hl
          rw [List.dropWhile_cons_of_pos (by simpa using Ne.symm hl.1), ih hl.2]
      exact hall _ (by simpa using hx)
    simp only []
    rw [h2]
    rfl

end write

/-- Two stations, one trace each. -/
def twoStations : Nat → Fields
  | 0 => ⟨"CX".toList, "PB01".toList, [], "BHZ".toList, some (.time ⟨2011, 2, 25, 13, 15, 38⟩), none⟩
  | _ => ⟨"CX".toList, "PB02".toList, [], "BHZ".toList, some (.time ⟨2011, 2, 25, 13, 15, 38⟩), none⟩

/-- **C97** is false for SAC files of a stream with several stations: only the directory of the first trace is created,
and the second write fails although writing itself works. -/
theorem C97_counterexample :
    (write (fun _ _ _ => none) twoStations ⟨fun _ => false, []⟩ [0, 1] "out".toList "SAC".toList .plain).2 =
      some .other ∧
    (write (fun _ _ _ => none) twoStations ⟨fun _ => false, []⟩ [0, 1] "out".toList "SAC".toList .stack).2 = none ∧
    (write (fun _ _ _ => none) twoStations ⟨fun _ => false, []⟩ [0, 0] "out".toList "sac".toList .plain).2 = none := by
  decide +kernel

end Verif.Props
