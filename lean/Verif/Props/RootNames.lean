import Verif.Props.BatchNames

/-!
# C189: the name of the output directory

The batch program puts the name of the output directory into the file names it writes and into the patterns it reads.
A pattern made with a directory name with brackets does not describe the files in this directory.
-/

set_option linter.unusedSimpArgs false
set_option linter.unusedSectionVars false

namespace Verif.Props
open Verif.Py Verif.Spec Verif.Model.Batch

/-- A beginning without opening bracket describes itself, even with `*` and `?`. -/
theorem glob_prefix (root p s : Str) (hr : '[' ∉ root) (h : Glob p s) : Glob (root ++ p) (root ++ s) := by
  induction root with
  | nil => exact h
  | cons c root ih =>
    simp only [List.mem_cons, not_or] at hr
    by_cases h1 : c = '?'
    · subst h1
      exact .one '?' _ _ (by decide) (ih hr.2)
    · by_cases h2 : c = '*'
      · subst h2
        exact .many ['*'] _ _ (by decide) (ih hr.2)
      · exact .char c _ _ h1 h2 (Ne.symm hr.1) (ih hr.2)

/-- The names begin with the directory. -/
theorem fmtPattern_root (root : Str) (f : Fields) (ps : List Piece) (h : Piece.root ∉ ps) :
    fmtPattern root f (.root :: ps) = (fmtPattern [] f ps).map (root ++ ·) := by
  have e : fmtPattern root f ps = fmtPattern [] f ps := by
    induction ps with
    | nil => rfl
    | cons p ps ih =>
      simp only [List.mem_cons, not_or] at h
      have ep : fmtPiece root f p = fmtPiece [] f p := by
        cases p with
        | root => exact absurd rfl h.1
        | _ => rfl
      simp only [fmtPattern, ep, ih h.2]
  simp only [fmtPattern, fmtPiece, e]
  cases fmtPattern [] f ps <;> rfl

section names
variable {K : Type} (cal : K → DateTime)

/-- Name and pattern with the directory from those without. -/
theorem fnames_root (root : Str) (f : Fields) (k : Format) :
    fmtPattern root f (fnames k) = (fmtPattern [] f (fnames k)).map (root ++ ·) := by
  have h : ∃ ps, fnames k = .root :: ps ∧ Piece.root ∉ ps := by
    cases k
    · exact ⟨_, rfl, by simp [idPieces]⟩
    · exact ⟨_, rfl, by simp [idPieces]⟩
    · exact ⟨_, rfl, by simp [idPieces]⟩
  obtain ⟨ps, e, h⟩ := h
  rw [e, fmtPattern_root root f ps h, fmtPattern_root [] f ps h]
  cases fmtPattern [] f ps <;> rfl

theorem profileFnames_root (root : Str) (f : Fields) (k : Format) :
    fmtPattern root f (profileFnames k) = (fmtPattern [] f (profileFnames k)).map (root ++ ·) := by
  have h : ∃ ps, profileFnames k = .root :: ps ∧ Piece.root ∉ ps := by
    cases k
    · exact ⟨_, rfl, by simp [idPieces]⟩
    · exact ⟨_, rfl, by simp [idPieces]⟩
    · exact ⟨_, rfl, by simp [idPieces]⟩
  obtain ⟨ps, e, h⟩ := h
  rw [e, fmtPattern_root root f ps h, fmtPattern_root [] f ps h]
  cases fmtPattern [] f ps <;> rfl

theorem readCall_root (root format : Str) (m : Verif.Model.EventIter.Meta K) (c : ReadCall K)
    (h : readCall cal [] format m = .ok c) : readCall cal root format m = .ok ⟨root ++ c.fname, c.readonly⟩ := by
  unfold readCall at h ⊢
  cases hk : formatKey format with
  | none => rw [hk] at h; cases h
  | some k =>
    rw [hk] at h
    simp only [] at h ⊢
    rw [fnames_root]
    cases hp : fmtPattern [] (metaFields cal m format) (fnames k) with
    | error e => rw [hp] at h; cases h
    | ok name =>
      rw [hp] at h
      cases h
      rfl

/-- **C189** SAC files in a directory whose name has no opening bracket are found again, for the event … -/
theorem C189_sac_partial (root : Str) (hr : '[' ∉ root) (m : Verif.Model.EventIter.Meta K) (hm : CleanMeta m) (x : K)
    (hx : m.eventTime = some x) (vx : DateTime.Valid (cal x)) (f : Fields) (hf : Fields.Clean f)
    (h1 : f.network = m.network) (h2 : f.station = m.station) (h3 : f.location = m.location) (h4 : f.channel.length = 3)
    (ht : f.eventTime = some (.time (cal x))) :
    ∃ c name, readCall cal root "SAC".toList m = .ok c ∧ fmtPattern root f (fnames .sac) = .ok name ∧ Glob c.fname name := by
  obtain ⟨c, name, e1, e2, h⟩ := C98_sac cal [] ⟨by simp, by simp, by simp⟩ m hm x hx f hf (cal x) ht vx vx
  refine ⟨_, root ++ name, readCall_root cal root _ m c e1, by rw [fnames_root, e2]; rfl, ?_⟩
  exact glob_prefix root _ _ hr (h.2 ⟨h1, h2, h3, h4, rfl⟩)

/-- **C189** … and for the station. -/
theorem C189_sac_station_partial (root : Str) (hr : '[' ∉ root) (m : Verif.Model.EventIter.Meta K) (hm : CleanMeta m)
    (hx : m.eventTime = none) (f : Fields) (hf : Fields.Clean f) (t : DateTime) (ht : f.eventTime = some (.time t))
    (h1 : f.network = m.network) (h2 : f.station = m.station) (h3 : f.location = m.location) (h4 : f.channel.length = 3) :
    ∃ c name, readCall cal root "SAC".toList m = .ok c ∧ fmtPattern root f (fnames .sac) = .ok name ∧ Glob c.fname name := by
  obtain ⟨c, name, e1, e2, h⟩ := C98_sac_station cal [] ⟨by simp, by simp, by simp⟩ m hm hx f hf t ht
  refine ⟨_, root ++ name, readCall_root cal root _ m c e1, by rw [fnames_root, e2]; rfl, ?_⟩
  exact glob_prefix root _ _ hr ((h h4).2 ⟨h1, h2, h3⟩)

/-- A name without opening bracket describes itself. -/
theorem glob_self (s : Str) (h : '[' ∉ s) : Glob s s := by
  have := glob_prefix s [] [] h .nil
  simpa using this

/-- **C189** The same for Q files … -/
theorem C189_q_partial (root : Str) (hr : '[' ∉ root) (m : Verif.Model.EventIter.Meta K) (hm : CleanMeta m) (x : K)
    (hx : m.eventTime = some x) (f : Fields)
    (h1 : f.network = m.network) (h2 : f.station = m.station) (h3 : f.location = m.location)
    (ht : f.eventTime = some (.time (cal x))) :
    ∃ c name, readCall cal root "Q".toList m = .ok c ∧ fmtPattern root f (fnames .q) = .ok name ∧ Glob c.fname name := by
  obtain ⟨c, e1, e2⟩ := C98_q cal root m x hx f h1 h2 h3 ht
  refine ⟨c, c.fname, e1, e2, glob_self _ ?_⟩
  rw [q_name root f _ ht] at e2
  rw [← Except.ok.inj e2]
  have hid : '[' ∉ idText f := by
    unfold idText
    rw [h1, h2, h3]
    simp only [List.mem_append, List.mem_cons, not_or]
    exact ⟨hm.1.2.2.2.2.2, by decide, hm.2.1.2.2.2.2.2, by decide, hm.2.2.2.2.2.2.2⟩
  simp only [List.mem_append, List.mem_cons, not_or]
  exact ⟨hr, by decide, hid, by decide, hid, by decide, timeText_not_mem _ _ (by decide), by decide⟩

/-- **C189** … for H5 files … -/
theorem C189_h5_partial (root : Str) (hr : '[' ∉ root) (m : Verif.Model.EventIter.Meta K) (f : Fields) :
    ∃ c name, readCall cal root "H5".toList m = .ok c ∧ fmtPattern root f (fnames .h5) = .ok name ∧ Glob c.fname name := by
  obtain ⟨e1, e2⟩ := C98_h5 cal root m f
  refine ⟨_, _, e1, e2, glob_self _ ?_⟩
  simp only [List.mem_append, not_or]
  exact ⟨hr, by decide⟩

end names

/-- **C189** … and for profiles. -/
theorem C189_profile_partial (root : Str) (hr : '[' ∉ root) (f : Fields) (c : Char) (hc : f.channel[2]? = some c)
    (hcs : c ≠ '/') (x : Str) (hx : f.boxPos = some x) (hxs : '/' ∉ x) :
    ∃ pat name, profileReadName root "SAC".toList = .ok pat ∧ fmtPattern root f (profileFnames .sac) = .ok name ∧
      Glob pat name := by
  obtain ⟨pat, name, e1, e2, h⟩ := C98_profile [] ⟨by simp, by simp, by simp⟩ f c hc hcs x hx hxs
  refine ⟨root ++ pat, root ++ name, ?_, by rw [profileFnames_root, e2]; rfl, glob_prefix root _ _ hr h⟩
  unfold profileReadName at e1 ⊢
  rw [show formatKey "SAC".toList = some .sac by decide] at e1 ⊢
  simp only [] at e1 ⊢
  rw [profileFnames_root, e1]
  rfl

/-- A set followed by something describes one character followed by something. -/
theorem glob_bracket (body p s : Str) (hb : body ≠ []) (h1 : ']' ∉ body) (h2 : body.head? ≠ some '!') (h3 : '/' ∉ body)
    (h : Glob ('[' :: (body ++ ']' :: p)) s) : ∃ c t, s = c :: t ∧ setHas body c = true ∧ Glob p t := by
  have hset : IsSet (body ++ ']' :: p) false body p :=
    ⟨rfl, hb, fun h => h1 (List.mem_of_mem_tail h), fun _ => h2⟩
  have huniq : ∀ (neg : Bool) (b r : Str), IsSet (body ++ ']' :: p) neg b r → neg = false ∧ b = body ∧ r = p := by
    intro neg b r hs
    obtain ⟨e, hne, ht, hh⟩ := hs
    have hneg : neg = false := by
      cases neg with
      | false => rfl
      | true =>
        cases body with
        | nil => exact absurd rfl hb
        | cons a body =>
          simp only [if_true, List.cons_append, List.nil_append, List.cons.injEq] at e
          exact absurd (by rw [e.1]; rfl) h2
    subst hneg
    refine ⟨rfl, ?_⟩
    simp only [Bool.false_eq_true, if_false, List.nil_append] at e
    have hb' : ']' ∉ b := by
      intro hm
      cases b with
      | nil => exact absurd rfl hne
      | cons a b =>
        cases body with
        | nil => exact absurd rfl hb
        | cons a' body =>
          simp only [List.cons_append, List.cons.injEq] at e
          simp only [List.mem_cons] at hm h1
          rcases hm with hm | hm
          · exact h1 (.inl (hm.trans e.1.symm))
          · exact ht hm
    obtain ⟨h, h'⟩ := sep_inj ']' _ _ _ _ h1 hb' e
    exact ⟨h.symm, h'.symm⟩
  cases h with
  | set neg b c _ rest t hp _ _ hm h =>
    obtain ⟨rfl, rfl, rfl⟩ := huniq neg b rest hp
    exact ⟨c, t, rfl, by simpa using hm, h⟩
  | «open» _ _ hp _ => exact absurd ⟨false, body, p, hset, h3⟩ hp
  | char _ _ _ _ _ h3 => exact absurd rfl h3

/-- **C189** With a directory `rf[1]` the pattern is for files of the directory `rf1`: whatever the codes, time, channel
and format are, the files written are not described by the patterns used for reading. -/
theorem C189_counterexample {K : Type} (cal : K → DateTime) (k : Str)
    (m : Verif.Model.EventIter.Meta K) (fmt : Format) (hf : formatKey k = some fmt) (f : Fields) (c : ReadCall K) (name : Str)
    (h1 : readCall cal "rf[1]".toList k m = .ok c) (h2 : fmtPattern "rf[1]".toList f (fnames fmt) = .ok name) :
    ¬ Glob c.fname name := by
  have hp : ∃ p, c.fname = "rf[1]".toList ++ p := by
    unfold readCall at h1
    rw [hf] at h1
    simp only [] at h1
    rw [fnames_root] at h1
    cases hh : fmtPattern [] (metaFields cal m k) (fnames fmt) with
    | error e => rw [hh] at h1; cases h1
    | ok p => rw [hh] at h1; cases h1; exact ⟨p, rfl⟩
  have hn : ∃ s, name = "rf[1]".toList ++ s := by
    rw [fnames_root] at h2
    cases hh : fmtPattern [] f (fnames fmt) with
    | error e => rw [hh] at h2; cases h2
    | ok s => rw [hh] at h2; cases h2; exact ⟨s, rfl⟩
  obtain ⟨p, hp⟩ := hp
  obtain ⟨s, hn⟩ := hn
  rw [hp, hn]
  intro h
  obtain ⟨s', e, h⟩ := (glob_lit "rf".toList ('[' :: (['1'] ++ ']' :: p)) _ ⟨by decide, by decide, by decide⟩).1 h
  obtain ⟨d, t, e', hd, -⟩ := glob_bracket ['1'] p s' (by decide) (by decide) (by decide) (by decide) h
  have : "rf[1]".toList ++ s = "rf".toList ++ ('[' :: '1' :: ']' :: s) := rfl
  rw [this, List.append_cancel_left_eq, e'] at e
  simp only [List.cons.injEq] at e
  rw [← e.1] at hd
  exact absurd hd (by decide)

/-- **C189** A directory `rf[1]` and another `rf1`: the files of the other one are read instead. -/
theorem C189_counterexample_other : ∃ (m : Verif.Model.EventIter.Meta ℕ) (f : Fields) (c : ReadCall ℕ) (name : Str),
    readCall (fun _ => ⟨2011, 2, 25, 13, 15, 38⟩) "rf[1]".toList "Q".toList m = .ok c ∧
    fmtPattern "rf1".toList f (fnames .q) = .ok name ∧ Glob c.fname name := by
  refine ⟨⟨"CX".toList, "PB01".toList, [], [], some 0⟩,
    ⟨"CX".toList, "PB01".toList, [], "BHZ".toList, some (.time ⟨2011, 2, 25, 13, 15, 38⟩), none⟩,
    ⟨"rf[1]/CX.PB01./CX.PB01._2011-02-25T13:15:38.QHD".toList, none⟩,
    "rf1/CX.PB01./CX.PB01._2011-02-25T13:15:38.QHD".toList, rfl, by decide +kernel, ?_⟩
  refine .char _ _ _ (by decide) (by decide) (by decide) (.char _ _ _ (by decide) (by decide) (by decide) ?_)
  refine .set false ['1'] '1' _ "/CX.PB01./CX.PB01._2011-02-25T13:15:38.QHD".toList _ ?_ (by decide) (by decide) (by decide)
    (glob_self _ (by decide))
  exact ⟨rfl, by decide, by decide, by decide⟩

/-- The hypotheses of the counterexample are met. -/
example : ∃ (c : ReadCall ℕ) (name : Str),
    readCall (fun _ => ⟨2011, 2, 25, 13, 15, 38⟩) "rf[1]".toList "Q".toList ⟨"CX".toList, "PB01".toList, [], [], some 0⟩ = .ok c ∧
    fmtPattern "rf[1]".toList ⟨"CX".toList, "PB01".toList, [], "BHZ".toList, some (.time ⟨2011, 2, 25, 13, 15, 38⟩), none⟩
      (fnames .q) = .ok name ∧ ¬ Glob c.fname name :=
  ⟨_, _, rfl, rfl, C189_counterexample (fun _ => ⟨2011, 2, 25, 13, 15, 38⟩) "Q".toList
    ⟨"CX".toList, "PB01".toList, [], [], some 0⟩ .q rfl
    ⟨"CX".toList, "PB01".toList, [], "BHZ".toList, some (.time ⟨2011, 2, 25, 13, 15, 38⟩), none⟩ _ _ rfl rfl⟩

/-- The hypotheses are met by a directory whose name has other wildcards. -/
example : '[' ∉ "rf*".toList ∧ ∃ pat name, profileReadName "rf*".toList "SAC".toList = .ok pat ∧
    fmtPattern "rf*".toList ⟨[], [], [], "BHQ".toList, none, some "10.0".toList⟩ (profileFnames .sac) = .ok name ∧
    name = "rf*/profile_Q_10.0.SAC".toList ∧ Glob pat name := by
  refine ⟨by decide, ?_⟩
  obtain ⟨pat, name, h1, h2, h3⟩ := C189_profile_partial "rf*".toList (by decide)
    ⟨[], [], [], "BHQ".toList, none, some "10.0".toList⟩ 'Q' rfl (by decide) "10.0".toList rfl (by decide)
  refine ⟨pat, name, h1, h2, ?_, h3⟩
  have : fmtPattern "rf*".toList ⟨[], [], [], "BHQ".toList, none, some "10.0".toList⟩ (profileFnames .sac) =
    .ok "rf*/profile_Q_10.0.SAC".toList := by decide +kernel
  rw [h2] at this
  exact Except.ok.inj this

end Verif.Props
