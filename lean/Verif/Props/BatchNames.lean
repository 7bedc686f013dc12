import Verif.Spec.Glob
import Verif.Model.BatchFiles

/-!
# File names of the batch program (C81, C98)
-/

set_option linter.unusedSimpArgs false
set_option linter.unusedSectionVars false

namespace Verif.Props
open Verif.Py Verif.Model.Batch Verif.Spec

/-! ## Text of times -/

theorem digit_inj (a b : Nat) (h : digit a = digit b) : a % 10 = b % 10 := by
  have main : ∀ a < 10, ∀ b < 10, Char.ofNat (48 + a) = Char.ofNat (48 + b) → a = b := by decide
  exact main _ (Nat.mod_lt _ (by decide)) _ (Nat.mod_lt _ (by decide)) h

theorem digit_ne (a : Nat) (c : Char) (hc : ∀ a < 10, Char.ofNat (48 + a) ≠ c) : digit a ≠ c :=
  hc _ (Nat.mod_lt _ (by decide))

/-- Calendar times whose parts fit into the text. -/
def DateTime.Valid (t : DateTime) : Prop :=
  t.year < 10000 ∧ t.month < 100 ∧ t.day < 100 ∧ t.hour < 100 ∧ t.minute < 100 ∧ t.second < 100

theorem timeText_inj (t u : DateTime) (ht : DateTime.Valid t) (hu : DateTime.Valid u)
    (h : timeText t = timeText u) : t = u := by
  obtain ⟨a1, a2, a3, a4, a5, a6⟩ := t
  obtain ⟨b1, b2, b3, b4, b5, b6⟩ := u
  obtain ⟨t1, t2, t3, t4, t5, t6⟩ := ht
  obtain ⟨u1, u2, u3, u4, u5, u6⟩ := hu
  simp only [timeText, pad4, pad2, List.cons_append, List.nil_append, List.cons.injEq, true_and, and_true] at h
  obtain ⟨y1, y2, y3, y4, m1, m2, d1, d2, h1, h2, i1, i2, s1, s2⟩ := h
  have := digit_inj _ _ y1
  have := digit_inj _ _ y2
  have := digit_inj _ _ y3
  have := digit_inj _ _ y4
  have := digit_inj _ _ m1
  have := digit_inj _ _ m2
  have := digit_inj _ _ d1
  have := digit_inj _ _ d2
  have := digit_inj _ _ h1
  have := digit_inj _ _ h2
  have := digit_inj _ _ i1
  have := digit_inj _ _ i2
  have := digit_inj _ _ s1
  have := digit_inj _ _ s2
  simp only [] at *
  simp only [DateTime.mk.injEq]
  refine ⟨?_, ?_, ?_, ?_, ?_, ?_⟩ <;> omega

theorem timeText_length (t : DateTime) : (timeText t).length = 19 := by
  simp [timeText, pad4, pad2]

theorem timeText_mem (t : DateTime) (c : Char) (h : c ∈ timeText t) :
    (∃ a < 10, Char.ofNat (48 + a) = c) ∨ c = '-' ∨ c = 'T' ∨ c = ':' := by
  have hd : ∀ a, ∃ b < 10, Char.ofNat (48 + b) = digit a := fun a => ⟨a % 10, Nat.mod_lt _ (by decide), rfl⟩
  simp only [timeText, pad4, pad2, List.cons_append, List.nil_append, List.mem_cons, List.not_mem_nil, or_false] at h
  rcases h with h | h | h | h | h | h | h | h | h | h | h | h | h | h | h | h | h | h | h <;> subst h <;>
    first
      | exact .inl (hd _)
      | exact .inr (.inl rfl)
      | exact .inr (.inr (.inl rfl))
      | exact .inr (.inr (.inr rfl))

theorem timeText_not_mem (t : DateTime) (c : Char)
    (h : (∀ a < 10, Char.ofNat (48 + a) ≠ c) ∧ c ≠ '-' ∧ c ≠ 'T' ∧ c ≠ ':') : c ∉ timeText t := by
  intro hm
  rcases timeText_mem t c hm with ⟨a, ha, e⟩ | e | e | e
  · exact h.1 a ha e
  · exact h.2.1 e
  · exact h.2.2.1 e
  · exact h.2.2.2 e

/-! ## Paths -/

theorem sep_inj (c : Char) (a b x y : Str) (ha : c ∉ a) (hb : c ∉ b) (h : a ++ c :: x = b ++ c :: y) :
    a = b ∧ x = y := by
  induction a generalizing b with
  | nil =>
    cases b with
    | nil => simpa using h
    | cons d b =>
      simp only [List.nil_append, List.cons_append, List.cons.injEq] at h
      exact absurd (h.1 ▸ List.mem_cons_self) hb
  | cons d a ih =>
    cases b with
    | nil =>
      simp only [List.nil_append, List.cons_append, List.cons.injEq] at h
      exact absurd (h.1 ▸ List.mem_cons_self) ha
    | cons e b =>
      simp only [List.cons_append, List.cons.injEq] at h
      simp only [List.mem_cons, not_or] at ha hb
      obtain ⟨h1, h2⟩ := ih b ha.2 hb.2 h.2
      exact ⟨by rw [h.1, h1], h2⟩

/-- `net.sta.loc`. -/
def idText (f : Fields) : Str := f.network ++ '.' :: (f.station ++ '.' :: f.location)

theorem sac_name (root : Str) (f : Fields) (t : DateTime) (ht : f.eventTime = some (.time t)) :
    fmtPattern root f (fnames .sac) = .ok (root ++ '/' :: (idText f ++ '/' :: (idText f ++ '.' ::
      (f.channel ++ '_' :: (timeText t ++ ".SAC".toList))))) := by
  simp [fmtPattern, fnames, idPieces, fmtPiece, ht, idText]

theorem q_name (root : Str) (f : Fields) (t : DateTime) (ht : f.eventTime = some (.time t)) :
    fmtPattern root f (fnames .q) = .ok (root ++ '/' :: (idText f ++ '/' :: (idText f ++ '_' ::
      (timeText t ++ ".QHD".toList)))) := by
  simp [fmtPattern, fnames, idPieces, fmtPiece, ht, idText]

theorem sac_dummy (root : Str) (f : Fields) (ht : f.eventTime = some .dummy) :
    fmtPattern root f (fnames .sac) = .ok (root ++ '/' :: (idText f ++ '/' :: (idText f ++ '.' ::
      (f.channel ++ '_' :: ('*' :: ".SAC".toList))))) := by
  simp [fmtPattern, fnames, idPieces, fmtPiece, ht, idText]

/-- Codes without separators. -/
def Fields.Clean (f : Fields) : Prop :=
  CleanCode f.network ∧ CleanCode f.station ∧ CleanCode f.location ∧ CleanCode f.channel

theorem idText_inj (c : Char) (f g : Fields) (x y : Str) (hf : Fields.Clean f) (hg : Fields.Clean g)
    (hfl : c ∉ f.location) (hgl : c ∉ g.location)
    (h : idText f ++ c :: x = idText g ++ c :: y) :
    f.network = g.network ∧ f.station = g.station ∧ f.location = g.location ∧ x = y := by
  unfold idText at h
  simp only [List.append_assoc, List.cons_append] at h
  obtain ⟨h1, h2⟩ := sep_inj '.' _ _ _ _ hf.1.1 hg.1.1 h
  obtain ⟨h3, h4⟩ := sep_inj '.' _ _ _ _ hf.2.1.1 hg.2.1.1 h2
  obtain ⟨h5, h6⟩ := sep_inj c _ _ _ _ hfl hgl h4
  exact ⟨h1, h3, h5, h6⟩

/-- **C81** Two traces share a SAC file exactly if network, station, location, channel and event time (to the second)
agree. -/
theorem C81_sac (root : Str) (f g : Fields) (hf : Fields.Clean f) (hg : Fields.Clean g) (t u : DateTime)
    (ht : f.eventTime = some (.time t)) (hu : g.eventTime = some (.time u)) (vt : DateTime.Valid t)
    (vu : DateTime.Valid u) :
    fmtPattern root f (fnames .sac) = fmtPattern root g (fnames .sac) ↔
      f.network = g.network ∧ f.station = g.station ∧ f.location = g.location ∧ f.channel = g.channel ∧ t = u := by
  rw [sac_name root f t ht, sac_name root g u hu]
  constructor
  · intro h
    simp only [Except.ok.injEq, List.append_cancel_left_eq, List.cons.injEq, true_and] at h
    obtain ⟨h1, h2, h3, h4⟩ := idText_inj '/' f g _ _ hf hg hf.2.2.1.2.1 hg.2.2.1.2.1 h
    have hid : idText f = idText g := by unfold idText; rw [h1, h2, h3]
    rw [hid] at h4
    simp only [List.append_cancel_left_eq, List.cons.injEq, true_and] at h4
    obtain ⟨h5, h6⟩ := sep_inj '_' _ _ _ _ hf.2.2.2.2.2.1 hg.2.2.2.2.2.1 h4
    exact ⟨h1, h2, h3, h5, timeText_inj t u vt vu (List.append_inj_left' h6 rfl)⟩
  · rintro ⟨h1, h2, h3, h4, h5⟩
    unfold idText
    rw [h1, h2, h3, h4, h5]

/-- **C81** Two streams share a Q file exactly if network, station, location and event time of their first traces
agree. -/
theorem C81_q (root : Str) (f g : Fields) (hf : Fields.Clean f) (hg : Fields.Clean g) (t u : DateTime)
    (ht : f.eventTime = some (.time t)) (hu : g.eventTime = some (.time u)) (vt : DateTime.Valid t)
    (vu : DateTime.Valid u) :
    fmtPattern root f (fnames .q) = fmtPattern root g (fnames .q) ↔
      f.network = g.network ∧ f.station = g.station ∧ f.location = g.location ∧ t = u := by
  rw [q_name root f t ht, q_name root g u hu]
  constructor
  · intro h
    simp only [Except.ok.injEq, List.append_cancel_left_eq, List.cons.injEq, true_and] at h
    obtain ⟨h1, h2, h3, h4⟩ := idText_inj '/' f g _ _ hf hg hf.2.2.1.2.1 hg.2.2.1.2.1 h
    have hid : idText f = idText g := by unfold idText; rw [h1, h2, h3]
    rw [hid] at h4
    simp only [List.append_cancel_left_eq, List.cons.injEq, true_and] at h4
    exact ⟨h1, h2, h3, timeText_inj t u vt vu (List.append_inj_left' h4 rfl)⟩
  · rintro ⟨h1, h2, h3, h5⟩
    unfold idText
    rw [h1, h2, h3, h5]

/-- **C81** Stacks share a SAC file exactly if their ids agree, profile traces exactly if component and text of the box
position agree. -/
theorem C81_stack (root : Str) (f g : Fields) (hf : Fields.Clean f) (hg : Fields.Clean g) :
    fmtPattern root f (stackFnames .sac) = fmtPattern root g (stackFnames .sac) ↔
      f.network = g.network ∧ f.station = g.station ∧ f.location = g.location ∧ f.channel = g.channel := by
  have hn : ∀ f : Fields, fmtPattern root f (stackFnames .sac) = .ok (root ++ '/' :: (idText f ++ '.' ::
      (f.channel ++ ".SAC".toList))) := by
    intro f
    simp [fmtPattern, stackFnames, idPieces, fmtPiece, idText]
  rw [hn, hn]
  constructor
  · intro h
    simp only [Except.ok.injEq, List.append_cancel_left_eq, List.cons.injEq, true_and] at h
    have h' := h
    unfold idText at h'
    simp only [List.append_assoc, List.cons_append] at h'
    obtain ⟨h1, h2⟩ := sep_inj '.' _ _ _ _ hf.1.1 hg.1.1 h'
    obtain ⟨h3, h4⟩ := sep_inj '.' _ _ _ _ hf.2.1.1 hg.2.1.1 h2
    obtain ⟨h5, h6⟩ := sep_inj '.' _ _ _ _ hf.2.2.1.1 hg.2.2.1.1 h4
    exact ⟨h1, h3, h5, List.append_inj_left' h6 rfl⟩
  · rintro ⟨h1, h2, h3, h4⟩
    unfold idText
    rw [h1, h2, h3, h4]

theorem C81_profile (root : Str) (f g : Fields) (c d : Char) (hc : f.channel[2]? = some c) (hd : g.channel[2]? = some d)
    (x y : Str) (hx : f.boxPos = some x) (hy : g.boxPos = some y) :
    fmtPattern root f (profileFnames .sac) = fmtPattern root g (profileFnames .sac) ↔ c = d ∧ x = y := by
  have hn : ∀ (f : Fields) (c : Char) (x : Str), f.channel[2]? = some c → f.boxPos = some x →
      fmtPattern root f (profileFnames .sac) = .ok (root ++ ("/profile_".toList ++ c :: '_' :: (x ++ ".SAC".toList))) := by
    intro f c x h1 h2
    simp only [fmtPattern, profileFnames, fmtPiece, h1, h2]
    simp
  rw [hn f c x hc hx, hn g d y hd hy]
  constructor
  · intro h
    simp only [Except.ok.injEq, List.append_cancel_left_eq, List.cons.injEq, true_and] at h
    exact ⟨h.1, List.append_inj_left' h.2 rfl⟩
  · rintro ⟨rfl, rfl⟩; rfl

/-! ## C98: reading -/

theorem glob_char (c : Char) (p s : Str) (h1 : c ≠ '?') (h2 : c ≠ '*') (h3 : c ≠ '[') :
    Glob (c :: p) s ↔ ∃ s', s = c :: s' ∧ Glob p s' := by
  constructor
  · intro h
    cases h with
    | one _ _ _ _ _ => exact absurd rfl h1
    | many _ _ _ _ _ => exact absurd rfl h2
    | set => exact absurd rfl h3
    | «open» => exact absurd rfl h3
    | char _ _ s' _ _ _ h => exact ⟨s', rfl, h⟩
  · rintro ⟨s', rfl, h⟩
    exact .char c p s' h1 h2 h3 h

theorem glob_one (p s : Str) : Glob ('?' :: p) s ↔ ∃ c s', s = c :: s' ∧ c ≠ '/' ∧ Glob p s' := by
  constructor
  · intro h
    cases h with
    | one c _ s' hc h => exact ⟨c, s', rfl, hc, h⟩
    | char _ _ _ h1 _ _ _ => exact absurd rfl h1
  · rintro ⟨c, s', rfl, hc, h⟩
    exact .one c p s' hc h

/-- A literal beginning has to be there. -/
theorem glob_lit (a p s : Str) (ha : Literal a) : Glob (a ++ p) s ↔ ∃ s', s = a ++ s' ∧ Glob p s' := by
  induction a generalizing s with
  | nil => simp
  | cons c a ih =>
    obtain ⟨h1, h2, h3⟩ := ha
    simp only [List.mem_cons, not_or] at h1 h2 h3
    rw [List.cons_append, glob_char c _ _ (Ne.symm h1.1) (Ne.symm h2.1) (Ne.symm h3.1)]
    constructor
    · rintro ⟨s', rfl, h⟩
      obtain ⟨s'', rfl, h'⟩ := (ih s' ⟨h1.2, h2.2, h3.2⟩).1 h
      exact ⟨s'', rfl, h'⟩
    · rintro ⟨s', rfl, h⟩
      exact ⟨a ++ s', rfl, (ih _ ⟨h1.2, h2.2, h3.2⟩).2 ⟨s', rfl, h⟩⟩

theorem glob_nil (s : Str) : Glob [] s ↔ s = [] := by
  constructor
  · intro h; cases h; rfl
  · rintro rfl; exact .nil

theorem literal_append (a b : Str) (ha : Literal a) (hb : Literal b) : Literal (a ++ b) := by
  unfold Literal at *
  simp only [List.mem_append, not_or]
  exact ⟨⟨ha.1, hb.1⟩, ⟨ha.2.1, hb.2.1⟩, ⟨ha.2.2, hb.2.2⟩⟩

theorem literal_cons (c : Char) (b : Str) (h1 : c ≠ '?') (h2 : c ≠ '*') (h3 : c ≠ '[') (hb : Literal b) : Literal (c :: b) := by
  unfold Literal at *
  simp only [List.mem_cons, not_or]
  exact ⟨⟨Ne.symm h1, hb.1⟩, ⟨Ne.symm h2, hb.2.1⟩, ⟨Ne.symm h3, hb.2.2⟩⟩

theorem literal_time (t : DateTime) : Literal (timeText t) :=
  ⟨timeText_not_mem t _ (by decide), timeText_not_mem t _ (by decide), timeText_not_mem t _ (by decide)⟩

theorem literal_id (f : Fields) (hf : Fields.Clean f) : Literal (idText f) := by
  unfold idText
  exact literal_append _ _ hf.1.2.2.2 (literal_cons _ _ (by decide) (by decide) (by decide)
    (literal_append _ _ hf.2.1.2.2.2 (literal_cons _ _ (by decide) (by decide) (by decide) hf.2.2.1.2.2.2)))

section read
variable {K : Type} (cal : K → DateTime)

/-- Codes of the metadata without separators and wildcards. -/
def CleanMeta (m : Verif.Model.EventIter.Meta K) : Prop :=
  CleanCode m.network ∧ CleanCode m.station ∧ CleanCode m.location

/-- The part of the SAC pattern up to the channel is literal. -/
theorem head_literal (root : Str) (hr : Literal root) (i : Str) (hi : Literal i) :
    Literal (root ++ '/' :: (i ++ '/' :: (i ++ ['.']))) :=
  literal_append _ _ hr (literal_cons _ _ (by decide) (by decide) (by decide) (literal_append _ _ hi
    (literal_cons _ _ (by decide) (by decide) (by decide) (literal_append _ _ hi
      (literal_cons _ _ (by decide) (by decide) (by decide) ⟨by simp, by simp, by simp⟩)))))

/-- **C98** For an event and a station, SAC files are read by a pattern which describes exactly the files of the traces
of this station and this event (to the second) with channels of three letters. -/
theorem C98_sac (root : Str) (hr : Literal root) (m : Verif.Model.EventIter.Meta K) (hm : CleanMeta m) (x : K)
    (hx : m.eventTime = some x) (f : Fields) (hf : Fields.Clean f) (t : DateTime) (ht : f.eventTime = some (.time t))
    (vt : DateTime.Valid t) (vx : DateTime.Valid (cal x)) :
    ∃ c name, readCall cal root "SAC".toList m = .ok c ∧ fmtPattern root f (fnames .sac) = .ok name ∧
      (Glob c.fname name ↔ f.network = m.network ∧ f.station = m.station ∧ f.location = m.location ∧
        f.channel.length = 3 ∧ t = cal x) := by
  set g := metaFields cal m "SAC".toList with hg
  have hgc : Fields.Clean { g with channel := [] } :=
    ⟨hm.1, hm.2.1, hm.2.2, by refine ⟨?_, ?_, ?_, ?_, ?_, ?_⟩ <;> simp⟩
  have hgt : g.eventTime = some (.time (cal x)) := by rw [hg]; simp [metaFields, hx]
  have hid : idText g = idText { g with channel := [] } := rfl
  have hlit : Literal (idText g) := by rw [hid]; exact literal_id _ hgc
  refine ⟨⟨root ++ '/' :: (idText g ++ '/' :: (idText g ++ '.' ::
      (g.channel ++ '_' :: (timeText (cal x) ++ ".SAC".toList)))), none⟩, _, ?_, sac_name root f t ht, ?_⟩
  · unfold readCall
    rw [show formatKey "SAC".toList = some .sac by decide]
    simp only [← hg, sac_name root g _ hgt, reduceCtorEq, if_false]
  · have hpat : (root ++ '/' :: (idText g ++ '/' :: (idText g ++ '.' ::
        (g.channel ++ '_' :: (timeText (cal x) ++ ".SAC".toList))))) =
        (root ++ '/' :: (idText g ++ '/' :: (idText g ++ ['.']))) ++
          ('?' :: '?' :: '?' :: ('_' :: (timeText (cal x) ++ ".SAC".toList) ++ [])) := by
      have : g.channel = ['?', '?', '?'] := rfl
      rw [this]
      simp
    have hlit2 : Literal ('_' :: (timeText (cal x) ++ ".SAC".toList)) :=
      literal_cons _ _ (by decide) (by decide) (by decide) (literal_append _ _ (literal_time _) ⟨by decide, by decide, by decide⟩)
    simp only []
    rw [hpat, glob_lit _ _ _ (head_literal root hr _ hlit)]
    simp only [glob_one, glob_lit _ _ _ hlit2, glob_nil]
    constructor
    · rintro ⟨s, hs, c1, s1, rfl, -, c2, s2, rfl, -, c3, s3, rfl, -, s4, rfl, rfl⟩
      simp only [List.append_assoc, List.append_cancel_left_eq, List.cons_append, List.cons.injEq, true_and,
        List.nil_append, List.append_nil] at hs
      obtain ⟨h1, h2, h3, h4⟩ := idText_inj '/' f { g with channel := [] } _ _ hf hgc hf.2.2.1.2.1
        hm.2.2.2.1 hs
      have hid2 : idText f = idText g := by unfold idText; rw [h1, h2, h3]
      rw [hid2] at h4
      simp only [List.append_cancel_left_eq, List.cons.injEq, true_and] at h4
      have hlen := congrArg List.length h4
      simp only [List.length_append, List.length_cons, timeText_length] at hlen
      have hl3 : f.channel.length = 3 := by omega
      have h4' : f.channel ++ ('_' :: (timeText t ++ ".SAC".toList)) =
          [c1, c2, c3] ++ ('_' :: (timeText (cal x) ++ ".SAC".toList)) := h4
      have h5 := List.append_inj_right h4' (by rw [hl3]; rfl)
      simp only [List.cons.injEq, true_and] at h5
      exact ⟨h1, h2, h3, hl3, timeText_inj t _ vt vx (List.append_inj_left' h5 rfl)⟩
    · rintro ⟨h1, h2, h3, h4, rfl⟩
      match hch : f.channel, h4 with
      | [c1, c2, c3], _ =>
        have hcl : '/' ∉ f.channel := hf.2.2.2.2.1
        rw [hch] at hcl
        simp only [List.mem_cons, List.not_mem_nil, or_false, not_or] at hcl
        have hid2 : idText f = idText g := by
          unfold idText; rw [h1, h2, h3]; rfl
        refine ⟨c1 :: c2 :: c3 :: ('_' :: (timeText (cal x) ++ ".SAC".toList) ++ []), ?_, c1, _, rfl, Ne.symm hcl.1,
          c2, _, rfl, Ne.symm hcl.2.1, c3, _, rfl, Ne.symm hcl.2.2, [], rfl, rfl⟩
        rw [hid2]
        simp

/-- **C98** Without events (stacking and plotting), all SAC files of the station are read. -/
theorem C98_sac_station (root : Str) (hr : Literal root) (m : Verif.Model.EventIter.Meta K) (hm : CleanMeta m)
    (hx : m.eventTime = none) (f : Fields) (hf : Fields.Clean f) (t : DateTime) (ht : f.eventTime = some (.time t)) :
    ∃ c name, readCall cal root "SAC".toList m = .ok c ∧ fmtPattern root f (fnames .sac) = .ok name ∧
      (f.channel.length = 3 → (Glob c.fname name ↔ f.network = m.network ∧ f.station = m.station ∧
        f.location = m.location)) := by
  set g := metaFields cal m "SAC".toList with hg
  have hgc : Fields.Clean { g with channel := [] } :=
    ⟨hm.1, hm.2.1, hm.2.2, by refine ⟨?_, ?_, ?_, ?_, ?_, ?_⟩ <;> simp⟩
  have hgt : g.eventTime = some .dummy := by
    rw [hg]
    simp only [metaFields, hx]
    rw [if_pos (by decide)]
  have hid : idText g = idText { g with channel := [] } := rfl
  have hlit : Literal (idText g) := by rw [hid]; exact literal_id _ hgc
  refine ⟨⟨root ++ '/' :: (idText g ++ '/' :: (idText g ++ '.' :: (g.channel ++ '_' :: ('*' :: ".SAC".toList)))),
    none⟩, _, ?_, sac_name root f t ht, ?_⟩
  · unfold readCall
    rw [show formatKey "SAC".toList = some .sac by decide]
    simp only [← hg, sac_dummy root g hgt, reduceCtorEq, if_false]
  · intro hl3
    have hpat : (root ++ '/' :: (idText g ++ '/' :: (idText g ++ '.' ::
        (g.channel ++ '_' :: ('*' :: ".SAC".toList))))) =
        (root ++ '/' :: (idText g ++ '/' :: (idText g ++ ['.']))) ++
          ('?' :: '?' :: '?' :: (['_'] ++ ('*' :: ".SAC".toList))) := by
      have : g.channel = ['?', '?', '?'] := rfl
      rw [this]
      simp
    have hlit2 : Literal ['_'] := ⟨by decide, by decide, by decide⟩
    simp only []
    rw [hpat, glob_lit _ _ _ (head_literal root hr _ hlit)]
    simp only [glob_one, glob_lit _ _ _ hlit2]
    constructor
    · rintro ⟨s, hs, -⟩
      simp only [List.append_assoc, List.append_cancel_left_eq, List.cons_append, List.cons.injEq, true_and] at hs
      obtain ⟨h1, h2, h3, -⟩ := idText_inj '/' f { g with channel := [] } _ _ hf hgc hf.2.2.1.2.1
        hm.2.2.2.1 hs
      exact ⟨h1, h2, h3⟩
    · rintro ⟨h1, h2, h3⟩
      match hch : f.channel, hl3 with
      | [c1, c2, c3], _ =>
        have hcl : '/' ∉ f.channel := hf.2.2.2.2.1
        rw [hch] at hcl
        simp only [List.mem_cons, List.not_mem_nil, or_false, not_or] at hcl
        have hid2 : idText f = idText g := by
          unfold idText; rw [h1, h2, h3]; rfl
        refine ⟨c1 :: c2 :: c3 :: (['_'] ++ (timeText t ++ ".SAC".toList)), ?_, c1, _, rfl, Ne.symm hcl.1,
          c2, _, rfl, Ne.symm hcl.2.1, c3, _, rfl, Ne.symm hcl.2.2, _, rfl, ?_⟩
        · rw [hid2]
          simp
        · refine .many _ _ _ (timeText_not_mem t _ (by decide)) ?_
          have hsac : Literal ".SAC".toList := ⟨by decide, by decide, by decide⟩
          have := (glob_lit ".SAC".toList [] ".SAC".toList hsac).2 ⟨[], by simp, .nil⟩
          simpa using this

/-- **C98** Q files are read by the name under which they are written. -/
theorem C98_q (root : Str) (m : Verif.Model.EventIter.Meta K) (x : K) (hx : m.eventTime = some x) (f : Fields)
    (h1 : f.network = m.network) (h2 : f.station = m.station) (h3 : f.location = m.location)
    (ht : f.eventTime = some (.time (cal x))) :
    ∃ c, readCall cal root "Q".toList m = .ok c ∧ fmtPattern root f (fnames .q) = .ok c.fname := by
  have hgt : (metaFields cal m "Q".toList).eventTime = some (.time (cal x)) := by simp [metaFields, hx]
  refine ⟨⟨_, none⟩, ?_, q_name root f _ ht⟩
  unfold readCall
  rw [show formatKey "Q".toList = some .q by decide]
  simp only [q_name root _ _ hgt, reduceCtorEq, if_false]
  congr 3
  unfold idText
  rw [h1, h2, h3]
  rfl

/-- **C98** H5: one file, with the metadata as filter. -/
theorem C98_h5 (root : Str) (m : Verif.Model.EventIter.Meta K) (f : Fields) :
    readCall cal root "H5".toList m = .ok ⟨root ++ ".h5".toList, some m⟩ ∧
    fmtPattern root f (fnames .h5) = .ok (root ++ ".h5".toList) := by
  constructor
  · unfold readCall
    rw [show formatKey "H5".toList = some .h5 by decide]
    simp [fmtPattern, fnames, fmtPiece]
  · simp [fmtPattern, fnames, fmtPiece]

end read

/-- **C98** The plot command for profiles reads exactly the SAC files of profile traces. -/
theorem C98_profile (root : Str) (hr : Literal root) (f : Fields) (c : Char) (hc : f.channel[2]? = some c)
    (hcs : c ≠ '/') (x : Str) (hx : f.boxPos = some x) (hxs : '/' ∉ x) :
    ∃ pat name, profileReadName root "SAC".toList = .ok pat ∧ fmtPattern root f (profileFnames .sac) = .ok name ∧
      Glob pat name := by
  refine ⟨root ++ ("/profile_".toList ++ ('?' :: ('_' :: ('*' :: ".SAC".toList)))),
    root ++ ("/profile_".toList ++ (c :: ('_' :: (x ++ ".SAC".toList)))), ?_, ?_, ?_⟩
  · unfold profileReadName
    rw [show formatKey "SAC".toList = some .sac by decide]
    simp [fmtPattern, profileFnames, fmtPiece]
  · simp only [fmtPattern, profileFnames, fmtPiece, hc, hx]
    simp
  · rw [← List.append_assoc, ← List.append_assoc]
    refine (glob_lit _ _ _ (literal_append _ _ hr ⟨by decide, by decide, by decide⟩)).2 ⟨_, rfl, ?_⟩
    refine .one c _ _ hcs (.char '_' _ _ (by decide) (by decide) (by decide) (.many x _ _ hxs ?_))
    have hsac : Literal ".SAC".toList := ⟨by decide, by decide, by decide⟩
    have := (glob_lit ".SAC".toList [] ".SAC".toList hsac).2 ⟨[], by simp, .nil⟩
    simpa using this

/-- The hypotheses are met by an ordinary trace. -/
example : Fields.Clean ⟨"CX".toList, "PB01".toList, [], "BHZ".toList, some (.time ⟨2011, 2, 25, 13, 15, 38⟩), none⟩ ∧
    DateTime.Valid ⟨2011, 2, 25, 13, 15, 38⟩ ∧
    fmtPattern "out".toList ⟨"CX".toList, "PB01".toList, [], "BHZ".toList, some (.time ⟨2011, 2, 25, 13, 15, 38⟩), none⟩
      (fnames .sac) = .ok "out/CX.PB01./CX.PB01..BHZ_2011-02-25T13:15:38.SAC".toList := by
  refine ⟨?_, ?_, by decide +kernel⟩
  · refine ⟨⟨?_, ?_, ?_, ?_, ?_, ?_⟩, ⟨?_, ?_, ?_, ?_, ?_, ?_⟩, ⟨?_, ?_, ?_, ?_, ?_, ?_⟩, ⟨?_, ?_, ?_, ?_, ?_, ?_⟩⟩ <;> decide
  · refine ⟨?_, ?_, ?_, ?_, ?_, ?_⟩ <;> decide

end Verif.Props
