import Verif.Props.Imaging
import Verif.Model.Harmonics

/-!
# Plot of a harmonic decomposition (C83, C107)
-/

set_option linter.unusedSimpArgs false
set_option linter.unusedSectionVars false

namespace Verif.Props
open Verif.Py Verif.Model.Imaging

section ordered
variable {K : Type} [Field K] [LinearOrder K] [IsStrictOrderedRing K]

/-- The first loop computes the maximum. -/
theorem refLoop_max (s : List (Trace K)) (r r' : K) (h : refLoop (fun ref => ref) r s = .ok r') :
    r ≤ r' ∧ (∀ t ∈ s, ∀ x ∈ t.data, |x| ≤ r') ∧ (r' = r ∨ ∃ t ∈ s, ∃ x ∈ t.data, |x| = r') := by
  induction s generalizing r with
  | nil =>
    simp only [refLoop, Except.ok.injEq] at h
    subst h
    simp
  | cons t ts ih =>
    unfold refLoop at h
    cases ha : absMax t.data with
    | error e => simp [ha] at h
    | ok m =>
      simp only [ha] at h
      obtain ⟨h1, h2, h3⟩ := ih _ h
      obtain ⟨m1, m2⟩ := absMax_spec _ _ ha
      have hr : r ≤ (if r < m then m else r) ∧ m ≤ (if r < m then m else r) := by
        split
        · rename_i hlt; exact ⟨le_of_lt hlt, le_refl _⟩
        · rename_i hlt; exact ⟨le_refl _, not_lt.1 hlt⟩
      refine ⟨le_trans hr.1 h1, ?_, ?_⟩
      · intro t' ht' x hx
        rcases List.mem_cons.1 ht' with rfl | ht'
        · exact le_trans (m1 x hx) (le_trans hr.2 h1)
        · exact h2 t' ht' x hx
      · rcases h3 with h3 | ⟨t', ht', x, hx, he⟩
        · by_cases hlt : r < m
          · rw [if_pos hlt] at h3
            obtain ⟨x, hx, he⟩ := m2
            exact Or.inr ⟨t, by simp, x, hx, by rw [he, h3]⟩
          · rw [if_neg hlt] at h3
            exact Or.inl h3
        · exact Or.inr ⟨t', List.mem_cons_of_mem _ ht', x, hx, he⟩

theorem constantTerm_mem (s : List (Trace K)) (t : Trace K) (h : constantTerm s = .ok t) : t ∈ s := by
  unfold constantTerm at h
  split at h
  · cases h
  · rename_i u us hu
    simp only [Except.ok.injEq] at h
    subst h
    have : u ∈ s.filter (fun t => t.loc = "mod".toList ∧ t.cha = ['0']) := by rw [hu]; simp
    exact List.mem_of_mem_filter this

/-- The scale of the left panel is the largest amplitude of the stream. -/
theorem ref0_spec (hd : List (Trace K)) (r : K) (h : ref0 hd = .ok r) :
    (∀ t ∈ hd, ∀ x ∈ t.data, |x| ≤ r) ∧ ∃ t ∈ hd, ∃ x ∈ t.data, |x| = r := by
  unfold ref0 at h
  cases hc : constantTerm hd with
  | error e => simp [hc] at h
  | ok t =>
    simp only [hc] at h
    cases ha : absMax t.data with
    | error e => simp [ha] at h
    | ok m =>
      simp only [ha] at h
      obtain ⟨h1, h2, h3⟩ := refLoop_max _ _ _ h
      refine ⟨h2, ?_⟩
      rcases h3 with rfl | h3
      · obtain ⟨x, hx, he⟩ := (absMax_spec _ _ ha).2
        exact ⟨t, constantTerm_mem _ _ hc, x, hx, he⟩
      · exact h3

/-- What a line of a panel shows: the data divided by the scale at times relative to the onset, shifted according to
the channel. -/
def PanelLine (ref : K) (t : Trace K) (c : Curve K) : Prop :=
  ∃ o n, t.getTime "onset" = some o ∧ intOf t.cha = .ok n ∧ c.t = times t o ∧ c.d = scaled ref 1 t.data ∧
    c.base = ((4 - n : Int) : K)

theorem harmCurve_spec (colors : Option Str × Option Str) (ref : K) (t : Trace K) (c : Curve K)
    (h : harmCurve colors ref t = .ok c) : PanelLine ref t c := by
  unfold harmCurve at h
  cases ho : onset t with
  | error e => simp [ho] at h
  | ok o =>
    simp only [ho] at h
    cases hn : intOf t.cha with
    | error e => simp [hn] at h
    | ok n =>
      simp only [hn, Except.ok.injEq] at h
      subst h
      refine ⟨o, n, ?_, hn, rfl, rfl, rfl⟩
      unfold onset at ho
      split at ho
      · rename_i o' ho'
        simp only [Except.ok.injEq] at ho
        rw [ho', ho]
      · cases ho

theorem panelStep_spec (colors : Option Str × Option Str) (ref : K) (s : List (Trace K)) (i : Nat) (c : Curve K)
    (h : panelStep colors ref s i = .ok c) : ∃ t, s[i]? = some t ∧ PanelLine ref t c := by
  unfold panelStep at h
  cases hs : s[i]? with
  | none => simp [hs] at h
  | some t =>
    simp only [hs] at h
    exact ⟨t, rfl, harmCurve_spec _ _ _ _ h⟩

theorem take_drop_cons {α : Type} (s : List α) (i n : Nat) (t : α) (h : s[i]? = some t) :
    (s.drop i).take (n + 1) = t :: (s.drop (i + 1)).take n := by
  obtain ⟨hi, rfl⟩ := List.getElem?_eq_some_iff.1 h
  rw [List.drop_eq_getElem_cons hi, List.take_succ_cons]

theorem bothPanels_spec (colors : Option Str × Option Str) (r0 r1 : K) (mod unmod : List (Trace K)) (n : Nat) :
    ∀ (i : Nat) (l r : List (Curve K)), bothPanels colors r0 r1 mod unmod i n = .ok (l, r) →
    l.length = n ∧ List.Forall₂ (PanelLine r0) ((mod.drop i).take n) l ∧
    (unmod = [] → r = []) ∧
    (unmod ≠ [] → r.length = n ∧ List.Forall₂ (PanelLine r1) ((unmod.drop i).take n) r) := by
  induction n with
  | zero =>
    intro i l r h
    simp only [bothPanels, Except.ok.injEq, Prod.mk.injEq] at h
    obtain ⟨rfl, rfl⟩ := h
    simp
  | succ n ih =>
    intro i l r h
    unfold bothPanels at h
    cases hp : panelStep colors r0 mod i with
    | error e => simp [hp] at h
    | ok c =>
      simp only [hp] at h
      obtain ⟨t, ht, hl⟩ := panelStep_spec _ _ _ _ _ hp
      by_cases hu : unmod = []
      · simp only [hu, if_true] at h
        cases hb : bothPanels colors r0 r1 mod [] (i + 1) n with
        | error e => simp [hb] at h
        | ok lr =>
          obtain ⟨l', r'⟩ := lr
          simp only [hb, Except.ok.injEq, Prod.mk.injEq] at h
          obtain ⟨rfl, rfl⟩ := h
          rw [← hu] at hb
          obtain ⟨i1, i2, i3, i4⟩ := ih _ _ _ hb
          rw [take_drop_cons _ _ _ _ ht]
          exact ⟨by simp [i1], .cons hl i2, i3, fun hne => absurd hu hne⟩
      · simp only [hu, if_false] at h
        cases hq : panelStep colors r1 unmod i with
        | error e => simp [hq] at h
        | ok d =>
          simp only [hq] at h
          obtain ⟨t', ht', hl'⟩ := panelStep_spec _ _ _ _ _ hq
          cases hb : bothPanels colors r0 r1 mod unmod (i + 1) n with
          | error e => simp [hb] at h
          | ok lr =>
            obtain ⟨l', r'⟩ := lr
            simp only [hb, Except.ok.injEq, Prod.mk.injEq] at h
            obtain ⟨rfl, rfl⟩ := h
            obtain ⟨i1, i2, i3, i4⟩ := ih _ _ _ hb
            obtain ⟨j1, j2⟩ := i4 hu
            rw [take_drop_cons _ _ _ _ ht, take_drop_cons _ _ _ _ ht']
            exact ⟨by simp [i1], .cons hl i2, fun he => absurd he hu, fun _ => ⟨by simp [j1], .cons hl' j2⟩⟩

/-- Parts of a successful plot. -/
theorem plotHarmonics_inv (colors : Option Str × Option Str) (trim : Option (List (Trace K) → Res (List (Trace K))))
    (hd hd2 : List (Trace K)) (fig : HarmFigure K) (h : plotHarmonics colors trim hd hd2 = .ok fig) :
    ∃ a b unmod, harmTrim trim hd hd2 = .ok (a, b) ∧ ref0 a = .ok fig.leftScale ∧
      rightPart fig.leftScale a b = .ok (fig.rightScale, unmod) ∧
      bothPanels colors fig.leftScale fig.rightScale (selectLoc "mod".toList a) unmod 0 5 = .ok (fig.left, fig.right) := by
  unfold plotHarmonics at h
  cases h1 : harmTrim trim hd hd2 with
  | error e => simp [h1] at h
  | ok p =>
    obtain ⟨a, b⟩ := p
    simp only [h1] at h
    cases h2 : ref0 a with
    | error e => simp [h2] at h
    | ok r0 =>
      simp only [h2] at h
      cases h3 : rightPart r0 a b with
      | error e => simp [h3] at h
      | ok q =>
        obtain ⟨r1, unmod⟩ := q
        simp only [h3] at h
        cases h4 : bothPanels colors r0 r1 (selectLoc "mod".toList a) unmod 0 5 with
        | error e => simp only [h4, reduceCtorEq] at h
        | ok lr =>
          obtain ⟨l, r⟩ := lr
          simp only [h4, Except.ok.injEq] at h
          subst h
          exact ⟨a, b, unmod, rfl, h2, h3, h4⟩

/-- **C107** The left panel shows the first five modelled traces, the right panel those of the second stream if there
is one, otherwise the unmodelled traces; every line is the trace divided by the scale of the panel, at times relative to
its onset.  Without anything to show the right panel is empty. -/
theorem C107_panels (colors : Option Str × Option Str) (hd hd2 : List (Trace K)) (fig : HarmFigure K)
    (h : plotHarmonics colors none hd hd2 = .ok fig) :
    (fig.left.length = 5 ∧ List.Forall₂ (PanelLine fig.leftScale) ((selectLoc "mod".toList hd).take 5) fig.left) ∧
    (hd2 ≠ [] → selectLoc "mod".toList hd2 ≠ [] → fig.right.length = 5 ∧
      List.Forall₂ (PanelLine fig.rightScale) ((selectLoc "mod".toList hd2).take 5) fig.right) ∧
    (hd2 = [] → selectLoc "unmod".toList hd ≠ [] → fig.right.length = 5 ∧
      List.Forall₂ (PanelLine fig.rightScale) ((selectLoc "unmod".toList hd).take 5) fig.right) ∧
    (hd2 = [] → selectLoc "unmod".toList hd = [] → fig.right = []) := by
  obtain ⟨a, b, unmod, h1, h2, h3, h4⟩ := plotHarmonics_inv _ _ _ _ _ h
  simp only [harmTrim, Except.ok.injEq, Prod.mk.injEq] at h1
  obtain ⟨rfl, rfl⟩ := h1
  obtain ⟨i1, i2, i3, i4⟩ := bothPanels_spec _ _ _ _ _ _ _ _ _ h4
  refine ⟨⟨i1, by simpa using i2⟩, ?_, ?_, ?_⟩
  · intro hne hm
    cases hd2 with
    | nil => exact absurd rfl hne
    | cons t ts =>
      unfold rightPart at h3
      simp only [] at h3
      cases hr : ref1 fig.leftScale (t :: ts) with
      | error e => simp [hr] at h3
      | ok r1 =>
        simp only [hr, Except.ok.injEq, Prod.mk.injEq] at h3
        obtain ⟨-, rfl⟩ := h3
        simpa using i4 hm
  · rintro rfl hm
    simp only [rightPart, Except.ok.injEq, Prod.mk.injEq] at h3
    obtain ⟨-, rfl⟩ := h3
    simpa using i4 hm
  · rintro rfl hm
    simp only [rightPart, Except.ok.injEq, Prod.mk.injEq] at h3
    obtain ⟨-, rfl⟩ := h3
    exact i3 hm

/-- **C107** Fewer than five modelled traces cannot be plotted. -/
theorem C107_short (colors : Option Str × Option Str) (hd hd2 : List (Trace K))
    (hs : (selectLoc "mod".toList hd).length < 5) (fig : HarmFigure K) : plotHarmonics colors none hd hd2 ≠ .ok fig := by
  intro h
  obtain ⟨⟨h1, h2⟩, -⟩ := C107_panels colors hd hd2 fig h
  have := h2.length_eq
  rw [h1, List.length_take] at this
  omega

theorem panelLine_bound (ref : K) (t : Trace K) (c : Curve K) (h : PanelLine ref t c) (hb : ∀ x ∈ t.data, |x| ≤ ref) :
    ∀ v, some v ∈ c.d → |v| ≤ 1 := by
  obtain ⟨o, n, -, -, -, hd, -⟩ := h
  intro v hv
  rw [hd] at hv
  simpa using scaled_bound ref 1 t.data hb v hv

theorem forall₂_bound (ref : K) (s : List (Trace K)) (l : List (Curve K)) (h : List.Forall₂ (PanelLine ref) s l)
    (hb : ∀ t ∈ s, ∀ x ∈ t.data, |x| ≤ ref) : ∀ c ∈ l, ∀ v, some v ∈ c.d → |v| ≤ 1 := by
  induction h with
  | nil => simp
  | cons h1 _ ih =>
    intro c hc v hv
    rcases List.mem_cons.1 hc with rfl | hc
    · exact panelLine_bound _ _ _ h1 (hb _ (by simp)) v hv
    · exact ih (fun t ht => hb t (List.mem_cons_of_mem _ ht)) c hc v hv

theorem selectLoc_mem (loc : Str) (s : List (Trace K)) (t : Trace K) (h : t ∈ (selectLoc loc s).take 5) :
    t ∈ s ∧ t.loc = loc := by
  have := List.mem_of_mem_take h
  unfold selectLoc at this
  simpa using List.mem_filter.1 this

/-- **C83** The lines of the left panel never exceed one. -/
theorem C83_harmonics_left (colors : Option Str × Option Str) (hd hd2 : List (Trace K)) (fig : HarmFigure K)
    (h : plotHarmonics colors none hd hd2 = .ok fig) : ∀ c ∈ fig.left, ∀ v, some v ∈ c.d → |v| ≤ 1 := by
  obtain ⟨⟨-, h2⟩, -⟩ := C107_panels colors hd hd2 fig h
  obtain ⟨a, b, unmod, h1, h3, -, -⟩ := plotHarmonics_inv _ _ _ _ _ h
  simp only [harmTrim, Except.ok.injEq, Prod.mk.injEq] at h1
  obtain ⟨rfl, rfl⟩ := h1
  exact forall₂_bound _ _ _ h2 fun t ht => (ref0_spec _ _ h3).1 t (selectLoc_mem _ _ _ ht).1

/-- **C83** The unmodelled traces in the right panel never exceed one, and both panels use the same scale. -/
theorem C83_harmonics_unmodelled (colors : Option Str × Option Str) (hd : List (Trace K)) (fig : HarmFigure K)
    (h : plotHarmonics colors none hd [] = .ok fig) :
    fig.rightScale = fig.leftScale ∧ ∀ c ∈ fig.right, ∀ v, some v ∈ c.d → |v| ≤ 1 := by
  obtain ⟨-, -, h3, h4⟩ := C107_panels colors hd [] fig h
  obtain ⟨a, b, unmod, h1, h5, h6, -⟩ := plotHarmonics_inv _ _ _ _ _ h
  simp only [harmTrim, Except.ok.injEq, Prod.mk.injEq] at h1
  obtain ⟨rfl, rfl⟩ := h1
  simp only [rightPart, Except.ok.injEq, Prod.mk.injEq] at h6
  refine ⟨h6.1.symm, ?_⟩
  by_cases hu : selectLoc "unmod".toList hd = []
  · rw [h4 rfl hu]
    simp
  · refine forall₂_bound _ _ _ (h3 rfl hu).2 fun t ht => ?_
    rw [← h6.1]
    exact (ref0_spec _ _ h5).1 t (selectLoc_mem _ _ _ ht).1

theorem refLoop_small (r0 r : K) (s : List (Trace K)) (r' : K) (h : refLoop (fun _ => r0) r s = .ok r')
    (hs : ∀ t ∈ s, ∀ x ∈ t.data, |x| ≤ r0) : r' = r := by
  induction s with
  | nil =>
    simp only [refLoop, Except.ok.injEq] at h
    exact h.symm
  | cons t ts ih =>
    unfold refLoop at h
    cases ha : absMax t.data with
    | error e => simp [ha] at h
    | ok m =>
      simp only [ha] at h
      obtain ⟨x, hx, he⟩ := (absMax_spec _ _ ha).2
      have : ¬ r0 < m := not_lt.2 (he ▸ hs t (by simp) x hx)
      rw [if_neg this] at h
      exact ih h fun t ht => hs t (List.mem_cons_of_mem _ ht)

/-- **C83** (second stream, what holds) If the constant term of the second stream is its largest modelled term and no
modelled trace of it exceeds the first stream, the right panel does not exceed one. -/
theorem C83_harmonics_right_partial (colors : Option Str × Option Str) (hd hd2 : List (Trace K)) (hne : hd2 ≠ [])
    (fig : HarmFigure K) (h : plotHarmonics colors none hd hd2 = .ok fig)
    (t0 : Trace K) (h0 : constantTerm hd2 = .ok t0) (m : K) (hm : absMax t0.data = .ok m)
    (hmax : ∀ t ∈ hd2, t.loc = "mod".toList → ∀ x ∈ t.data, |x| ≤ m) (hsmall : m ≤ fig.leftScale) :
    fig.rightScale = m ∧ ∀ c ∈ fig.right, ∀ v, some v ∈ c.d → |v| ≤ 1 := by
  obtain ⟨-, h2, -, -⟩ := C107_panels colors hd hd2 fig h
  obtain ⟨a, b, unmod, h1, h5, h6, h7⟩ := plotHarmonics_inv _ _ _ _ _ h
  simp only [harmTrim, Except.ok.injEq, Prod.mk.injEq] at h1
  obtain ⟨rfl, rfl⟩ := h1
  have hmod : ∀ t ∈ selectLoc "mod".toList hd2, ∀ x ∈ t.data, |x| ≤ m := by
    intro t ht
    unfold selectLoc at ht
    obtain ⟨ht1, ht2⟩ := List.mem_filter.1 ht
    exact hmax t ht1 (by simpa using ht2)
  cases hd2 with
  | nil => exact absurd rfl hne
  | cons t ts =>
    unfold rightPart at h6
    simp only [] at h6
    cases hr : ref1 fig.leftScale (t :: ts) with
    | error e => simp [hr] at h6
    | ok r1 =>
      simp only [hr, Except.ok.injEq, Prod.mk.injEq] at h6
      unfold ref1 at hr
      simp only [h0, hm] at hr
      have hr1 := refLoop_small _ _ _ _ hr fun t ht x hx => le_trans (hmod t ht x hx) hsmall
      have hsc : fig.rightScale = m := by rw [← h6.1, hr1]
      refine ⟨hsc, ?_⟩
      by_cases hu : selectLoc "mod".toList (t :: ts) = []
      · have := (bothPanels_spec _ _ _ _ _ _ _ _ _ h7).2.2.1 (by rw [← h6.2, hu])
        rw [this]
        simp
      · refine forall₂_bound _ _ _ (h2 hne hu).2 fun t' ht' => ?_
        rw [hsc]
        exact hmod t' (List.mem_of_mem_take ht')

/-! ## Output of `harmonics()` -/

/-- Text of the axis for each term of the decomposition. -/
def termLabel : List (String × Str) :=
  [("constant", "constant".toList), ("cos", "cos(t)".toList), ("sin", "sin(t)".toList), ("cos2", "cos(2t)".toList),
   ("sin2", "sin(2t)".toList)]

/-- A line drawn at a height with the right label, for data, term and scale. -/
def LabelledLine (ref : K) (t : Trace K) (d : List K) (term : String) (c : Curve K) : Prop :=
  ∃ o, t.getTime "onset" = some o ∧ c.t = times { t with data := d } o ∧ c.d = scaled ref 1 d ∧
    ∃ k : Nat, c.base = (k : K) ∧ harmLabels[k]? = termLabel.lookup term

theorem harmCurve_ok (colors : Option Str × Option Str) (ref : K) (t : Trace K) (o : K) (n : Int)
    (ho : t.getTime "onset" = some o) (hn : intOf t.cha = .ok n) :
    harmCurve colors ref t = .ok (plotCurve colors (times t o) (scaled ref 1 t.data) ((4 - n : Int) : K)) := by
  unfold harmCurve onset
  simp only [ho, hn]

theorem cleanTrace_onset (t : Trace K) (o : K) (h : t.getTime "onset" = some o) :
    (Verif.Model.Harmonics.cleanTrace t).getTime "onset" = some o := by
  unfold Verif.Model.Harmonics.cleanTrace Verif.Model.Harmonics.poppedKeys
  simp only [List.foldl_cons, List.foldl_nil, Trace.put, Trace.getTime, Dict.get_set, Dict.get_erase] at h ⊢
  simpa using h

theorem harmTrace_onset (t : Trace K) (comps : Str) (two : Bool) (i : Nat) (d : List K) (o : K)
    (h : t.getTime "onset" = some o) : (Verif.Model.Harmonics.harmTrace t comps two i d).getTime "onset" = some o := by
  unfold Verif.Model.Harmonics.harmTrace
  simp only []
  split
  · simp only [Trace.put, Trace.getTime, Dict.get_set] at h ⊢
    simpa using h
  · split
    · split <;> (simp only [Trace.put, Trace.getTime, Dict.get_set] at h ⊢; simpa using h)
    · exact h

theorem harmTrace_rest (t : Trace K) (comps : Str) (two : Bool) (i : Nat) (d : List K) :
    (Verif.Model.Harmonics.harmTrace t comps two i d).data = d ∧
    (Verif.Model.Harmonics.harmTrace t comps two i d).start = t.start ∧
    (Verif.Model.Harmonics.harmTrace t comps two i d).sr = t.sr := by
  unfold Verif.Model.Harmonics.harmTrace
  simp only []
  split
  · exact ⟨rfl, rfl, rfl⟩
  · split
    · split <;> exact ⟨rfl, rfl, rfl⟩
    · exact ⟨rfl, rfl, rfl⟩

theorem harmTrace_times (t : Trace K) (comps : Str) (two : Bool) (i : Nat) (d : List K) (o : K) :
    times (Verif.Model.Harmonics.harmTrace (Verif.Model.Harmonics.cleanTrace t) comps two i d) o =
      times { t with data := d } o := by
  obtain ⟨h1, h2, h3⟩ := harmTrace_rest (Verif.Model.Harmonics.cleanTrace t) comps two i d
  unfold times Trace.delta
  rw [h1, h2, h3]
  rfl

theorem refLoop_ok (limit : K → K) (s : List (Trace K)) (r : K) (h : ∀ t ∈ s, t.data ≠ []) :
    ∃ r', refLoop limit r s = .ok r' := by
  induction s generalizing r with
  | nil => exact ⟨r, rfl⟩
  | cons t ts ih =>
    obtain ⟨m, hm⟩ := absMax_ok t.data (h t (by simp))
    unfold refLoop
    simp only [hm]
    exact ih _ fun t ht => h t (List.mem_cons_of_mem _ ht)

theorem bothPanels_ok (colors : Option Str × Option Str) (r0 r1 : K) (mod unmod : List (Trace K)) (n : Nat) :
    ∀ i, (∀ j < n, ∃ c, panelStep colors r0 mod (i + j) = .ok c) →
    (unmod ≠ [] → ∀ j < n, ∃ c, panelStep colors r1 unmod (i + j) = .ok c) →
    ∃ p, bothPanels colors r0 r1 mod unmod i n = .ok p := by
  induction n with
  | zero => intro i _ _; exact ⟨_, rfl⟩
  | succ n ih =>
    intro i h1 h2
    obtain ⟨c, hc⟩ := h1 0 (by omega)
    rw [Nat.add_zero] at hc
    obtain ⟨⟨l, r⟩, hp⟩ := ih (i + 1)
      (fun j hj => by obtain ⟨c, hc⟩ := h1 (j + 1) (by omega); exact ⟨c, by rw [← hc]; congr 1; omega⟩)
      (fun hu j hj => by obtain ⟨c, hc⟩ := h2 hu (j + 1) (by omega); exact ⟨c, by rw [← hc]; congr 1; omega⟩)
    unfold bothPanels
    simp only [hc]
    by_cases hu : unmod = []
    · rw [if_pos hu]
      rw [hp]
      exact ⟨_, rfl⟩
    · rw [if_neg hu]
      obtain ⟨d, hd⟩ := h2 hu 0 (by omega)
      rw [Nat.add_zero] at hd
      simp only [hd, hp]
      exact ⟨_, rfl⟩

open Verif.Model.Harmonics in
theorem harmTrace_mod (t : Trace K) (comps : Str) (two : Bool) (i : Nat) (d : List K) (h : i < 5) :
    (harmTrace t comps two i d).loc = "mod".toList ∧ (harmTrace t comps two i d).cha = (toString i).toList := by
  unfold harmTrace
  simp only [if_pos h]
  exact ⟨rfl, rfl⟩

open Verif.Model.Harmonics in
theorem harmTrace_unmod (t : Trace K) (comps : Str) (i : Nat) (d : List K) (h : 5 ≤ i) :
    (harmTrace t comps true i d).loc = "unmod".toList ∧ (harmTrace t comps true i d).cha = (toString (i - 5)).toList := by
  unfold harmTrace
  simp only [if_neg (Nat.not_lt.2 h), if_true]
  split <;> exact ⟨rfl, rfl⟩

theorem intOf_digit (k : Nat) (h : k < 5) : intOf (toString k).toList = .ok (k : Int) := by
  interval_cases k <;> decide

/-- Channels of several digits: a further digit stands for the units. -/
theorem C107_digits (s : Str) (c : Char) (n : Nat) (h : intOf s = .ok (n : Int)) (hc : c.isDigit = true) :
    intOf (s ++ [c]) = .ok ((10 * n + (c.toNat - 48) : Nat) : Int) := by
  unfold intOf at h ⊢
  split at h
  · rename_i hs
    injection h with h
    have h' := Int.ofNat_inj.1 h
    rw [if_pos ⟨by simp, by simp [hc]; simpa using hs.2⟩, List.foldl_append, h']
    rfl
  · cases h

theorem label_digit (k : Nat) (h : k < 5) :
    harmLabels[4 - k]? = termLabel.lookup (Verif.Model.Harmonics.terms.getD k "") := by
  interval_cases k <;> decide

/-- Traces with indices from `j` on. -/
def harmPart (t : Trace K) (comps : Str) (two : Bool) (j : Nat) (rows : List (List K)) : List (Trace K) :=
  (rows.zipIdx j).map fun p => Verif.Model.Harmonics.harmTrace (Verif.Model.Harmonics.cleanTrace t) comps two p.2 p.1

theorem harmPart_get (t : Trace K) (comps : Str) (two : Bool) (j : Nat) (rows : List (List K)) (k : Nat)
    (hk : k < rows.length) : (harmPart t comps two j rows)[k]? =
      some (Verif.Model.Harmonics.harmTrace (Verif.Model.Harmonics.cleanTrace t) comps two (j + k) (rows.getD k [])) := by
  unfold harmPart
  simp [List.getElem?_map, List.getElem?_zipIdx, hk]

theorem harmPart_length (t : Trace K) (comps : Str) (two : Bool) (j : Nat) (rows : List (List K)) :
    (harmPart t comps two j rows).length = rows.length := by
  unfold harmPart
  simp

theorem harmOut_append (t : Trace K) (comps : Str) (two : Bool) (m u : List (List K)) :
    Verif.Model.Harmonics.harmOut t comps two (m ++ u) =
      harmPart t comps two 0 m ++ harmPart t comps two m.length u := by
  unfold Verif.Model.Harmonics.harmOut harmPart
  rw [List.zipIdx_append, List.map_append, Nat.zero_add]

theorem harmPart_mem (t : Trace K) (comps : Str) (two : Bool) (j : Nat) (rows : List (List K)) (x : Trace K)
    (h : x ∈ harmPart t comps two j rows) : ∃ k < rows.length,
      x = Verif.Model.Harmonics.harmTrace (Verif.Model.Harmonics.cleanTrace t) comps two (j + k) (rows.getD k []) := by
  obtain ⟨k, hk, rfl⟩ := List.mem_iff_getElem.1 h
  have hk' := hk
  rw [harmPart_length] at hk'
  refine ⟨k, hk', ?_⟩
  have := harmPart_get t comps two j rows k hk'
  rw [List.getElem?_eq_getElem hk] at this
  exact Option.some.inj this

/-- Selection of the modelled and unmodelled traces of the output of `harmonics`. -/
theorem harmOut_select (t : Trace K) (comps : Str) (two : Bool) (m u : List (List K)) (hm : m.length = 5)
    (hu : u = [] ∨ two = true) :
    selectLoc "mod".toList (Verif.Model.Harmonics.harmOut t comps two (m ++ u)) = harmPart t comps two 0 m ∧
    selectLoc "unmod".toList (Verif.Model.Harmonics.harmOut t comps two (m ++ u)) = harmPart t comps two 5 u := by
  rw [harmOut_append, hm]
  have h1 : ∀ x ∈ harmPart t comps two 0 m, x.loc = "mod".toList := by
    intro x hx
    obtain ⟨k, hk, rfl⟩ := harmPart_mem _ _ _ _ _ _ hx
    exact (harmTrace_mod _ _ _ _ _ (by omega)).1
  have h2 : ∀ x ∈ harmPart t comps two 5 u, x.loc = "unmod".toList := by
    intro x hx
    obtain ⟨k, hk, rfl⟩ := harmPart_mem _ _ _ _ _ _ hx
    rcases hu with rfl | rfl
    · simp at hk
    · exact (harmTrace_unmod _ _ _ _ (by omega)).1
  have hne : ("mod".toList : Str) ≠ "unmod".toList := by decide
  unfold selectLoc
  rw [List.filter_append, List.filter_append]
  constructor
  · rw [List.filter_eq_self.2 (fun x hx => by simpa using h1 x hx), List.filter_eq_nil_iff.2, List.append_nil]
    intro x hx hc
    have hc' : x.loc = "mod".toList := of_decide_eq_true hc
    rw [h2 x hx] at hc'
    exact hne hc'.symm
  · rw [List.filter_eq_nil_iff.2, List.nil_append, List.filter_eq_self.2 (fun x hx => by simpa using h2 x hx)]
    intro x hx hc
    have hc' : x.loc = "unmod".toList := of_decide_eq_true hc
    rw [h1 x hx] at hc'
    exact hne hc'

theorem panelStep_harm (colors : Option Str × Option Str) (ref : K) (t : Trace K) (comps : Str) (two : Bool) (j : Nat)
    (rows : List (List K)) (hr : rows.length = 5) (hj : j = 0 ∨ j = 5 ∧ two = true) (o : K)
    (ho : t.getTime "onset" = some o) (k : Nat) (hk : k < 5) :
    ∃ c, panelStep colors ref (harmPart t comps two j rows) k = .ok c ∧ c.base = ((4 - k : Nat) : K) ∧
      LabelledLine ref t (rows.getD k []) (Verif.Model.Harmonics.terms.getD k "") c := by
  unfold panelStep
  rw [harmPart_get _ _ _ _ _ _ (by omega)]
  have hon := harmTrace_onset _ comps two (j + k) (rows.getD k []) o (cleanTrace_onset t o ho)
  have hch : (Verif.Model.Harmonics.harmTrace (Verif.Model.Harmonics.cleanTrace t) comps two (j + k) (rows.getD k [])).cha =
      (toString k).toList := by
    rcases hj with rfl | ⟨rfl, rfl⟩
    · rw [(harmTrace_mod _ _ _ _ _ (by omega)).2, Nat.zero_add]
    · rw [(harmTrace_unmod _ _ _ _ (by omega)).2, Nat.add_sub_cancel_left]
  have hbase : (((4 - (k : Int)) : Int) : K) = ((4 - k : Nat) : K) := by
    have : (4 - (k : Int)) = ((4 - k : Nat) : Int) := by omega
    rw [this, Int.cast_natCast]
  simp only []
  rw [harmCurve_ok colors ref _ o k hon (by rw [hch]; exact intOf_digit k hk)]
  refine ⟨_, rfl, hbase, o, ho, ?_, ?_, 4 - k, hbase, label_digit k hk⟩
  · exact harmTrace_times t comps two (j + k) (rows.getD k []) o
  · rw [(harmTrace_rest _ comps two (j + k) (rows.getD k [])).1]
    rfl

/-- The panels in terms of the steps. -/
theorem bothPanels_get (colors : Option Str × Option Str) (r0 r1 : K) (mod unmod : List (Trace K)) (n : Nat) :
    ∀ (i : Nat) (l r : List (Curve K)), bothPanels colors r0 r1 mod unmod i n = .ok (l, r) → ∀ k < n,
    (∃ c, l[k]? = some c ∧ panelStep colors r0 mod (i + k) = .ok c) ∧
    (unmod ≠ [] → ∃ c, r[k]? = some c ∧ panelStep colors r1 unmod (i + k) = .ok c) := by
  induction n with
  | zero => intro i l r _ k hk; omega
  | succ n ih =>
    intro i l r h k hk
    unfold bothPanels at h
    cases hp : panelStep colors r0 mod i with
    | error e => simp [hp] at h
    | ok c =>
      simp only [hp] at h
      by_cases hu : unmod = []
      · simp only [hu, if_true] at h
        cases hb : bothPanels colors r0 r1 mod [] (i + 1) n with
        | error e => simp [hb] at h
        | ok lr =>
          obtain ⟨l', r'⟩ := lr
          simp only [hb, Except.ok.injEq, Prod.mk.injEq] at h
          obtain ⟨rfl, rfl⟩ := h
          rw [← hu] at hb
          refine ⟨?_, fun hne => absurd hu hne⟩
          cases k with
          | zero => exact ⟨c, rfl, hp⟩
          | succ k =>
            obtain ⟨d, hd1, hd2⟩ := (ih _ _ _ hb k (by omega)).1
            exact ⟨d, by simpa using hd1, by rw [← hd2]; congr 1; omega⟩
      · simp only [hu, if_false] at h
        cases hq : panelStep colors r1 unmod i with
        | error e => simp [hq] at h
        | ok d =>
          simp only [hq] at h
          cases hb : bothPanels colors r0 r1 mod unmod (i + 1) n with
          | error e => simp [hb] at h
          | ok lr =>
            obtain ⟨l', r'⟩ := lr
            simp only [hb, Except.ok.injEq, Prod.mk.injEq] at h
            obtain ⟨rfl, rfl⟩ := h
            cases k with
            | zero => exact ⟨⟨c, rfl, hp⟩, fun _ => ⟨d, rfl, hq⟩⟩
            | succ k =>
              obtain ⟨⟨e1, he1, he2⟩, hh⟩ := ih _ _ _ hb k (by omega)
              refine ⟨⟨e1, by simpa using he1, by rw [← he2]; congr 1; omega⟩, fun hne => ?_⟩
              obtain ⟨e2, he3, he4⟩ := hh hne
              exact ⟨e2, by simpa using he3, by rw [← he4]; congr 1; omega⟩

/-- **C107** The output of `harmonics()` can be plotted: term `k` is drawn at height `4 - k`, next to the label of this
term, in the left panel and, if there are unmodelled components, in the right panel. -/
theorem C107_labels (colors : Option Str × Option Str) (t : Trace K) (o : K) (ho : t.getTime "onset" = some o)
    (comps : Str) (two : Bool) (m u : List (List K)) (hm : m.length = 5) (hu : two = true ∧ u.length = 5 ∨ u = [])
    (hne : ∀ d ∈ m ++ u, d ≠ []) :
    ∃ fig, plotHarmonics colors none (Verif.Model.Harmonics.harmOut t comps two (m ++ u)) [] = .ok fig ∧
      fig.left.length = 5 ∧ fig.right.length = u.length ∧
      ∀ k < 5, (∃ c, fig.left[k]? = some c ∧ c.base = ((4 - k : Nat) : K) ∧
          LabelledLine fig.leftScale t (m.getD k []) (Verif.Model.Harmonics.terms.getD k "") c) ∧
        (u ≠ [] → ∃ c, fig.right[k]? = some c ∧ c.base = ((4 - k : Nat) : K) ∧
          LabelledLine fig.rightScale t (u.getD k []) (Verif.Model.Harmonics.terms.getD k "") c) := by
  obtain ⟨s1, s2⟩ := harmOut_select t comps two m u hm (by rcases hu with hu | hu <;> simp [hu])
  set hd := Verif.Model.Harmonics.harmOut t comps two (m ++ u) with hhd
  have hdata : ∀ x ∈ hd, x.data ≠ [] := by
    intro x hx
    rw [hhd] at hx
    unfold Verif.Model.Harmonics.harmOut at hx
    obtain ⟨p, hp, rfl⟩ := List.mem_map.1 hx
    rw [(harmTrace_rest _ _ _ _ _).1]
    obtain ⟨i, hi, hpi⟩ := List.mem_iff_getElem.1 hp
    refine hne p.1 ?_
    rw [← hpi]
    simp
  -- the scale
  have hc0 : ∃ t0, constantTerm hd = .ok t0 := by
    have h0 : (Verif.Model.Harmonics.harmTrace (Verif.Model.Harmonics.cleanTrace t) comps two 0 (m.getD 0 [])) ∈ hd := by
      have hg := harmPart_get t comps two 0 m 0 (by omega)
      rw [hhd, harmOut_append]
      exact List.mem_append_left _ (List.mem_of_getElem? hg)
    have hl := harmTrace_mod (Verif.Model.Harmonics.cleanTrace t) comps two 0 (m.getD 0 []) (by omega)
    unfold constantTerm
    cases hf : hd.filter (fun t => t.loc = "mod".toList ∧ t.cha = ['0']) with
    | nil =>
      exfalso
      refine List.filter_eq_nil_iff.1 hf _ h0 ?_
      rw [decide_eq_true_iff]
      exact ⟨hl.1, by rw [hl.2]; decide⟩
    | cons a as => exact ⟨a, rfl⟩
  obtain ⟨t0, ht0⟩ := hc0
  obtain ⟨m0, hm0⟩ := absMax_ok t0.data (hdata t0 (constantTerm_mem _ _ ht0))
  obtain ⟨r0, hr0⟩ := refLoop_ok (fun ref => ref) hd m0 hdata
  have href : ref0 hd = .ok r0 := by
    unfold ref0
    simp only [ht0, hm0, hr0]
  have hun : harmPart t comps two 5 u ≠ [] → u.length = 5 ∧ two = true := by
    intro hne'
    rcases hu with ⟨h1, h2⟩ | rfl
    · exact ⟨h2, h1⟩
    · exact absurd rfl hne'
  have hun' : harmPart t comps two 5 u ≠ [] ↔ u ≠ [] := by
    constructor
    · rintro h rfl; exact h rfl
    · intro h h'
      have := harmPart_length t comps two 5 u
      rw [h'] at this
      exact h (List.length_eq_zero_iff.1 this.symm)
  obtain ⟨⟨l, r⟩, hb⟩ := bothPanels_ok colors r0 r0 (harmPart t comps two 0 m) (harmPart t comps two 5 u) 5 0
    (fun j hj => by
      obtain ⟨c, hc, -⟩ := panelStep_harm colors r0 t comps two 0 m hm (Or.inl rfl) o ho j hj
      exact ⟨c, by rw [Nat.zero_add]; exact hc⟩)
    (fun hne' j hj => by
      obtain ⟨h1, h2⟩ := hun hne'
      obtain ⟨c, hc, -⟩ := panelStep_harm colors r0 t comps two 5 u h1 (Or.inr ⟨rfl, h2⟩) o ho j hj
      exact ⟨c, by rw [Nat.zero_add]; exact hc⟩)
  refine ⟨⟨r0, r0, l, r⟩, ?_, ?_, ?_, ?_⟩
  · unfold plotHarmonics harmTrim
    simp only [href, rightPart]
    rw [s1, s2, hb]
  · exact (bothPanels_spec _ _ _ _ _ _ _ _ _ hb).1
  · obtain ⟨-, -, h3, h4⟩ := bothPanels_spec _ _ _ _ _ _ _ _ _ hb
    rcases hu with ⟨h1, h2⟩ | rfl
    · have : u ≠ [] := by intro h; rw [h] at h2; cases h2
      rw [(h4 (hun'.2 this)).1, h2]
    · rw [h3 rfl]
      rfl
  · intro k hk
    obtain ⟨⟨c, hc1, hc2⟩, hr⟩ := bothPanels_get _ _ _ _ _ _ _ _ _ hb k hk
    rw [Nat.zero_add] at hc2 hr
    refine ⟨?_, ?_⟩
    · obtain ⟨c', h1, h2, h3⟩ := panelStep_harm colors r0 t comps two 0 m hm (Or.inl rfl) o ho k hk
      rw [hc2] at h1
      cases h1
      exact ⟨c, hc1, h2, h3⟩
    · intro hne'
      obtain ⟨d, hd1, hd2⟩ := hr (hun'.2 hne')
      obtain ⟨e1, e2⟩ := hun (hun'.2 hne')
      obtain ⟨c', h1, h2, h3⟩ := panelStep_harm colors r0 t comps two 5 u e1 (Or.inr ⟨rfl, e2⟩) o ho k hk
      rw [hd2] at h1
      cases h1
      exact ⟨d, hd1, h2, h3⟩

end ordered

/-! ## Counterexample -/

/-- A decomposition with given largest values. -/
def harmTraces (xs : List ℚ) : List (Trace ℚ) :=
  xs.zipIdx.map fun (p : ℚ × Nat) =>
    ⟨"CX".toList, "PB01".toList, "mod".toList, (toString p.2).toList, 0, 1, [p.1, 0], [("onset", .time 1)]⟩

/-- The right panel for two decompositions. -/
def twoDecompositions (a b : List ℚ) : Option (ℚ × List (List (Option ℚ))) :=
  match plotHarmonics (none, none) none (harmTraces a) (harmTraces b) with
  | .ok f => some (f.rightScale, f.right.map (fun c => c.d))
  | .error _ => none

/-- **C83 is false** for the second stream of `plot_harmonics`: its scale is compared with the largest value of the first
stream, so a term five times larger than the constant one is drawn over all other lines.  If it exceeds the first
stream, the scale is the last such value, not the largest. -/
theorem C83_counterexample :
    twoDecompositions [10, 1, 1, 1, 1] [1, 5, 1, 1, 1] =
      some (1, [[some 1, some 0], [some 5, some 0], [some 1, some 0], [some 1, some 0], [some 1, some 0]]) ∧
    twoDecompositions [1, 1, 1, 1, 1] [1, 8, 2, 1, 1] =
      some (2, [[some (1/2), some 0], [some 4, some 0], [some 1, some 0], [some (1/2), some 0], [some (1/2), some 0]]) := by
  decide +kernel

/-- The hypotheses of C107 are met by a decomposition of two components; the first term is drawn at the top. -/
example : (match plotHarmonics (none, none) none (Verif.Model.Harmonics.harmOut
      (⟨"CX".toList, "PB01".toList, [], "BHQ".toList, 0, 1, [], [("onset", .time 1)]⟩ : Trace ℚ) "RT".toList true
      [[4], [1], [2], [1], [2], [1], [1], [1], [1], [2]]) [] with
    | .ok f => some (f.left.map (fun c => (c.base, c.d)), f.right.map (fun c => c.base))
    | .error _ => none) =
    some ([(4, [some 1]), (3, [some (1/4)]), (2, [some (1/2)]), (1, [some (1/4)]), (0, [some (1/2)])], [4, 3, 2, 1, 0]) := by
  decide +kernel

end Verif.Props
