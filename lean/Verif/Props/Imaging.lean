import Verif.Model.Imaging
import Mathlib.Tactic.FieldSimp
import Mathlib.Tactic.Ring
import Mathlib.Tactic.Linarith
import Mathlib.Tactic.Positivity

/-!
# Plots of receiver functions (C83, C84, C100, C101)
-/

set_option linter.unusedSimpArgs false
set_option linter.unusedSectionVars false

namespace Verif.Props
open Verif.Py Verif.Model.Imaging

/-! ## C84: label -/

section label
variable {K : Type}

theorem dedup_single {α β : Type} [DecidableEq β] (f : α → β) (s : List α) (x : β) :
    (s.map f).dedup = [x] ↔ s ≠ [] ∧ ∀ t ∈ s, f t = x := by
  constructor
  · intro h
    have hm : ∀ y, y ∈ s.map f ↔ y = x := fun y => by rw [← List.mem_dedup, h, List.mem_singleton]
    refine ⟨?_, fun t ht => (hm _).1 (List.mem_map_of_mem ht)⟩
    rintro rfl
    exact absurd ((hm x).2 rfl) (by simp)
  · rintro ⟨hne, h⟩
    have : s.map f = List.replicate s.length x := by
      refine List.eq_replicate_iff.2 ⟨by simp, ?_⟩
      intro y hy
      obtain ⟨t, ht, rfl⟩ := List.mem_map.1 hy
      exact h t ht
    rw [this]
    obtain ⟨n, hn⟩ : ∃ n, s.length = n + 1 := by
      cases s with
      | nil => exact absurd rfl hne
      | cons a b => exact ⟨b.length, rfl⟩
    rw [hn, List.replicate_dedup (by omega)]

/-- Do all traces of a non-empty stream give the same text? -/
def Common {α : Type} (f : α → Str) (s : List α) (x : Str) : Prop := s ≠ [] ∧ ∀ t ∈ s, f t = x

theorem firstUnique_pos (s : List (Trace K)) (f : Trace K → Str) (fs : List (Trace K → Str)) (x : Str)
    (h : Common f s x) : firstUnique s (f :: fs) = x := by
  unfold firstUnique
  rw [(dedup_single f s x).2 h]

theorem firstUnique_neg (s : List (Trace K)) (f : Trace K → Str) (fs : List (Trace K → Str))
    (h : ∀ x, ¬ Common f s x) : firstUnique s (f :: fs) = firstUnique s fs := by
  conv_lhs => unfold firstUnique
  split
  · rename_i x hx
    exact absurd ((dedup_single f s x).1 hx) (h x)
  · rfl

/-- Id with the component, i. e. everything after the second letter of the channel, replaced by a question mark. -/
def maskedId (t : Trace K) : Str :=
  t.net ++ ".".toList ++ t.sta ++ ".".toList ++ t.loc ++ ".".toList ++ t.cha.take 2 ++ "?".toList

/-- Network and station. -/
def stationId (t : Trace K) : Str := t.net ++ ".".toList ++ t.sta

theorem labelFmts_eq : (labelFmts : List (Trace K → Str)) = [Trace.id, maskedId, stationId] := by
  unfold labelFmts
  congr 1
  congr 1
  · funext t; simp [maskedId]
  · congr 1
    funext t; simp [stationId]

/-- **C84** The label is the full id if all traces share it. -/
theorem C84_full (s : List (Trace K)) (x : Str) (h : Common Trace.id s x) : label s = x := by
  unfold label
  rw [labelFmts_eq]
  exact firstUnique_pos _ _ _ _ h

/-- **C84** Otherwise it is the id with the component replaced by `?` if all traces share this. -/
theorem C84_component (s : List (Trace K)) (x : Str) (h1 : ∀ y, ¬ Common Trace.id s y) (h2 : Common maskedId s x) :
    label s = x := by
  unfold label
  rw [labelFmts_eq, firstUnique_neg _ _ _ h1]
  exact firstUnique_pos _ _ _ _ h2

/-- **C84** Otherwise it is network and station if all traces share these. -/
theorem C84_station (s : List (Trace K)) (x : Str) (h1 : ∀ y, ¬ Common Trace.id s y) (h2 : ∀ y, ¬ Common maskedId s y)
    (h3 : Common stationId s x) : label s = x := by
  unfold label
  rw [labelFmts_eq, firstUnique_neg _ _ _ h1, firstUnique_neg _ _ _ h2]
  exact firstUnique_pos _ _ _ _ h3

/-- **C84** Otherwise, in particular for an empty stream, it is empty. -/
theorem C84_none (s : List (Trace K)) (h1 : ∀ y, ¬ Common Trace.id s y) (h2 : ∀ y, ¬ Common maskedId s y)
    (h3 : ∀ y, ¬ Common stationId s y) : label s = [] := by
  unfold label
  rw [labelFmts_eq, firstUnique_neg _ _ _ h1, firstUnique_neg _ _ _ h2, firstUnique_neg _ _ _ h3]
  rfl

/-- A stream of two components. -/
example : label [⟨"CX".toList, "PB01".toList, [], "BHQ".toList, (0 : Nat), 1, [], []⟩,
    ⟨"CX".toList, "PB01".toList, [], "BHT".toList, 0, 1, [], []⟩] = "CX.PB01..BH?".toList := by decide +kernel

end label

section ordered
variable {K : Type} [Field K] [LinearOrder K] [IsStrictOrderedRing K]

/-! ## Maxima -/

theorem foldl_absmax (xs : List K) (a : K) :
    a ≤ xs.foldl (fun m y => max m |y|) a ∧ (∀ x ∈ xs, |x| ≤ xs.foldl (fun m y => max m |y|) a) ∧
    (xs.foldl (fun m y => max m |y|) a = a ∨ ∃ x ∈ xs, |x| = xs.foldl (fun m y => max m |y|) a) := by
  induction xs generalizing a with
  | nil => simp
  | cons y ys ih =>
    obtain ⟨h1, h2, h3⟩ := ih (max a |y|)
    rw [List.foldl_cons]
    refine ⟨le_trans (le_max_left _ _) h1, ?_, ?_⟩
    · intro x hx
      rcases List.mem_cons.1 hx with rfl | hx
      · exact le_trans (le_max_right _ _) h1
      · exact h2 x hx
    · rcases h3 with h3 | ⟨x, hx, h3⟩
      · rcases max_choice a |y| with hm | hm
        · left; rw [h3, hm]
        · right; exact ⟨y, by simp, by rw [h3, hm]⟩
      · exact .inr ⟨x, List.mem_cons_of_mem _ hx, h3⟩

/-- `np.max(np.abs(data))` is an upper bound of the absolute values, and attained. -/
theorem absMax_spec (l : List K) (m : K) (h : absMax l = .ok m) : (∀ x ∈ l, |x| ≤ m) ∧ ∃ x ∈ l, |x| = m := by
  cases l with
  | nil => cases h
  | cons x xs =>
    simp only [absMax, Except.ok.injEq] at h
    obtain ⟨h1, h2, h3⟩ := foldl_absmax xs |x|
    rw [h] at h1 h2 h3
    constructor
    · intro y hy
      rcases List.mem_cons.1 hy with rfl | hy
      · exact h1
      · exact h2 y hy
    · rcases h3 with h3 | ⟨y, hy, h3⟩
      · exact ⟨x, by simp, h3.symm⟩
      · exact ⟨y, List.mem_cons_of_mem _ hy, h3⟩

theorem absMax_ok (l : List K) (h : l ≠ []) : ∃ m, absMax l = .ok m := by
  cases l with
  | nil => exact absurd rfl h
  | cons x xs => exact ⟨_, rfl⟩

theorem streamMax_spec (s : List (Trace K)) (m : K) (h : streamMax s = .ok m) :
    (∀ t ∈ s, t.data ≠ [] ∧ ∀ x ∈ t.data, |x| ≤ m) ∧ ∃ t ∈ s, ∃ x ∈ t.data, |x| = m := by
  induction s generalizing m with
  | nil => cases h
  | cons t ts ih =>
    cases ts with
    | nil =>
      simp only [streamMax] at h
      obtain ⟨h1, x, hx, h2⟩ := absMax_spec _ _ h
      refine ⟨?_, t, by simp, x, hx, h2⟩
      intro t' ht'
      simp only [List.mem_singleton] at ht'
      subst ht'
      exact ⟨List.ne_nil_of_mem hx, h1⟩
    | cons u us =>
      unfold streamMax at h
      cases ha : absMax t.data with
      | error e => simp [ha] at h
      | ok a =>
        simp only [ha] at h
        cases hb : streamMax (u :: us) with
        | error e => simp [hb] at h
        | ok b =>
          simp only [hb, Except.ok.injEq] at h
          obtain ⟨h1, x, hx, h2⟩ := absMax_spec _ _ ha
          obtain ⟨h3, t', ht', y, hy, h4⟩ := ih b hb
          constructor
          · intro t'' ht''
            rcases List.mem_cons.1 ht'' with rfl | ht''
            · exact ⟨List.ne_nil_of_mem hx, fun z hz => le_trans (h1 z hz) (h ▸ le_max_left _ _)⟩
            · exact ⟨(h3 t'' ht'').1, fun z hz => le_trans ((h3 t'' ht'').2 z hz) (h ▸ le_max_right _ _)⟩
          · rcases max_choice a b with hm | hm
            · exact ⟨t, by simp, x, hx, by rw [h2, ← h, hm]⟩
            · exact ⟨t', List.mem_cons_of_mem _ ht', y, hy, by rw [h4, ← h, hm]⟩

theorem scaled_bound (m scale : K) (data : List K) (h : ∀ x ∈ data, |x| ≤ m) (v : K) (hv : some v ∈ scaled m scale data) :
    |v| ≤ |scale| := by
  unfold scaled at hv
  obtain ⟨x, hx, he⟩ := List.mem_map.1 hv
  by_cases hm : m = 0
  · rw [if_pos hm] at he; cases he
  · rw [if_neg hm] at he
    simp only [Option.some.injEq] at he
    have hpos : 0 < m := lt_of_le_of_ne (le_trans (abs_nonneg _) (h x hx)) (Ne.symm hm)
    rw [← he, abs_mul, abs_div, abs_of_pos hpos]
    have : |x| / m ≤ 1 := (div_le_one hpos).2 (h x hx)
    calc |x| / m * |scale| ≤ 1 * |scale| := mul_le_mul_of_nonneg_right this (abs_nonneg _)
      _ = |scale| := one_mul _

theorem scaled_attained (m scale : K) (data : List K) (hm : m ≠ 0) (h : ∃ x ∈ data, |x| = m) :
    ∃ v, some v ∈ scaled m scale data ∧ |v| = |scale| := by
  obtain ⟨x, hx, rfl⟩ := h
  refine ⟨x / |x| * scale, ?_, ?_⟩
  · unfold scaled
    exact List.mem_map.2 ⟨x, hx, by rw [if_neg hm]⟩
  · rw [abs_mul, abs_div, abs_abs, div_self hm, one_mul]

/-! ## The loop of plot_rf -/

/-- The curve of the trace with index `i`, as it should be. -/
def Drawn (a : RfPlotArgs K) (gmax : K) (i : Nat) (t : Trace K) (c : Curve K) : Prop :=
  ∃ o m, t.getTime "onset" = some o ∧ c.t = times t o ∧ c.base = (i : K) + 1 ∧ c.d = scaled m a.scaleFactor t.data ∧
    (a.traceScale = true → absMax t.data = .ok m) ∧ (a.traceScale = false → m = gmax)

theorem rfLoop_spec (a : RfPlotArgs K) (gmax : K) (hs : a.showTraces = true) (s : List (Trace K)) (st st' : LoopState K)
    (i : Nat) (h : rfLoop a gmax st i s = .ok st') :
    ∃ cs, st'.curves = st.curves ++ cs ∧ cs.length = s.length ∧
      ∀ k t c, s[k]? = some t → cs[k]? = some c → Drawn a gmax (i + k) t c := by
  induction s generalizing st i with
  | nil =>
    simp only [rfLoop, Except.ok.injEq] at h
    exact ⟨[], by rw [h]; simp, rfl, by simp⟩
  | cons t ts ih =>
    unfold rfLoop at h
    cases hb : rfLoopStep a gmax st i t with
    | error e => simp [hb] at h
    | ok st1 =>
      simp only [hb] at h
      obtain ⟨cs, h1, h2, h3⟩ := ih st1 (i + 1) h
      unfold rfLoopStep at hb
      cases ho : onset t with
      | error e => simp [ho] at hb
      | ok o =>
        simp only [ho] at hb
        cases he : ends (times t o) with
        | error e => simp [he] at hb
        | ok p =>
          obtain ⟨t0, t1⟩ := p
          simp only [he, hs, if_true] at hb
          cases hd : divisor a.traceScale gmax t with
          | error e => simp [hd] at hb
          | ok m =>
            simp only [hd, Except.ok.injEq] at hb
            refine ⟨plotCurve a.fillcolors (times t o) (scaled m a.scaleFactor t.data) ((i : K) + 1) :: cs, ?_, ?_, ?_⟩
            · rw [h1, ← hb]; simp
            · simp [h2]
            · intro k t' c ht hc
              cases k with
              | zero =>
                simp only [List.getElem?_cons_zero, Option.some.injEq] at ht hc
                subst ht; subst hc
                refine ⟨o, m, ?_, rfl, by simp [plotCurve], rfl, ?_, ?_⟩
                · unfold onset at ho
                  split at ho
                  · rename_i o' ho'
                    simp only [Except.ok.injEq] at ho
                    rw [ho', ho]
                  · cases ho
                · intro hts
                  unfold divisor at hd
                  rw [if_pos hts] at hd
                  exact hd
                · intro hts
                  unfold divisor at hd
                  rw [if_neg (by rw [hts]; decide)] at hd
                  simpa using hd.symm
              | succ k =>
                simp only [List.getElem?_cons_succ] at ht hc
                have := h3 k t' c ht hc
                have e : i + 1 + k = i + (k + 1) := by omega
                rw [e] at this
                exact this

/-- Parts of a successful plot. -/
theorem plotRf_inv (shw : Nat → Str) (stack : List (Trace K) → Res (List (Trace K))) (a : RfPlotArgs K)
    (s : List (Trace K)) (fig : RfFigure K) (h : plotRf shw stack a s = .ok (some fig)) :
    ∃ s' gmax st info sc, trimmed a.trim s = .ok s' ∧ streamMax s' = .ok gmax ∧
      rfLoop a gmax ⟨(0, 0), [], []⟩ 0 s' = .ok st ∧ infoPanels s' 0 (effInfo a) = .ok info ∧
      stackPart a stack st.last s' = .ok sc ∧ fig.curves = st.curves ∧ fig.xlim = st.xlim ∧
      fig.ylim = (-1 / 2, (s'.length : K) + 3 / 2) ∧ fig.stack = sc.1 ∧ fig.warnings = sc.2 ∧ fig.info = info ∧
      fig.layout = layout a.figWidth (if a.showTraces then a.traceHeight else 0) a.stackHeight s'.length
        (effInfo a ≠ []) ∧
      fig.title = (if a.showTraces then some (rfTitle shw s') else none) ∧ fig.traceAxes = a.showTraces ∧
      fig.infoAxes = decide (effInfo a ≠ []) := by
  unfold plotRf at h
  cases s with
  | nil => cases h
  | cons t0 ts =>
    simp only [] at h
    cases h1 : trimmed a.trim (t0 :: ts) with
    | error e => simp [h1] at h
    | ok s' =>
      simp only [h1] at h
      cases h2 : streamMax s' with
      | error e => simp [h2] at h
      | ok gmax =>
        simp only [h2] at h
        cases h3 : rfLoop a gmax ⟨(0, 0), [], []⟩ 0 s' with
        | error e => simp [h3] at h
        | ok st =>
          simp only [h3] at h
          cases h4 : infoPanels s' 0 (effInfo a) with
          | error e => simp [h4] at h
          | ok info =>
            simp only [h4] at h
            cases h5 : stackPart a stack st.last s' with
            | error e => simp [h5] at h
            | ok sc =>
              obtain ⟨c, ws⟩ := sc
              simp only [h5, Except.ok.injEq, Option.some.injEq] at h
              subst h
              exact ⟨s', gmax, st, info, (c, ws), rfl, h2, h3, h4, h5, rfl, rfl, rfl, rfl, rfl, rfl, rfl, rfl, rfl, rfl⟩

/-- **C83** `plot_rf` draws one curve per trace, the `i`-th above the base line `i + 1`, against the time relative to the
onset, with the data divided by the maximum of the trace (`trace_scale`) or of the stream and multiplied by the scale
factor. -/
theorem C83_curves (shw : Nat → Str) (stack : List (Trace K) → Res (List (Trace K))) (a : RfPlotArgs K)
    (hs : a.showTraces = true) (s : List (Trace K)) (fig : RfFigure K) (h : plotRf shw stack a s = .ok (some fig)) :
    ∃ s' gmax, trimmed a.trim s = .ok s' ∧ streamMax s' = .ok gmax ∧ fig.curves.length = s'.length ∧
      ∀ k t c, s'[k]? = some t → fig.curves[k]? = some c → Drawn a gmax k t c := by
  obtain ⟨s', gmax, st, info, sc, h1, h2, h3, h4, h5, h6, h7, h8, h9, h10, h11⟩ := plotRf_inv shw stack a s fig h
  obtain ⟨cs, e1, e2, e3⟩ := rfLoop_spec a gmax hs s' _ st 0 h3
  simp only [List.nil_append] at e1
  refine ⟨s', gmax, h1, h2, by rw [h6, e1, e2], ?_⟩
  rw [h6, e1]
  intro k t c ht hc
  have := e3 k t c ht hc
  simpa using this

theorem drawn_bound (a : RfPlotArgs K) (s : List (Trace K)) (gmax : K) (hg : streamMax s = .ok gmax) (k : Nat) (t : Trace K)
    (c : Curve K) (ht : s[k]? = some t) (h : Drawn a gmax k t c) (v : K) (hv : some v ∈ c.d) : |v| ≤ |a.scaleFactor| := by
  obtain ⟨o, m, -, -, -, hd, h1, h2⟩ := h
  rw [hd] at hv
  refine scaled_bound m _ _ ?_ v hv
  cases hts : a.traceScale with
  | true => exact (absMax_spec _ _ (h1 hts)).1
  | false =>
    rw [h2 hts]
    exact ((streamMax_spec s gmax hg).1 t (List.mem_of_getElem? ht)).2

/-- **C83** No amplitude drawn by `plot_rf` exceeds the scale factor. -/
theorem C83_bound (shw : Nat → Str) (stack : List (Trace K) → Res (List (Trace K))) (a : RfPlotArgs K)
    (hs : a.showTraces = true) (s : List (Trace K)) (fig : RfFigure K) (h : plotRf shw stack a s = .ok (some fig))
    (c : Curve K) (hc : c ∈ fig.curves) (v : K) (hv : some v ∈ c.d) : |v| ≤ |a.scaleFactor| := by
  obtain ⟨s', gmax, h1, h2, h3, h4⟩ := C83_curves shw stack a hs s fig h
  obtain ⟨k, hk, rfl⟩ := List.mem_iff_getElem.1 hc
  have hk' : k < s'.length := by rw [← h3]; exact hk
  exact drawn_bound a s' gmax h2 k _ _ (List.getElem?_eq_getElem hk') (h4 k _ _ (List.getElem?_eq_getElem hk')
    (List.getElem?_eq_getElem hk)) v hv

/-- **C83** With `trace_scale` every trace which does not vanish reaches the scale factor. -/
theorem C83_attained_trace (a : RfPlotArgs K) (hts : a.traceScale = true) (gmax : K) (k : Nat) (t : Trace K)
    (c : Curve K) (h : Drawn a gmax k t c) (hnz : ∃ x ∈ t.data, x ≠ 0) :
    ∃ v, some v ∈ c.d ∧ |v| = |a.scaleFactor| := by
  obtain ⟨o, m, -, -, -, hd, h1, -⟩ := h
  obtain ⟨hb, hat⟩ := absMax_spec _ _ (h1 hts)
  rw [hd]
  refine scaled_attained m _ _ ?_ hat
  rintro rfl
  obtain ⟨x, hx, hx0⟩ := hnz
  exact hx0 (abs_eq_zero.1 (le_antisymm (hb x hx) (abs_nonneg _)))

/-- **C83** Without `trace_scale` the largest trace reaches the scale factor, and amplitudes of different traces keep
their ratio: all are multiplied by the same number. -/
theorem C83_attained_global (shw : Nat → Str) (stack : List (Trace K) → Res (List (Trace K))) (a : RfPlotArgs K)
    (hs : a.showTraces = true) (hts : a.traceScale = false) (s : List (Trace K)) (fig : RfFigure K)
    (h : plotRf shw stack a s = .ok (some fig)) (s' : List (Trace K)) (hs' : trimmed a.trim s = .ok s')
    (hnz : ∃ t ∈ s', ∃ x ∈ t.data, x ≠ 0) :
    (∃ c ∈ fig.curves, ∃ v, some v ∈ c.d ∧ |v| = |a.scaleFactor|) ∧
    ∃ q : K, ∀ (k : Nat) (t : Trace K) (c : Curve K), s'[k]? = some t → fig.curves[k]? = some c →
      c.d = t.data.map (fun x => some (x * q)) := by
  obtain ⟨s'', gmax, h1, h2, h3, h4⟩ := C83_curves shw stack a hs s fig h
  rw [hs'] at h1
  cases h1
  obtain ⟨hb, t, ht, x, hx, hmax⟩ := streamMax_spec s' gmax h2
  have hg : gmax ≠ 0 := by
    rintro rfl
    obtain ⟨t', ht', y, hy, hy0⟩ := hnz
    exact hy0 (abs_eq_zero.1 (le_antisymm ((hb t' ht').2 y hy) (abs_nonneg _)))
  have key : ∀ (k : Nat) (t : Trace K) (c : Curve K), s'[k]? = some t → fig.curves[k]? = some c →
      c.d = scaled gmax a.scaleFactor t.data := by
    intro k t c hk hc
    obtain ⟨o, m, -, -, -, hd, -, e2⟩ := h4 k t c hk hc
    rw [hd, e2 hts]
  constructor
  · obtain ⟨k, hk, rfl⟩ := List.mem_iff_getElem.1 ht
    have hk' : k < fig.curves.length := by rw [h3]; exact hk
    refine ⟨fig.curves[k], List.getElem_mem hk', ?_⟩
    rw [key k _ _ (List.getElem?_eq_getElem hk) (List.getElem?_eq_getElem hk')]
    exact scaled_attained gmax _ _ hg ⟨x, hx, hmax⟩
  · refine ⟨a.scaleFactor / gmax, ?_⟩
    intro k t c hk hc
    rw [key k t c hk hc]
    unfold scaled
    refine List.map_congr_left fun y _ => ?_
    rw [if_neg hg]
    congr 1
    field_simp

/-- **C83** Positive and negative filling do not overlap and, with both colours, cover every sample which is a number. -/
theorem C83_filling (c1 c2 : Str) (h1 : c1 ≠ []) (h2 : c2 ≠ []) (t : List K) (d : List (Option K)) (i : K) :
    ∃ f g, (plotCurve (some c1, some c2) t d i).fills = [f, g] ∧ f.color = c1 ∧ g.color = c2 ∧
      f.base = i ∧ g.base = i ∧
      ∀ (k : Nat) (x : Option K), d[k]? = some x →
        (f.which[k]? = some true ↔ ∃ y, x = some y ∧ 0 ≤ y) ∧ (g.which[k]? = some true ↔ ∃ y, x = some y ∧ y < 0) := by
  cases c1 with
  | nil => exact absurd rfl h1
  | cons a as =>
    cases c2 with
    | nil => exact absurd rfl h2
    | cons b bs =>
      refine ⟨_, _, rfl, rfl, rfl, rfl, rfl, ?_⟩
      intro k x hk
      simp only [List.getElem?_map, hk, Option.map_some, Option.some.injEq]
      cases x <;> simp

/-! ## C100: layout -/

/-- **C100** The panels of `plot_rf` lie within the figure and do not overlap, for any number of traces and any positive
sizes (the figure being wide enough for the margins). -/
theorem C100_layout (fw th sh : K) (n : Nat) (info : Bool) (hw : (if info then 8 / 5 else 7 / 10) < fw) (ht : 0 ≤ th)
    (hs : 0 ≤ sh) :
    let L := layout fw th sh n info
    0 < L.traces.left ∧ 0 < L.traces.bottom ∧ 0 < L.traces.width ∧
    L.traces.bottom + L.traces.height < L.stack.bottom ∧ L.stack.bottom + L.stack.height < 1 ∧
    L.stack.left = L.traces.left ∧ L.stack.width = L.traces.width ∧
    L.traces.left + L.traces.width < 1 ∧
    (info = true → L.traces.left + L.traces.width < L.info.left ∧ L.info.left + L.info.width < 1 ∧
      L.info.bottom = L.traces.bottom ∧ L.info.height = L.traces.height) := by
  have hfw : 0 < fw := by
    refine lt_trans ?_ hw
    split <;> norm_num
  have hn : (0 : K) ≤ (n : K) := Nat.cast_nonneg n
  have hth : 0 ≤ th * ((n : K) + 2) := mul_nonneg ht (by linarith)
  have hfh : 0 < th * ((n : K) + 2) + sh + 1 / 2 + 1 / 5 + 1 / 10 := by linarith
  simp only [layout]
  set fh := th * ((n : K) + 2) + sh + 1 / 2 + 1 / 5 + 1 / 10 with hfhdef
  have e1 : th / fh * ((n : K) + 2) = th * ((n : K) + 2) / fh := by ring
  refine ⟨by positivity, by positivity, ?_, ?_, ?_, trivial, trivial, ?_, ?_⟩
  · refine div_pos ?_ hfw
    cases info
    · simp only [Bool.false_eq_true, if_false] at hw ⊢; linarith
    · simp only [if_true] at hw ⊢; linarith
  · rw [e1, ← add_div]
    have : 1 - 1 / 5 / fh - sh / fh = (fh - 1 / 5 - sh) / fh := by field_simp
    rw [this]
    exact div_lt_div_of_pos_right (by rw [hfhdef]; linarith) hfh
  · have : (1 : K) - 1 / 5 / fh - sh / fh + sh / fh = 1 - 1 / 5 / fh := by ring
    rw [this]
    have : 0 < 1 / 5 / fh := by positivity
    linarith
  · rw [← add_div, div_lt_one hfw]
    cases info
    · simp only [Bool.false_eq_true, if_false]; linarith
    · simp only [if_true]; linarith
  · rintro rfl
    simp only [if_true]
    refine ⟨?_, ?_, trivial, trivial⟩
    · rw [← add_div]
      have : 1 - 1 / 5 / fw - 4 / 5 / fw = (fw - 1 / 5 - 4 / 5) / fw := by field_simp
      rw [this]
      exact div_lt_div_of_pos_right (by linarith) hfw
    · have : (1 : K) - 1 / 5 / fw - 4 / 5 / fw + 4 / 5 / fw = 1 - 1 / 5 / fw := by ring
      rw [this]
      have : 0 < 1 / 5 / fw := by positivity
      linarith

/-- **C100** Each trace gets the requested height: the panel of the traces is `n + 2` units high, as are its limits, and
one unit is `trace_height` inches; the panel of the stack is `stack_height` inches high. -/
theorem C100_height (shw : Nat → Str) (stack : List (Trace K) → Res (List (Trace K))) (a : RfPlotArgs K)
    (hs : a.showTraces = true) (s : List (Trace K)) (fig : RfFigure K) (h : plotRf shw stack a s = .ok (some fig))
    (ht : 0 ≤ a.traceHeight) (hst : 0 ≤ a.stackHeight) :
    fig.layout.traces.height * fig.layout.height = a.traceHeight * (fig.ylim.2 - fig.ylim.1) ∧
    fig.layout.stack.height * fig.layout.height = a.stackHeight := by
  obtain ⟨s', gmax, st, info, sc, h1, h2, h3, h4, h5, h6, h7, h8, h9, h10, h11, h12, -⟩ := plotRf_inv shw stack a s fig h
  rw [h12, h8]
  have hn : (0 : K) ≤ (s'.length : K) := Nat.cast_nonneg _
  have hth : 0 ≤ a.traceHeight * ((s'.length : K) + 2) := mul_nonneg ht (by linarith)
  have hfh : a.traceHeight * ((s'.length : K) + 2) + a.stackHeight + 1 / 2 + 1 / 5 + 1 / 10 ≠ 0 := by
    apply ne_of_gt; linarith
  simp only [layout, hs, if_true]
  constructor
  · field_simp
    ring
  · field_simp

/-! ## C101: limits -/

theorem times_range (t : Trace K) (o : K) (hsr : 0 ≤ t.sr) (a b : K) (h : ends (times t o) = .ok (a, b)) :
    ∀ x ∈ times t o, a ≤ x ∧ x ≤ b := by
  have hdel : 0 ≤ t.delta := by unfold Trace.delta; positivity
  unfold ends times at h
  cases hn : t.data.length with
  | zero => rw [hn] at h; simp at h
  | succ n =>
    rw [hn] at h
    simp only [List.head?_map, List.getLast?_map, List.head?_range, List.getLast?_range, Nat.add_eq_zero_iff,
      one_ne_zero, and_false, if_false, Option.map_some, Except.ok.injEq, Prod.mk.injEq, Nat.add_sub_cancel] at h
    intro x hx
    unfold times at hx
    rw [hn] at hx
    obtain ⟨i, hi, rfl⟩ := List.mem_map.1 hx
    have hi' : i ≤ n := by have := List.mem_range.1 hi; omega
    have hc : (i : K) ≤ (n : K) := by exact_mod_cast hi'
    have h1 : (i : K) * t.delta ≤ (n : K) * t.delta := mul_le_mul_of_nonneg_right hc hdel
    have h2 : 0 ≤ (i : K) * t.delta := mul_nonneg (Nat.cast_nonneg _) hdel
    rw [← h.1, ← h.2]
    simp only [Nat.cast_zero, zero_mul]
    constructor <;> linarith

theorem rfLoop_xlim (a : RfPlotArgs K) (gmax : K) (s : List (Trace K)) (hsr : ∀ t ∈ s, 0 ≤ t.sr) (st st' : LoopState K)
    (i : Nat) (h : rfLoop a gmax st i s = .ok st') :
    st'.xlim.1 ≤ st.xlim.1 ∧ st.xlim.2 ≤ st'.xlim.2 ∧
    ∀ t ∈ s, ∃ o, t.getTime "onset" = some o ∧ ∀ x ∈ times t o, st'.xlim.1 ≤ x ∧ x ≤ st'.xlim.2 := by
  induction s generalizing st i with
  | nil =>
    simp only [rfLoop, Except.ok.injEq] at h
    rw [h]
    exact ⟨le_refl _, le_refl _, by simp⟩
  | cons t ts ih =>
    unfold rfLoop at h
    cases hb : rfLoopStep a gmax st i t with
    | error e => simp [hb] at h
    | ok st1 =>
      simp only [hb] at h
      obtain ⟨h1, h2, h3⟩ := ih (fun t ht => hsr t (List.mem_cons_of_mem _ ht)) st1 (i + 1) h
      unfold rfLoopStep at hb
      cases ho : onset t with
      | error e => simp [ho] at hb
      | ok o =>
        simp only [ho] at hb
        cases he : ends (times t o) with
        | error e => simp [he] at hb
        | ok p =>
          obtain ⟨t0, t1⟩ := p
          have hx : st1.xlim = (min st.xlim.1 t0, max st.xlim.2 t1) := by
            simp only [he] at hb
            split at hb
            · split at hb
              · cases hb
              · simp only [Except.ok.injEq] at hb
                rw [← hb]
            · simp only [Except.ok.injEq] at hb
              rw [← hb]
          rw [hx] at h1 h2
          simp only [] at h1 h2
          refine ⟨le_trans h1 (min_le_left _ _), le_trans (le_max_left _ _) h2, ?_⟩
          intro t' ht'
          rcases List.mem_cons.1 ht' with rfl | ht'
          · refine ⟨o, ?_, fun x hx' => ?_⟩
            · unfold onset at ho
              split at ho
              · rename_i o' ho'
                simp only [Except.ok.injEq] at ho
                rw [ho', ho]
              · cases ho
            · have := times_range t' o (hsr t' (by simp)) t0 t1 he x hx'
              exact ⟨le_trans (le_trans h1 (min_le_right _ _)) this.1, le_trans this.2 (le_trans (le_max_right _ _) h2)⟩
          · exact h3 t' ht'

/-- **C101** The time axis of `plot_rf` shows all samples of all traces and the onset. -/
theorem C101_times (shw : Nat → Str) (stack : List (Trace K) → Res (List (Trace K))) (a : RfPlotArgs K)
    (s s' : List (Trace K)) (hs' : trimmed a.trim s = .ok s') (hsr : ∀ t ∈ s', 0 ≤ t.sr) (fig : RfFigure K)
    (h : plotRf shw stack a s = .ok (some fig)) :
    fig.xlim.1 ≤ 0 ∧ 0 ≤ fig.xlim.2 ∧
    ∀ t ∈ s', ∃ o, t.getTime "onset" = some o ∧
      ∀ i < t.data.length, fig.xlim.1 ≤ (t.start + (i : K) / t.sr) - o ∧ (t.start + (i : K) / t.sr) - o ≤ fig.xlim.2 := by
  obtain ⟨s'', gmax, st, info, sc, h1, h2, h3, h4, h5, h6, h7, -⟩ := plotRf_inv shw stack a s fig h
  rw [hs'] at h1
  cases h1
  obtain ⟨e1, e2, e3⟩ := rfLoop_xlim a gmax s' hsr _ st 0 h3
  rw [h7]
  refine ⟨e1, e2, fun t ht => ?_⟩
  obtain ⟨o, ho, hx⟩ := e3 t ht
  refine ⟨o, ho, fun i hi => ?_⟩
  have := hx ((i : K) * t.delta + (t.start - o)) (List.mem_map.2 ⟨i, List.mem_range.2 hi, rfl⟩)
  have e : (t.start + (i : K) / t.sr) - o = (i : K) * t.delta + (t.start - o) := by unfold Trace.delta; ring
  rw [e]
  exact this

/-- **C101** With a scale factor up to 1.5 nothing is cut off vertically. -/
theorem C101_amplitudes (shw : Nat → Str) (stack : List (Trace K) → Res (List (Trace K))) (a : RfPlotArgs K)
    (hs : a.showTraces = true) (hf : |a.scaleFactor| ≤ 3 / 2) (s : List (Trace K)) (fig : RfFigure K)
    (h : plotRf shw stack a s = .ok (some fig)) (c : Curve K) (hc : c ∈ fig.curves) (v : K) (hv : some v ∈ c.d) :
    fig.ylim.1 ≤ c.base + v ∧ c.base + v ≤ fig.ylim.2 := by
  have hb := abs_le.1 (le_trans (C83_bound shw stack a hs s fig h c hc v hv) hf)
  obtain ⟨s', gmax, h1, h2, h3, h4⟩ := C83_curves shw stack a hs s fig h
  obtain ⟨s'', gmax', st, info, sc, g1, g2, g3, g4, g5, g6, g7, g8, -⟩ := plotRf_inv shw stack a s fig h
  rw [h1] at g1
  cases g1
  obtain ⟨k, hk, rfl⟩ := List.mem_iff_getElem.1 hc
  have hk' : k < s'.length := by rw [← h3]; exact hk
  obtain ⟨o, m, -, -, hbase, -⟩ := h4 k _ _ (List.getElem?_eq_getElem hk') (List.getElem?_eq_getElem hk)
  rw [hbase, g8]
  have h0 : (0 : K) ≤ (k : K) := Nat.cast_nonneg _
  have h9 : (k : K) + 1 ≤ (s'.length : K) := by exact_mod_cast hk'
  simp only []
  constructor <;> linarith [hb.1, hb.2]

end ordered

/-- Two traces of different amplitude. -/
def plotTraces : List (Trace ℚ) :=
  [⟨"CX".toList, "PB01".toList, [], "BHQ".toList, 10, 1, [1, -2, 1], [("onset", .time 11)]⟩,
   ⟨"CX".toList, "PB01".toList, [], "BHQ".toList, 20, 1, [4, 0, 1], [("onset", .time 21)]⟩]

/-- Default arguments of `plot_rf` without the panels of header entries. -/
def plotArgs : RfPlotArgs ℚ :=
  { figWidth := 7, traceHeight := 1 / 2, stackHeight := 1 / 2, traceScale := false, scaleFactor := 1,
    fillcolors := (none, none), trim := none, info := none, showTraces := true, showVlines := false }

/-- The figure for these traces. -/
def plotFigure : Option (RfFigure ℚ) :=
  match plotRf (fun _ => "2".toList) (fun s => .ok (s.take 1)) plotArgs plotTraces with
  | .ok f => f
  | .error _ => none

/-- The hypotheses of the theorems on `plot_rf` are met. -/
example : plotFigure.map (fun f => f.curves.map (fun c => c.d)) =
      some [[some (1 / 4), some (-1 / 2), some (1 / 4)], [some 1, some 0, some (1 / 4)]] ∧
    plotFigure.map (fun f => f.xlim) = some (-1, 1) ∧
    plotFigure.map (fun f => f.title) = some (some "2 traces  CX.PB01..BHQ".toList) := by decide +kernel

end Verif.Props
