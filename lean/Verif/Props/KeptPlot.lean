import Verif.Props.KeptHeaders
import Verif.Model.Imaging

/-!
# Which header entries matter for the figures (C194)
-/

set_option linter.unusedSimpArgs false
set_option linter.unusedSectionVars false

namespace Verif.Props
open Verif.Py Verif.Model Verif.Spec Imaging

section
variable {K : Type} [Field K] [LinearOrder K] {ks : String → Prop}

/-- The traces of two streams agree one by one. -/
abbrev KeptT (ks : String → Prop) (s s' : List (Trace K)) : Prop := List.Forall₂ (SameKept ks) s s'

/-- A trimming that respects the relation. -/
def KeptTrim (ks : String → Prop) (trim : Option (List (Trace K) → Res (List (Trace K)))) : Prop :=
  ∀ f, trim = some f → ∀ s s', KeptT ks s s' → KeptL ks (f s) (f s')

theorem kept_trimmed {trim : Option (List (Trace K) → Res (List (Trace K)))} (ht : KeptTrim ks trim)
    {s s' : List (Trace K)} (h : KeptT ks s s') : KeptL ks (trimmed trim s) (trimmed trim s') := by
  cases trim with
  | none => exact .ok _ _ h
  | some f => exact ht f rfl s s' h

theorem kept_attr {t t' : Trace K} (h : SameKept ks t t') {k : String} (hk : ks k) : attr k t = attr k t' := by
  unfold attr; rw [h.getNum hk]

theorem kept_attrs {s s' : List (Trace K)} (h : KeptT ks s s') {k : String} (hk : ks k) : attrs k s = attrs k s' := by
  induction h with
  | nil => rfl
  | cons ht _ ih => unfold attrs; rw [kept_attr ht hk, ih]

theorem kept_streamMax {s s' : List (Trace K)} (h : KeptT ks s s') : streamMax s = streamMax s' := by
  induction h with
  | nil => rfl
  | @cons t t' s s' ht hs ih =>
    cases hs with
    | nil => simp only [streamMax, ht.data]
    | cons hu hv => simp only [streamMax, ht.data] at ih ⊢; rw [ih]

theorem kept_onset {t t' : Trace K} (h : SameKept ks t t') (ho : ks "onset") : Imaging.onset t = Imaging.onset t' := by
  unfold Imaging.onset; rw [h.getTime ho]

theorem kept_profCurves {s s' : List (Trace K)} (h : KeptT ks s s') (ho : ks "onset") (hb : ks "box_pos")
    (c : Option Str × Option Str) (scale m w : K) : profCurves c scale m w s = profCurves c scale m w s' := by
  induction h with
  | nil => rfl
  | @cons t t' s s' ht hs ih =>
    have : profCurve c scale m w t = profCurve c scale m w t' := by
      have hy : profY t = profY t' := by funext o; unfold profY; rw [ht.data, ht.delta, ht.start]
      unfold profCurve
      rw [kept_attr ht hb, kept_onset ht ho, hy, ht.data]
    unfold profCurves
    rw [this, ih]

theorem kept_ticksPart {t t' : Trace K} (h : SameKept ks t t') (ho : ks "onset") (hs : ks "slowness") (hm : ks "moveout")
    (find : List K → K → Nat) (model : Option (List K × (Str → K → Res (List K)))) :
    ticksPart find model t = ticksPart find model t' := by
  have e : t.getStr "moveout" = t'.getStr "moveout" := by unfold Trace.getStr; rw [h.ext _ hm]
  unfold ticksPart depthTicks
  rw [e, kept_attr h hs, kept_onset h ho, h.endtime]

/-- **C194** The figure of a profile without histogram depends only on samples, times and the entries onset, box position
and width, slowness and moveout phase.

Full statement, which is false: the same for all figures of `plot_profile`. -/
theorem C194_profile_partial (find : List K → K → Nat) (a : ProfPlotArgs K) (htrim : KeptTrim ks a.trim)
    (htop : a.top ≠ some "hist".toList) (ho : ks "onset") (hb : ks "box_pos") (hl : ks "box_length") (hs : ks "slowness")
    (hm : ks "moveout") (s s' : List (Trace K)) (h : KeptT ks s s') : plotProfile find a s = plotProfile find a s' := by
  unfold plotProfile
  have htr := kept_trimmed htrim h
  cases h with
  | nil => rfl
  | @cons t t' s s' ht hss =>
    simp only
    generalize trimmed a.trim (t :: s) = x at htr
    generalize trimmed a.trim (t' :: s') = y at htr
    cases htr with
    | error e => rfl
    | ok u u' hu =>
      simp only
      rw [kept_attrs hu hl, kept_attrs hu hb, kept_streamMax hu]
      have htp : topPart a.top u = topPart a.top u' := by
        unfold topPart
        cases htop' : a.top with
        | none => rfl
        | some x =>
          have : x ≠ "hist".toList := fun e => htop (by rw [htop', e])
          simp only [this, if_false]
      cases hu with
      | nil => rfl
      | cons hv hw =>
        simp only [kept_profCurves (.cons hv hw) ho hb, kept_ticksPart hv ho hs hm, htp]

/-- **C194** The histogram depends on the number of traces in addition. -/
theorem C194_hist_partial (find : List K → K → Nat) (a : ProfPlotArgs K) (htrim : KeptTrim ks a.trim)
    (hn : ks "num") (ho : ks "onset") (hb : ks "box_pos") (hl : ks "box_length") (hs : ks "slowness")
    (hm : ks "moveout") (s s' : List (Trace K)) (h : KeptT ks s s') : plotProfile find a s = plotProfile find a s' := by
  have hh : ∀ u u' : List (Trace K), KeptT ks u u' → histBars u = histBars u' := by
    intro u u' hu
    induction hu with
    | nil => rfl
    | cons hv _ ih => unfold histBars; rw [kept_attr hv hb, kept_attr hv hl, kept_attr hv hn, ih]
  unfold plotProfile
  have htr := kept_trimmed htrim h
  cases h with
  | nil => rfl
  | @cons t t' s s' ht hss =>
    simp only
    generalize trimmed a.trim (t :: s) = x at htr
    generalize trimmed a.trim (t' :: s') = y at htr
    cases htr with
    | error e => rfl
    | ok u u' hu =>
      simp only
      rw [kept_attrs hu hl, kept_attrs hu hb, kept_streamMax hu]
      have htp : topPart a.top u = topPart a.top u' := by
        unfold topPart; rw [hh u u' hu]
      cases hu with
      | nil => rfl
      | cons hv hw =>
        simp only [kept_profCurves (.cons hv hw) ho hb, kept_ticksPart hv ho hs hm, htp]

/-! ## plot_rf -/

theorem kept_rfLoop {s s' : List (Trace K)} (h : KeptT ks s s') (ho : ks "onset") (a : RfPlotArgs K) (g : K)
    (st : LoopState K) (i : Nat) : rfLoop a g st i s = rfLoop a g st i s' := by
  induction h generalizing st i with
  | nil => rfl
  | @cons t t' s s' ht hs ih =>
    have hti : Imaging.times t = Imaging.times t' := by
      funext o; unfold Imaging.times; rw [ht.data, ht.delta, ht.start]
    have : rfLoopStep a g st i t = rfLoopStep a g st i t' := by
      unfold rfLoopStep divisor
      rw [kept_onset ht ho, hti, ht.data]
    unfold rfLoop
    rw [this]
    cases rfLoopStep a g st i t' with
    | error e => rfl
    | ok st' => exact ih st' (i + 1)

theorem kept_headerValues {s s' : List (Trace K)} (h : KeptT ks s s') {k : String} (hk : ks k) :
    headerValues k s = headerValues k s' := by
  induction h with
  | nil => rfl
  | cons ht _ ih => unfold headerValues; rw [ht.ext k hk, ih]

theorem kept_infoPanels {s s' : List (Trace K)} (h : KeptT ks s s') (n : Nat) (l : List (String × Str))
    (hk : ∀ e ∈ l, ks e.1) : infoPanels s n l = infoPanels s' n l := by
  induction l generalizing n with
  | nil => rfl
  | cons e l ih =>
    obtain ⟨k, x⟩ := e
    unfold infoPanels
    rw [kept_headerValues h (hk (k, x) List.mem_cons_self), ih _ fun e he => hk e (List.mem_cons_of_mem _ he), h.length_eq]

theorem kept_map {s s' : List (Trace K)} (h : KeptT ks s s') (f : Trace K → Str)
    (hf : ∀ t t', SameKept ks t t' → f t = f t') : s.map f = s'.map f := by
  induction h with
  | nil => rfl
  | cons ht _ ih => rw [List.map_cons, List.map_cons, hf _ _ ht, ih]

theorem kept_label {s s' : List (Trace K)} (h : KeptT ks s s') : label s = label s' := by
  unfold label labelFmts
  simp only [firstUnique]
  rw [kept_map h _ fun t t' ht => by rw [ht.net, ht.sta, ht.loc, ht.cha],
    kept_map h _ fun t t' ht => by rw [ht.net, ht.sta, ht.loc, ht.cha],
    kept_map h _ fun t t' ht => by rw [ht.net, ht.sta]]

/-- **C194** The figure of `plot_rf` depends only on codes, samples, times, the onset and the entries shown in the
panels. -/
theorem C194_rf (shw : Nat → Str) (stack : List (Trace K) → Res (List (Trace K))) (a : RfPlotArgs K)
    (htrim : KeptTrim ks a.trim) (hstack : ∀ s s', KeptT ks s s' → KeptL ks (stack s) (stack s'))
    (ho : ks "onset") (hi : ∀ e ∈ effInfo a, ks e.1) (s s' : List (Trace K)) (h : KeptT ks s s') :
    plotRf shw stack a s = plotRf shw stack a s' := by
  unfold plotRf
  have htr := kept_trimmed htrim h
  cases h with
  | nil => rfl
  | @cons t t' s s' ht hss =>
    simp only
    generalize trimmed a.trim (t :: s) = x at htr
    generalize trimmed a.trim (t' :: s') = y at htr
    cases htr with
    | error e => rfl
    | ok u u' hu =>
      have hst : ∀ last, stackPart a stack last u = stackPart a stack last u' := by
        intro last
        have hs := hstack u u' hu
        unfold stackPart
        generalize stack u = p at hs
        generalize stack u' = q at hs
        cases hs with
        | error e => rfl
        | ok l l' hl =>
          cases hl with
          | nil => rfl
          | cons h1 h2 =>
            cases h2 with
            | nil => simp only [h1.data]
            | cons _ _ => rfl
      simp only
      rw [kept_streamMax hu]
      simp only [kept_rfLoop hu ho, kept_infoPanels hu 0 _ hi, hst, hu.length_eq, rfTitle, kept_label hu]

end

/-- A trace of a profile. -/
def profTrace : Trace ℚ := ⟨[], [], [], "??L".toList, 0, 1, [1, 2],
  [("onset", .time 1), ("box_pos", .num 5), ("box_length", .num 10), ("num", .num 3), ("processing", .list [])]⟩

/-- The same after reading it from a file with the entries of `_HEADERS`. -/
def profTraceRead : Trace ℚ := { profTrace with ext := profTrace.ext.filter fun p => decide (p.1 ∈ Headers.headers) }

theorem profTrace_kept : SameKept (· ∈ Headers.headers) profTrace profTraceRead := by
  refine ⟨rfl, rfl, rfl, rfl, rfl, rfl, rfl, ?_⟩
  have : ∀ k ∈ Headers.headers, profTrace.ext.get k = profTraceRead.ext.get k := by decide +kernel
  exact this

/-- **C194** The histogram needs `num`, which is not among the headers written to SAC and SH files: `plot_profile` with
`top='hist'` draws a bar of height 3 for a profile in memory and raises `AttributeError` for the same profile read from
such files. -/
theorem C194_counterexample : SameKept (· ∈ Headers.headers) profTrace profTraceRead ∧
    (∃ fig bs, plotProfile (fun _ _ => 0) ⟨1, (none, none), none, some "hist".toList, none⟩ [profTrace] = .ok (some fig) ∧
      fig.bars = some bs ∧ bs.map Bar.height = [3]) ∧
    plotProfile (fun _ _ => 0) ⟨1, (none, none), none, some "hist".toList, none⟩ [profTraceRead]
      = .error .attributeError := by
  refine ⟨profTrace_kept, ⟨_, _, rfl, rfl, by decide +kernel⟩, by rfl⟩

/-- C194 is not vacuous: the profile read from the file has another header, and both are drawn. -/
example : KeptT (· ∈ Headers.headers) [profTrace] [profTraceRead] ∧ profTrace ≠ profTraceRead ∧
    (∃ fig, plotProfile (fun _ _ => 0) ⟨1, (none, none), none, none, none⟩ [profTraceRead] = .ok (some fig) ∧
      fig.curves.length = 1) ∧
    ∃ fig, plotRf (fun _ => []) (fun s => .ok s)
      ⟨7, 1, 1, false, 1, (none, none), none, some [("box_pos", [])], true, true⟩ [profTraceRead] = .ok (some fig) ∧
      fig.curves.length = 1 := by
  exact ⟨.cons profTrace_kept .nil, by decide +kernel, ⟨_, rfl, rfl⟩, ⟨_, rfl, rfl⟩⟩

end Verif.Props
