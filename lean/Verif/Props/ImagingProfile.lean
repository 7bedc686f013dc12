import Verif.Props.Imaging
import Verif.Model.Stream

/-!
# Plots: stack, profile (C83, C102, C103, C104, C105, C106)
-/

set_option linter.unusedSimpArgs false
set_option linter.unusedSectionVars false

namespace Verif.Props
open Verif.Py Verif.Model.Imaging

/-- The stream as heap of trace objects. -/
def listHeap {K : Type} (d : Trace K) (s : List (Trace K)) : Heap K := fun r => s.getD r d

/-- `stream.stack()` for a list of trace values. -/
def listStack {K : Type} [Field K] (d : Trace K) (order : List Str → List Str) (s : List (Trace K)) :
    Res (List (Trace K)) :=
  Verif.Model.stack order (listHeap d s) (List.range s.length)

section ordered
variable {K : Type} [Field K] [LinearOrder K] [IsStrictOrderedRing K]

/-! ## C102: stack of plot_rf -/

theorem rfLoop_last (a : RfPlotArgs K) (gmax : K) (s : List (Trace K)) (st st' : LoopState K) (i : Nat)
    (h : rfLoop a gmax st i s = .ok st') :
    ∀ t, s.getLast? = some t → ∃ o, t.getTime "onset" = some o ∧ st'.last = times t o := by
  induction s generalizing st i with
  | nil => intro t ht; cases ht
  | cons t ts ih =>
    unfold rfLoop at h
    cases hb : rfLoopStep a gmax st i t with
    | error e => simp [hb] at h
    | ok st1 =>
      simp only [hb] at h
      cases ts with
      | nil =>
        intro t' ht'
        simp only [List.getLast?_singleton, Option.some.injEq] at ht'
        subst ht'
        simp only [rfLoop, Except.ok.injEq] at h
        subst h
        unfold rfLoopStep at hb
        cases ho : onset t with
        | error e => simp [ho] at hb
        | ok o =>
          refine ⟨o, ?_, ?_⟩
          · unfold onset at ho
            split at ho
            · rename_i o' ho'
              simp only [Except.ok.injEq] at ho
              rw [ho', ho]
            · cases ho
          · simp only [ho] at hb
            cases he : ends (times t o) with
            | error e => simp [he] at hb
            | ok p =>
              simp only [he] at hb
              split at hb
              · split at hb
                · cases hb
                · simp only [Except.ok.injEq] at hb
                  rw [← hb]
              · simp only [Except.ok.injEq] at hb
                rw [← hb]
      | cons u us =>
        intro t' ht'
        exact ih st1 (i + 1) h t' (by simpa using ht')

/-- **C102** (what holds) The stack is drawn if and only if there is a single stacked trace, with its unscaled data; the
times are those of the last trace of the stream.  They are the times of the stack relative to its own onset if all
traces have the same sampling rate and the same time between start and onset. -/
theorem C102_stack_partial (shw : Nat → Str) (stack : List (Trace K) → Res (List (Trace K))) (a : RfPlotArgs K)
    (s s' : List (Trace K)) (hs' : trimmed a.trim s = .ok s') (fig : RfFigure K)
    (h : plotRf shw stack a s = .ok (some fig)) :
    (∀ c, fig.stack = some c → ∃ t, stack s' = .ok [t] ∧ c.d = t.data.map some ∧ c.base = 0 ∧
      ∃ l o, s'.getLast? = some l ∧ l.getTime "onset" = some o ∧ c.t = times l o ∧
        ∀ o', t.getTime "onset" = some o' → t.data.length = l.data.length → t.sr = l.sr →
          o' - t.start = o - l.start → c.t = times t o') ∧
    (fig.stack = none ↔ ∀ t, stack s' ≠ .ok [t]) := by
  obtain ⟨s'', gmax, st, info, sc, h1, h2, h3, h4, h5, h6, h7, h8, h9, h10, -⟩ := plotRf_inv shw stack a s fig h
  rw [hs'] at h1
  cases h1
  rw [h9]
  obtain ⟨c0, ws⟩ := sc
  unfold stackPart at h5
  have hl : ∃ l, s'.getLast? = some l := by
    cases hg : s'.getLast? with
    | none =>
      rw [List.getLast?_eq_none_iff] at hg
      rw [hg] at h2
      cases h2
    | some l => exact ⟨l, rfl⟩
  obtain ⟨l, hl⟩ := hl
  obtain ⟨o, ho, hlast⟩ := rfLoop_last a gmax s' _ st 0 h3 l hl
  cases hst : stack s' with
  | error e =>
    rw [hst] at h5
    have hn : c0 = none := by
      cases e <;> simp only [Except.ok.injEq, Prod.mk.injEq, reduceCtorEq] at h5
      exact h5.1.symm
    subst hn
    simp
  | ok l1 =>
    rw [hst] at h5
    match l1 with
    | [] =>
      simp only [Except.ok.injEq, Prod.mk.injEq] at h5
      rw [← h5.1]
      simp
    | _ :: _ :: _ =>
      simp only [Except.ok.injEq, Prod.mk.injEq] at h5
      rw [← h5.1]
      simp
    | [t] =>
      simp only [] at h5
      split at h5
      · cases h5
      · simp only [Except.ok.injEq, Prod.mk.injEq] at h5
        rw [← h5.1]
        refine ⟨?_, by simp⟩
        intro c hc
        simp only [Option.some.injEq] at hc
        subst hc
        refine ⟨t, rfl, rfl, rfl, l, o, hl, ho, hlast, ?_⟩
        intro o' ho' e1 e2 e3
        have : (plotCurve a.fillcolors st.last (t.data.map some) 0).t = times l o := hlast
        rw [this]
        unfold times
        rw [e1]
        refine List.map_congr_left fun i _ => ?_
        unfold Trace.delta
        rw [e2]
        have : l.start - o = t.start - o' := by
          have := congrArg (fun x => -x) e3
          simp only [neg_sub] at this
          exact this.symm
        rw [this]

/-- **C103** (what holds) The plot of the stack does not fail by itself unless grid lines are requested without traces. -/
theorem C103_vlines_partial (a : RfPlotArgs K) (stack : List (Trace K) → Res (List (Trace K))) (last : List K)
    (s : List (Trace K)) (l : List (Trace K)) (hst : stack s = .ok l) (hv : a.showTraces = true ∨ a.showVlines = false) :
    ∃ p, stackPart a stack last s = .ok p := by
  unfold stackPart
  rw [hst]
  match l with
  | [] => exact ⟨_, rfl⟩
  | [t] =>
    simp only []
    rw [if_neg]
    · exact ⟨_, rfl⟩
    · rcases hv with hv | hv <;> simp [hv]
  | _ :: _ :: _ => exact ⟨_, rfl⟩

/-- **C103** Streams which cannot be stacked, or do not stack to a single trace, are plotted without stack and with a
warning; other errors of stacking are passed on. -/
theorem C103_nostack (a : RfPlotArgs K) (stack : List (Trace K) → Res (List (Trace K))) (last : List K)
    (s : List (Trace K)) :
    (stack s = .error .valueError → ∃ w, stackPart a stack last s = .ok (none, [w])) ∧
    (∀ l, stack s = .ok l → 2 ≤ l.length → ∃ w, stackPart a stack last s = .ok (none, [w])) ∧
    (∀ e, e ≠ .valueError → stack s = .error e → stackPart a stack last s = .error e) := by
  unfold stackPart
  refine ⟨?_, ?_, ?_⟩
  · intro h
    rw [h]
    exact ⟨_, rfl⟩
  · intro l h hl
    rw [h]
    match l, hl with
    | _ :: _ :: _, _ => exact ⟨_, rfl⟩
  · intro e he h
    rw [h]
    cases e <;> first | rfl | exact absurd rfl he

/-! ## C108: information at the side -/

/-- **C108** Each entry of `info` (at most two) gives one panel with the header values of all traces in order, each
at the height of its trace. -/
theorem C108_info (s : List (Trace K)) (n : Nat) (info : List (String × Str)) (ps : List (InfoPanel K))
    (h : infoPanels s n info = .ok ps) :
    (info ≠ [] → n + info.length ≤ 2) ∧
    List.Forall₂ (fun (e : String × Str) (p : InfoPanel K) => p.key = e.1 ∧
      List.Forall₂ (fun (t : Trace K) (v : Val K) => t.ext.get e.1 = some v) s p.values ∧ p.pos.length = s.length ∧
      ∀ i < s.length, p.pos.getD i 0 = (i : K) + 1) info ps := by
  induction info generalizing n ps with
  | nil =>
    simp only [infoPanels, Except.ok.injEq] at h
    subst h
    exact ⟨fun h => absurd rfl h, .nil⟩
  | cons e rest ih =>
    obtain ⟨key, lab⟩ := e
    unfold infoPanels at h
    by_cases hn : 2 ≤ n
    · rw [if_pos hn] at h; cases h
    · rw [if_neg hn] at h
      cases hv : headerValues key s with
      | error e => simp [hv] at h
      | ok vs =>
        simp only [hv] at h
        cases hr : infoPanels s (n + 1) rest with
        | error e => simp [hr] at h
        | ok qs =>
          simp only [hr, Except.ok.injEq] at h
          subst h
          obtain ⟨i1, i2⟩ := ih (n + 1) qs hr
          refine ⟨?_, .cons ⟨rfl, ?_, by simp, ?_⟩ i2⟩
          · intro _
            by_cases hre : rest = []
            · subst hre
              simp only [List.length_cons, List.length_nil]
              omega
            · have := i1 hre
              simp only [List.length_cons]
              omega
          · clear i1 i2 hr ih
            induction s generalizing vs with
            | nil =>
              simp only [headerValues, Except.ok.injEq] at hv
              subst hv
              exact .nil
            | cons t ts ih =>
              unfold headerValues at hv
              cases hg : t.ext.get key with
              | none => simp [hg] at hv
              | some v =>
                simp only [hg] at hv
                cases hh : headerValues key ts with
                | error e => simp [hh] at hv
                | ok vs' =>
                  simp only [hh, Except.ok.injEq] at hv
                  subst hv
                  exact .cons hg (ih vs' hh)
          · intro i hi
            simp only [List.getD_eq_getElem?_getD, List.getElem?_map, List.getElem?_range hi, Option.map_some,
              Option.getD_some]
            ring

/-- **C108** More than two entries are refused; a header missing in one of the traces raises `KeyError`. -/
theorem C108_limits (s : List (Trace K)) (e1 e2 e3 : String × Str) (rest : List (String × Str)) :
    (∀ ps, infoPanels s 0 (e1 :: e2 :: e3 :: rest) ≠ .ok ps) ∧
    (∀ t ∈ s, t.ext.get e1.1 = none → infoPanels s 0 (e1 :: rest) = .error .keyError) := by
  constructor
  · intro ps h
    have := (C108_info s 0 _ ps h).1 (by simp)
    simp only [List.length_cons] at this
    omega
  · intro t ht hn
    have key : ∀ (s : List (Trace K)), t ∈ s → headerValues e1.1 s = .error .keyError := by
      intro s
      induction s with
      | nil => intro h; cases h
      | cons u us ih =>
        intro hm
        unfold headerValues
        cases hu : u.ext.get e1.1 with
        | none => rfl
        | some v =>
          simp only []
          rcases List.mem_cons.1 hm with rfl | hm
          · rw [hn] at hu; cases hu
          · rw [ih hm]
    unfold infoPanels
    rw [if_neg (by omega), key s ht]

/-- **C108** The figure of `plot_rf` has these panels, for the traces after trimming; there are none if the traces are
not shown. -/
theorem C108_figure (shw : Nat → Str) (stack : List (Trace K) → Res (List (Trace K))) (a : RfPlotArgs K)
    (s s' : List (Trace K)) (hs' : trimmed a.trim s = .ok s') (fig : RfFigure K)
    (h : plotRf shw stack a s = .ok (some fig)) :
    infoPanels s' 0 (if a.showTraces then a.info.getD [] else []) = .ok fig.info ∧
    (a.showTraces = true → fig.curves.length = s'.length ∧
      ∀ (k : Nat) (c : Curve K), fig.curves[k]? = some c → c.base = (k : K) + 1) := by
  refine ⟨?_, ?_⟩
  · obtain ⟨s'', gmax, st, info, sc, h1, h2, h3, h4, h5, h6, h7, h8, h9, h10, h11, -⟩ := plotRf_inv shw stack a s fig h
    rw [hs'] at h1
    cases h1
    rw [h11]
    exact h4
  · intro hs
    obtain ⟨s'', gmax, h1, h2, h3, h4⟩ := C83_curves shw stack a hs s fig h
    rw [hs'] at h1
    cases h1
    refine ⟨h3, ?_⟩
    intro k c hc
    have hk : k < s'.length := by
      rw [← h3]
      exact (List.getElem?_eq_some_iff.1 hc).1
    obtain ⟨o, m, -, -, hb, -⟩ := h4 k s'[k] c (List.getElem?_eq_getElem hk) hc
    exact hb

/-- **C103** (defect, general form) With grid lines and without traces every plot of a stream with a single stack
fails. -/
theorem C103_fails (a : RfPlotArgs K) (stack : List (Trace K) → Res (List (Trace K))) (last : List K)
    (s : List (Trace K)) (t : Trace K) (hst : stack s = .ok [t]) (h1 : a.showTraces = false) (h2 : a.showVlines = true) :
    stackPart a stack last s = .error .other := by
  unfold stackPart
  rw [hst]
  simp [h1, h2]

/-! ## plot_profile -/

theorem foldlMin_le (xs : List K) (a : K) : xs.foldl min a ≤ a ∧ ∀ x ∈ xs, xs.foldl min a ≤ x := by
  induction xs generalizing a with
  | nil => simp
  | cons y ys ih =>
    obtain ⟨h1, h2⟩ := ih (min a y)
    rw [List.foldl_cons]
    refine ⟨le_trans h1 (min_le_left _ _), ?_⟩
    intro x hx
    rcases List.mem_cons.1 hx with rfl | hx
    · exact le_trans h1 (min_le_right _ _)
    · exact h2 x hx

theorem foldlMax_ge (xs : List K) (a : K) : a ≤ xs.foldl max a ∧ ∀ x ∈ xs, x ≤ xs.foldl max a := by
  induction xs generalizing a with
  | nil => simp
  | cons y ys ih =>
    obtain ⟨h1, h2⟩ := ih (max a y)
    rw [List.foldl_cons]
    refine ⟨le_trans (le_max_left _ _) h1, ?_⟩
    intro x hx
    rcases List.mem_cons.1 hx with rfl | hx
    · exact le_trans (le_max_right _ _) h1
    · exact h2 x hx

theorem pyMin_le (l : List K) (m : K) (h : pyMin l = .ok m) : ∀ x ∈ l, m ≤ x := by
  cases l with
  | nil => cases h
  | cons a l =>
    simp only [pyMin, Except.ok.injEq] at h
    subst h
    intro x hx
    rcases List.mem_cons.1 hx with rfl | hx
    · exact (foldlMin_le l x).1
    · exact (foldlMin_le l a).2 x hx

theorem pyMax_ge (l : List K) (m : K) (h : pyMax l = .ok m) : ∀ x ∈ l, x ≤ m := by
  cases l with
  | nil => cases h
  | cons a l =>
    simp only [pyMax, Except.ok.injEq] at h
    subst h
    intro x hx
    rcases List.mem_cons.1 hx with rfl | hx
    · exact (foldlMax_ge l x).1
    · exact (foldlMax_ge l a).2 x hx

theorem attrs_mem (k : String) (s : List (Trace K)) (xs : List K) (h : attrs k s = .ok xs) :
    xs.length = s.length ∧ ∀ t ∈ s, ∃ x, t.getNum k = some x ∧ x ∈ xs := by
  induction s generalizing xs with
  | nil =>
    simp only [attrs, Except.ok.injEq] at h
    subst h
    simp
  | cons t ts ih =>
    unfold attrs at h
    cases ha : attr k t with
    | error e => simp [ha] at h
    | ok x =>
      simp only [ha] at h
      cases hb : attrs k ts with
      | error e => simp [hb] at h
      | ok ys =>
        simp only [hb, Except.ok.injEq] at h
        subst h
        obtain ⟨h1, h2⟩ := ih ys hb
        refine ⟨by simp [h1], ?_⟩
        intro t' ht'
        rcases List.mem_cons.1 ht' with rfl | ht'
        · unfold attr at ha
          split at ha
          · rename_i y hy
            simp only [Except.ok.injEq] at ha
            exact ⟨y, hy, by rw [ha]; simp⟩
          · cases ha
        · obtain ⟨y, hy, hm⟩ := h2 t' ht'
          exact ⟨y, hy, List.mem_cons_of_mem _ hm⟩

theorem pyMin_mem (l : List K) (m : K) (h : pyMin l = .ok m) : m ∈ l := by
  cases l with
  | nil => cases h
  | cons b bs =>
    simp only [pyMin, Except.ok.injEq] at h
    have key : ∀ (l : List K) (b : K), l.foldl min b = b ∨ l.foldl min b ∈ l := by
      intro l
      induction l with
      | nil => intro b; simp
      | cons c cs ih =>
        intro b
        rw [List.foldl_cons]
        rcases ih (min b c) with hh | hh
        · rcases min_choice b c with hm | hm
          · left; rw [hh, hm]
          · right; rw [hh, hm]; simp
        · right; exact List.mem_cons_of_mem _ hh
    rcases key bs b with hh | hh
    · rw [← h, hh]; simp
    · rw [← h]; exact List.mem_cons_of_mem _ hh

theorem attrs_of_mem (k : String) (s : List (Trace K)) (xs : List K) (h : attrs k s = .ok xs) :
    ∀ x ∈ xs, ∃ t ∈ s, t.getNum k = some x := by
  induction s generalizing xs with
  | nil =>
    intro x hm
    simp only [attrs, Except.ok.injEq] at h
    rw [← h] at hm
    cases hm
  | cons t ts ih =>
    intro x hm
    unfold attrs at h
    cases ha : attr k t with
    | error e => simp [ha] at h
    | ok y =>
      simp only [ha] at h
      cases hb : attrs k ts with
      | error e => simp [hb] at h
      | ok ys =>
        simp only [hb, Except.ok.injEq] at h
        rw [← h] at hm
        rcases List.mem_cons.1 hm with rfl | hm
        · unfold attr at ha
          split at ha
          · rename_i z hz
            simp only [Except.ok.injEq] at ha
            exact ⟨t, by simp, by rw [hz, ha]⟩
          · cases ha
        · obtain ⟨t', ht', hx'⟩ := ih ys hb x hm
          exact ⟨t', List.mem_cons_of_mem _ ht', hx'⟩

/-- The curve of one trace of the profile. -/
def ProfDrawn (scale m w : K) (t : Trace K) (c : ProfCurve K) : Prop :=
  ∃ o, t.getNum "box_pos" = some c.pos ∧ t.getTime "onset" = some o ∧ c.x = profX c.pos scale m w t.data ∧
    c.y = profY t o

theorem profCurves_spec (colors : Option Str × Option Str) (scale m w : K) (s : List (Trace K)) (cs : List (ProfCurve K))
    (h : profCurves colors scale m w s = .ok cs) : List.Forall₂ (ProfDrawn scale m w) s cs := by
  induction s generalizing cs with
  | nil =>
    simp only [profCurves, Except.ok.injEq] at h
    subst h
    exact .nil
  | cons t ts ih =>
    unfold profCurves at h
    cases ha : profCurve colors scale m w t with
    | error e => simp [ha] at h
    | ok c =>
      simp only [ha] at h
      cases hb : profCurves colors scale m w ts with
      | error e => simp [hb] at h
      | ok ds =>
        simp only [hb, Except.ok.injEq] at h
        subst h
        refine .cons ?_ (ih ds hb)
        unfold profCurve at ha
        cases h1 : attr "box_pos" t with
        | error e => simp [h1] at ha
        | ok pos =>
          simp only [h1] at ha
          cases h2 : onset t with
          | error e => simp [h2] at ha
          | ok o =>
            simp only [h2, Except.ok.injEq] at ha
            refine ⟨o, ?_, ?_, ?_, ?_⟩
            · unfold attr at h1
              split at h1
              · rename_i y hy
                simp only [Except.ok.injEq] at h1
                rw [← ha]
                simp only []
                rw [hy, h1]
              · cases h1
            · unfold onset at h2
              split at h2
              · rename_i o' ho'
                simp only [Except.ok.injEq] at h2
                rw [ho', h2]
              · cases h2
            · rw [← ha]
            · rw [← ha]

/-- Parts of a successful profile plot. -/
theorem plotProfile_inv (find : List K → K → Nat) (a : ProfPlotArgs K) (s : List (Trace K)) (fig : ProfFigure K)
    (h : plotProfile find a s = .ok (some fig)) :
    ∃ s' widths w ps lo hi m, trimmed a.trim s = .ok s' ∧ attrs "box_length" s' = .ok widths ∧ pyMin widths = .ok w ∧
      attrs "box_pos" s' = .ok ps ∧ pyMin ps = .ok lo ∧ pyMax ps = .ok hi ∧ streamMax s' = .ok m ∧
      profCurves a.fillcolors a.scale m w s' = .ok fig.curves ∧ lastYlim fig.curves = .ok fig.ylim ∧
      (∃ t0 rest, s' = t0 :: rest ∧ ticksPart find a.model t0 = .ok fig.ticks) ∧ topPart a.top s' = .ok fig.bars ∧
      fig.xlim = (lo - max 1 a.scale * w, hi + max 1 a.scale * w) := by
  unfold plotProfile at h
  cases s with
  | nil => cases h
  | cons t0 ts =>
    simp only [] at h
    cases h1 : trimmed a.trim (t0 :: ts) with
    | error e => simp [h1] at h
    | ok s' =>
      simp only [h1] at h
      cases h2 : attrs "box_length" s' with
      | error e => simp [h2] at h
      | ok widths =>
        simp only [h2] at h
        cases h3 : pyMin widths with
        | error e => simp [h3] at h
        | ok w =>
          simp only [h3] at h
          cases h4 : attrs "box_pos" s' with
          | error e => simp [h4] at h
          | ok ps =>
            simp only [h4] at h
            cases h5 : pyMin ps with
            | error e => simp [h5] at h
            | ok lo =>
              simp only [h5] at h
              cases h6 : pyMax ps with
              | error e => simp [h6] at h
              | ok hi =>
                simp only [h6] at h
                cases h7 : streamMax s' with
                | error e => simp [h7] at h
                | ok m =>
                  simp only [h7] at h
                  cases h8 : profCurves a.fillcolors a.scale m w s' with
                  | error e => simp [h8] at h
                  | ok cs =>
                    simp only [h8] at h
                    cases h9 : lastYlim cs with
                    | error e => simp [h9] at h
                    | ok ylim =>
                      simp only [h9] at h
                      cases s' with
                      | nil => cases h
                      | cons u us =>
                        simp only [] at h
                        cases h10 : ticksPart find a.model u with
                        | error e => simp [h10] at h
                        | ok ticks =>
                          simp only [h10] at h
                          cases h11 : topPart a.top (u :: us) with
                          | error e => simp [h11] at h
                          | ok bars =>
                            simp only [h11, Except.ok.injEq, Option.some.injEq] at h
                            subst h
                            exact ⟨u :: us, widths, w, ps, lo, hi, m, rfl, h2, h3, h4, h5, h6, h7, h8, h9,
                              ⟨u, us, rfl, h10⟩, h11, rfl⟩

theorem forall₂_mem_right {α β : Type} {R : α → β → Prop} {l1 : List α} {l2 : List β} (h : List.Forall₂ R l1 l2) :
    ∀ b ∈ l2, ∃ a ∈ l1, R a b := by
  induction h with
  | nil => simp
  | cons h1 _ ih =>
    intro b hb
    rcases List.mem_cons.1 hb with rfl | hb
    · exact ⟨_, by simp, h1⟩
    · obtain ⟨a, ha, hr⟩ := ih b hb
      exact ⟨a, List.mem_cons_of_mem _ ha, hr⟩

theorem profX_bound (pos scale m w : K) (data : List K) (hw : 0 ≤ w) (h : ∀ x ∈ data, |x| ≤ m) (v : K)
    (hv : some v ∈ profX pos scale m w data) : |v - pos| ≤ |scale| * w := by
  unfold profX at hv
  obtain ⟨x, hx, he⟩ := List.mem_map.1 hv
  by_cases hm : m = 0
  · rw [if_pos hm] at he; cases he
  · rw [if_neg hm] at he
    simp only [Option.some.injEq] at he
    have hpos : 0 < m := lt_of_le_of_ne (le_trans (abs_nonneg _) (h x hx)) (Ne.symm hm)
    rw [← he, add_sub_cancel_left, abs_mul, abs_div, abs_mul, abs_of_pos hpos, abs_of_nonneg hw]
    refine mul_le_mul_of_nonneg_right ?_ hw
    rw [mul_div_assoc]
    have : |x| / m ≤ 1 := (div_le_one hpos).2 (h x hx)
    calc |scale| * (|x| / m) ≤ |scale| * 1 := mul_le_mul_of_nonneg_left this (abs_nonneg _)
      _ = |scale| := mul_one _

/-- **C83** In a profile plot no trace departs from its position by more than the scale times the smallest box
length. -/
theorem C83_profile (find : List K → K → Nat) (a : ProfPlotArgs K) (s s' : List (Trace K))
    (hs' : trimmed a.trim s = .ok s') (hpos : ∀ t ∈ s', ∀ x, t.getNum "box_length" = some x → 0 ≤ x)
    (fig : ProfFigure K) (h : plotProfile find a s = .ok (some fig)) :
    ∃ w, (∀ t ∈ s', ∀ x, t.getNum "box_length" = some x → w ≤ x) ∧ 0 ≤ w ∧
      ∀ c ∈ fig.curves, ∀ v, some v ∈ c.x → |v - c.pos| ≤ |a.scale| * w := by
  obtain ⟨s'', widths, w, ps, lo, hi, m, h1, h2, h3, h4, h5, h6, h7, h8, h9, h10, h11, h12⟩ :=
    plotProfile_inv find a s fig h
  rw [hs'] at h1
  cases h1
  obtain ⟨hlen, hmem⟩ := attrs_mem _ _ _ h2
  have hw1 : ∀ t ∈ s', ∀ x, t.getNum "box_length" = some x → w ≤ x := by
    intro t ht x hx
    obtain ⟨y, hy, hym⟩ := hmem t ht
    rw [hx] at hy
    cases hy
    exact pyMin_le _ _ h3 x hym
  have hw0 : 0 ≤ w := by
    obtain ⟨t, ht, htx⟩ := attrs_of_mem _ s' widths h2 w (pyMin_mem _ _ h3)
    exact hpos t ht w htx
  refine ⟨w, hw1, hw0, ?_⟩
  intro c hc v hv
  obtain ⟨t, ht, o, -, -, hx, -⟩ := forall₂_mem_right (profCurves_spec _ _ _ _ _ _ h8) c hc
  rw [hx] at hv
  exact profX_bound _ _ _ _ _ hw0 ((streamMax_spec s' m h7).1 t ht).2 v hv

/-- **C104** (horizontally) All traces of a profile plot are completely visible: the limits leave room for the largest
amplitude on both sides. -/
theorem C104_horizontal_partial (find : List K → K → Nat) (a : ProfPlotArgs K) (hsc : 0 ≤ a.scale) (s s' : List (Trace K))
    (hs' : trimmed a.trim s = .ok s') (hpos : ∀ t ∈ s', ∀ x, t.getNum "box_length" = some x → 0 ≤ x)
    (fig : ProfFigure K) (h : plotProfile find a s = .ok (some fig)) (c : ProfCurve K) (hc : c ∈ fig.curves) :
    (fig.xlim.1 ≤ c.pos ∧ c.pos ≤ fig.xlim.2) ∧ ∀ v, some v ∈ c.x → fig.xlim.1 ≤ v ∧ v ≤ fig.xlim.2 := by
  obtain ⟨s'', widths, w, ps, lo, hi, m, h1, h2, h3, h4, h5, h6, h7, h8, h9, h10, h11, h12⟩ :=
    plotProfile_inv find a s fig h
  rw [hs'] at h1
  cases h1
  obtain ⟨t, ht, o, hp, -, hx, -⟩ := forall₂_mem_right (profCurves_spec _ _ _ _ _ _ h8) c hc
  obtain ⟨y, hy, hym⟩ := (attrs_mem _ _ _ h4).2 t ht
  rw [hp] at hy
  cases hy
  have hlo := pyMin_le _ _ h5 _ hym
  have hhi := pyMax_ge _ _ h6 _ hym
  have hw0 : 0 ≤ w := by
    obtain ⟨t, ht, htx⟩ := attrs_of_mem _ s' widths h2 w (pyMin_mem _ _ h3)
    exact hpos t ht w htx
  have hpad : a.scale * w ≤ max 1 a.scale * w := mul_le_mul_of_nonneg_right (le_max_right _ _) hw0
  have hpad0 : 0 ≤ max 1 a.scale * w := mul_nonneg (le_trans zero_le_one (le_max_left _ _)) hw0
  rw [h12]
  simp only []
  refine ⟨⟨by linarith, by linarith⟩, ?_⟩
  intro v hv
  rw [hx] at hv
  have hb := profX_bound _ _ _ _ _ hw0 ((streamMax_spec s' m h7).1 t ht).2 v hv
  rw [abs_of_nonneg hsc] at hb
  obtain ⟨hb1, hb2⟩ := abs_le.1 hb
  constructor <;> linarith

/-- **C104** There is one curve per trace, in order; its samples are at times relative to the onset of the trace. -/
theorem C104_times (find : List K → K → Nat) (a : ProfPlotArgs K) (s s' : List (Trace K))
    (hs' : trimmed a.trim s = .ok s') (fig : ProfFigure K) (h : plotProfile find a s = .ok (some fig)) :
    List.Forall₂ (fun (t : Trace K) (c : ProfCurve K) => ∃ o, t.getTime "onset" = some o ∧
      t.getNum "box_pos" = some c.pos ∧ c.x.length = t.data.length ∧ c.y.length = t.data.length ∧
      ∀ k < t.data.length, c.y.getD k 0 = t.start + (k : K) * t.delta - o) s' fig.curves := by
  obtain ⟨s'', widths, w, ps, lo, hi, m, h1, h2, h3, h4, h5, h6, h7, h8, -⟩ := plotProfile_inv find a s fig h
  rw [hs'] at h1
  cases h1
  refine (profCurves_spec _ _ _ _ _ _ h8).imp ?_
  rintro t c ⟨o, hp, ho, hx, hy⟩
  refine ⟨o, ho, hp, by rw [hx]; simp [profX], by rw [hy]; simp [profY], ?_⟩
  intro k hk
  rw [hy]
  unfold profY
  simp only [List.getD_eq_getElem?_getD, List.getElem?_map, List.getElem?_range hk, Option.map_some, Option.getD_some]
  ring

/-- **C104** (vertically, what holds) If all traces have the same samples relative to the onset, the vertical limits
enclose all of them; the axis points downwards. -/
theorem C104_vertical_partial (find : List K → K → Nat) (a : ProfPlotArgs K) (s : List (Trace K)) (fig : ProfFigure K)
    (h : plotProfile find a s = .ok (some fig)) (hsame : ∀ c ∈ fig.curves, ∀ c' ∈ fig.curves, c.y = c'.y)
    (c : ProfCurve K) (hc : c ∈ fig.curves) : ∀ y ∈ c.y, fig.ylim.2 ≤ y ∧ y ≤ fig.ylim.1 := by
  obtain ⟨s'', widths, w, ps, lo, hi, m, h1, h2, h3, h4, h5, h6, h7, h8, h9, h10, h11, h12⟩ :=
    plotProfile_inv find a s fig h
  unfold lastYlim at h9
  cases hl : fig.curves.getLast? with
  | none => rw [hl] at h9; cases h9
  | some c' =>
    simp only [hl] at h9
    have hc' : c' ∈ fig.curves := List.mem_of_getLast? hl
    cases hm1 : pyMax c'.y with
    | error e => simp [hm1] at h9
    | ok p =>
      simp only [hm1] at h9
      cases hm2 : pyMin c'.y with
      | error e => simp [hm2] at h9
      | ok q =>
        simp only [hm2, Except.ok.injEq] at h9
        intro y hy
        rw [hsame c hc c' hc'] at hy
        rw [← h9]
        exact ⟨pyMin_le _ _ hm2 y hy, pyMax_ge _ _ hm1 y hy⟩

/-! ## C105: histogram -/

/-- **C105** (what holds) There is one bar per box, as wide as the box and as high as the number of its receiver
functions; but every bar is shifted by half the length of its box: it ends at the middle of the box. -/
theorem C105_shifted_partial (s : List (Trace K)) (bs : List (Bar K)) (h : histBars s = .ok bs) :
    List.Forall₂ (fun (t : Trace K) (b : Bar K) => ∃ pos w, t.getNum "box_pos" = some pos ∧
      t.getNum "box_length" = some w ∧ t.getNum "num" = some b.height ∧ b.hi - b.lo = w ∧ b.hi = pos ∧ b.lo = pos - w)
      s bs := by
  induction s generalizing bs with
  | nil =>
    simp only [histBars, Except.ok.injEq] at h
    subst h
    exact .nil
  | cons t ts ih =>
    have hattr : ∀ (k : String) (x : K), attr k t = .ok x → t.getNum k = some x := by
      intro k x hx
      unfold attr at hx
      split at hx
      · rename_i y hy
        simp only [Except.ok.injEq] at hx
        rw [hy, hx]
      · cases hx
    unfold histBars at h
    cases h1 : attr "box_pos" t with
    | error e => simp [h1] at h
    | ok pos =>
      simp only [h1] at h
      cases h2 : attr "box_length" t with
      | error e => simp [h2] at h
      | ok w =>
        simp only [h2] at h
        cases h3 : attr "num" t with
        | error e => simp [h3] at h
        | ok n =>
          simp only [h3] at h
          cases h4 : histBars ts with
          | error e => simp [h4] at h
          | ok cs =>
            simp only [h4, Except.ok.injEq] at h
            subst h
            refine .cons ⟨pos, w, hattr _ _ h1, hattr _ _ h2, hattr _ _ h3, ?_, ?_, ?_⟩ (ih cs h4)
            · simp only [bar]; ring
            · simp only [bar]; ring
            · simp only [bar]; ring

/-- **C105** Other values of `top` are rejected. -/
theorem C105_other (top : Str) (ht : top ≠ "hist".toList) (s : List (Trace K)) :
    topPart (some top) s = .error .notImplemented := by
  unfold topPart
  simp only []
  rw [if_neg ht]

/-! ## C106: depth ticks -/

/-- **C106 (partial)** The tick labelled with a depth of the model is at the tabulated time for this depth (which
is the delay time of the next depth, see `C106_model_partial`), for every depth which
is a depth of the model; ticks at depths in between are interpolated, hence within the range of delay times; every
major tick is a minor tick, too. -/
theorem C106_table_partial (find : List K → K → Nat) (hf : FindSpec find) (z : List K) (delay : Str → K → Res (List K))
    (t : Trace K) (ticks : Ticks K) (h : depthTicks find z delay t = .ok ticks) (hz : Increasing z) :
    ∃ phase slowness pd, t.getStr "moveout" = some phase ∧ t.getNum "slowness" = some slowness ∧
      delay phase slowness = .ok pd ∧ pd.length = z.length ∧
      (∃ o, t.getTime "onset" = some o ∧ ∀ k < 20, ticks.depths.getD k 0 =
        (k : K) * (if 50 < t.endtime - o then 200 else 50)) ∧ ticks.depths.length = 20 ∧ ticks.major.length = 20 ∧
      ticks.minor.length = 100 ∧
      (∀ (k i : Nat), k < 20 → i < z.length → ticks.depths.getD k 0 = z.getD i 0 →
        (∀ j, j < z.length → z.getD j 0 = z.getD i 0 → pd.getD j 0 = pd.getD i 0) →
        ticks.major.getD k 0 = pd.getD i 0) ∧
      (∀ k < 20, ticks.minor.getD (5 * k) 0 = ticks.major.getD k 0) ∧
      (∀ (m M : K), (∀ y ∈ pd, m ≤ y ∧ y ≤ M) → ∀ x, x ∈ ticks.major ∨ x ∈ ticks.minor → m ≤ x ∧ x ≤ M) := by
  unfold depthTicks at h
  cases h1 : t.getStr "moveout" with
  | none => simp [h1] at h
  | some phase =>
    simp only [h1] at h
    cases h2 : attr "slowness" t with
    | error e => simp [h2] at h
    | ok slowness =>
      simp only [h2] at h
      have h2' : t.getNum "slowness" = some slowness := by
        unfold attr at h2
        split at h2
        · rename_i y hy
          simp only [Except.ok.injEq] at h2
          rw [hy, h2]
        · cases h2
      cases h3 : delay phase slowness with
      | error e => simp [h3] at h
      | ok pd =>
        simp only [h3] at h
        cases h4 : onset t with
        | error e => simp [h4] at h
        | ok o =>
          simp only [h4] at h
          set dkm : K := if 50 < t.endtime - o then 200 else 50 with hdkm
          unfold interpAll at h
          by_cases hlen : z.length ≠ pd.length
          · simp [hlen] at h
          · by_cases hzn : z = []
            · simp [hlen, hzn] at h
            · simp only [if_neg hlen, if_neg hzn, Except.ok.injEq] at h
              subst h
              have hlen' : z.length = pd.length := not_not.1 hlen
              refine ⟨phase, slowness, pd, rfl, h2', h3, hlen'.symm, ⟨o, ?_, ?_⟩, by simp, by simp, by simp, ?_, ?_, ?_⟩
              · unfold onset at h4
                split at h4
                · rename_i o' ho'
                  simp only [Except.ok.injEq] at h4
                  rw [ho', h4]
                · cases h4
              · intro k hk
                simp only [List.getD_eq_getElem?_getD, List.getElem?_map, List.getElem?_range hk, Option.map_some,
                  Option.getD_some]
                rw [hdkm]
              · intro k i hk hi hd hdup
                simp only [List.getD_eq_getElem?_getD, List.getElem?_map, List.getElem?_range hk, Option.map_some,
                  Option.getD_some] at hd ⊢
                rw [hd]
                have := interp1_knot find hf z pd none none hzn hz i hi hdup
                simpa only [List.getD_eq_getElem?_getD] using this
              · intro k hk
                have hk5 : 5 * k < 100 := by omega
                simp only [List.getD_eq_getElem?_getD, List.getElem?_map, List.getElem?_range hk,
                  List.getElem?_range hk5, Option.map_some, Option.getD_some]
                congr 1
                push_cast
                ring
              · intro m M hb x hx
                simp only [List.mem_map] at hx
                rcases hx with ⟨d, -, rfl⟩ | ⟨d, -, rfl⟩ <;>
                  exact interp1_mem find hf z pd none none d m M hlen' hzn hb (by simp) (by simp)

end ordered

/-! ## Counterexamples -/

/-- Two traces of one channel, the second starts two seconds before its onset, the first one second. -/
def unalignedTraces : List (Trace ℚ) :=
  [⟨"CX".toList, "PB01".toList, [], "BHQ".toList, 10, 1, [0, 1, 0], [("onset", .time 11)]⟩,
   ⟨"CX".toList, "PB01".toList, [], "BHQ".toList, 20, 1, [0, 1, 0], [("onset", .time 22)]⟩]

/-- A trace for references outside the stream. -/
def noTrace : Trace ℚ := ⟨[], [], [], [], 0, 1, [], []⟩

/-- The figure for these traces. -/
def unalignedFigure : Option (RfFigure ℚ) :=
  match plotRf (fun _ => "2".toList) (listStack noTrace List.dedup) plotArgs unalignedTraces with
  | .ok f => f
  | .error _ => none

/-- **C102 is false** if the time between start and onset differs: the maximum of the stack is at its onset (time 0), but
it is drawn at -1 second. -/
theorem C102_counterexample :
    ((listStack noTrace List.dedup unalignedTraces).map
      (fun l => l.map (fun t => (times t ((t.getTime "onset").getD 0), t.data)))) =
      .ok [([-1, 0, 1], [0, 1, 0])] ∧
    (unalignedFigure.bind (fun f => f.stack)).map (fun c => (c.t, c.d)) =
      some ([-2, -1, 0], [some 0, some 1, some 0]) := by
  decide +kernel

/-- **C103 is false**: grid lines without traces raise an exception although the stream can be stacked. -/
theorem C103_counterexample :
    ((plotRf (fun _ => "2".toList) (listStack noTrace List.dedup)
      { plotArgs with showTraces := false, showVlines := true } plotTraces).map (fun _ => ())) = .error .other ∧
    ((plotRf (fun _ => "2".toList) (listStack noTrace List.dedup)
      { plotArgs with showTraces := false } plotTraces).map (fun _ => ())) = .ok () := by
  decide +kernel

/-- Two boxes whose traces end at different times. -/
def profTraces : List (Trace ℚ) :=
  [⟨[], [], [], "Q".toList, 0, 1, [1, 0, 0, 2], [("onset", .time 1), ("box_pos", .num 5), ("box_length", .num 10),
      ("num", .num 3)]⟩,
   ⟨[], [], [], "Q".toList, 0, 1, [1, -1], [("onset", .time 1), ("box_pos", .num 15), ("box_length", .num 10),
      ("num", .num 1)]⟩]

/-- Arguments without depth axis. -/
def profArgs : ProfPlotArgs ℚ := ⟨1, (none, none), none, some "hist".toList, none⟩

/-- The figure for these traces. -/
def profFigure : Option (ProfFigure ℚ) :=
  match plotProfile npFind profArgs profTraces with
  | .ok f => f
  | .error _ => none

/-- **C104 is false** vertically: the limits are those of the last trace, and the maximum of the first trace (at 2
seconds) is cut off. -/
theorem C104_counterexample :
    profFigure.map (fun f => f.ylim) = some (0, -1) ∧
    (profFigure.map (fun f => f.curves.map (fun c => c.y))) = some [[-1, 0, 1, 2], [-1, 0]] ∧
    profFigure.map (fun f => f.xlim) = some (-5, 25) := by
  decide +kernel

/-- **C105 is false**: the bar of the box from 0 to 10 km is drawn from -5 to 5 km. -/
theorem C105_counterexample :
    profFigure.map (fun f => f.bars.map (fun l => l.map (fun b => (b.lo, b.hi, b.height)))) =
      some (some [(-5, 5, 3), (5, 15, 1)]) := by
  decide +kernel

/-- The hypotheses of C106 are met. -/
example : ((depthTicks npFind [0, 50, 100, 800] (fun _ p => .ok [0, 5 * p, 10 * p, 80 * p])
      (⟨[], [], [], "Q".toList, 0, 1, [1, 0], [("onset", .time 1), ("moveout", .str "Ps".toList), ("slowness", .num 6)]⟩ :
        Trace ℚ)).map (fun k => (k.depths.take 4, k.major.take 4))) =
    .ok ([0, 50, 100, 150], [0, 30, 60, 90]) := by decide +kernel

end Verif.Props
