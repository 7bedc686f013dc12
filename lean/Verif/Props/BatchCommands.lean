import Verif.Model.BatchCommands
import Verif.Props.BatchNames
import Verif.Props.BatchRun
import Verif.Props.StreamOps

/-!
# Commands of the batch program (C109, C110, C111)
-/

set_option linter.unusedSimpArgs false
set_option linter.unusedSectionVars false

namespace Verif.Props
open Verif.Py Verif.Model Verif.Model.Batch Verif.Spec

/-! ## C110: plots -/

theorem upTo_length (p : Str) (x : Str × Str) (h : upTo p = some x) : x.2.length < p.length := by
  induction p generalizing x with
  | nil => simp [upTo] at h
  | cons c p ih =>
    unfold upTo at h
    split at h
    · injection h with h
      rw [← h]
      simp
    · cases hu : upTo p with
      | none => rw [hu] at h; simp at h
      | some y =>
        rw [hu] at h
        simp only [Option.map_some, Option.some.injEq] at h
        rw [← h]
        have := ih y hu
        simp only [List.length_cons]
        omega

theorem setBody_length (p : Str) (x : Str × Str) (h : setBody p = some x) : x.2.length < p.length := by
  cases p with
  | nil => simp [setBody] at h
  | cons c p =>
    simp only [setBody] at h
    cases hu : upTo p with
    | none => rw [hu] at h; simp at h
    | some y =>
      rw [hu] at h
      simp only [Option.map_some, Option.some.injEq] at h
      rw [← h]
      have := upTo_length p y hu
      simp only [List.length_cons]
      omega

theorem bracket_length (p : Str) (neg : Bool) (body rest : Str) (h : bracket p = some (neg, body, rest)) :
    rest.length < p.length := by
  cases p with
  | nil => simp [bracket] at h
  | cons c q =>
    simp only [bracket] at h
    split at h
    · cases hu : setBody q with
      | none => rw [hu] at h; simp at h
      | some y =>
        rw [hu] at h
        simp only [Option.map_some, Option.some.injEq, Prod.mk.injEq] at h
        have := setBody_length q y hu
        rw [h.2] at this
        simp only [List.length_cons]
        simp only at this
        omega
    · cases hu : setBody (c :: q) with
      | none => rw [hu] at h; simp at h
      | some y =>
        rw [hu] at h
        simp only [Option.map_some, Option.some.injEq, Prod.mk.injEq] at h
        have := setBody_length _ y hu
        rw [h.2] at this
        exact this

/-- Enough is enough. -/
theorem tokens_enough (n : ℕ) (p : Str) (h : p.length ≤ n) : tokens n p = tokens p.length p := by
  induction n using Nat.strong_induction_on generalizing p with
  | _ n ih =>
    cases n with
    | zero =>
      have : p = [] := List.length_eq_zero_iff.1 (by omega)
      rw [this]
      rfl
    | succ n =>
      cases p with
      | nil => rfl
      | cons c p =>
        simp only [List.length_cons] at h ⊢
        have e1 : tokens n p = tokens p.length p := ih n (by omega) p (by omega)
        have e2 : ∀ rest : Str, rest.length < p.length → tokens n rest = tokens p.length rest := by
          intro rest hr
          rw [ih n (by omega) rest (by omega)]
          by_cases hn : p.length = n
          · rw [hn, ih n (by omega) rest (by omega)]
          · rw [ih p.length (by omega) rest (by omega)]
        unfold tokens
        rw [e1]
        cases hb : bracket p with
        | none => rfl
        | some x =>
          obtain ⟨neg, body, rest⟩ := x
          simp only []
          rw [e2 rest (bracket_length p neg body rest hb)]

/-- A character which is no wildcard. -/
theorem fnmatch_cons (c : Char) (p s : Str) (h1 : c ≠ '?') (h2 : c ≠ '*') (h3 : c ≠ '[') :
    fnmatch (c :: p) s = match s with | [] => false | d :: s => decide (c = d) && fnmatch p s := by
  unfold fnmatch
  simp only [List.length_cons, tokens, if_neg h1, if_neg h2, if_neg h3, matchToks]
  cases s <;> rfl

theorem fnmatch_one (p s : Str) : fnmatch ('?' :: p) s = match s with | [] => false | _ :: s => fnmatch p s := by
  unfold fnmatch
  simp only [List.length_cons, tokens, show ¬ '?' = '*' by decide, if_false, if_true, matchToks]
  cases s <;> rfl

theorem fnmatch_set (p s : Str) (neg : Bool) (body rest : Str) (h : bracket p = some (neg, body, rest)) :
    fnmatch ('[' :: p) s = match s with | [] => false | d :: s => (setHas body d != neg) && fnmatch rest s := by
  unfold fnmatch
  simp only [List.length_cons, tokens, show ¬ '[' = '*' by decide, show ¬ '[' = '?' by decide, if_false, if_true, h]
  rw [tokens_enough p.length rest (bracket_length p neg body rest h).le]
  rfl

/-- A range `[a-b]` stands for one character, the two ends included. -/
theorem C119_range (a b : Char) (ha : a ≠ '!') (hb : b ≠ ']') (s : Str) :
    fnmatch ['[', a, '-', b, ']'] s = true ↔ ∃ c, s = [c] ∧ a.toNat ≤ c.toNat ∧ c.toNat ≤ b.toNat := by
  have hbr : bracket [a, '-', b, ']'] = some (false, [a, '-', b], []) := by
    simp [bracket, setBody, upTo, ha, hb]
  rw [fnmatch_set _ s false [a, '-', b] [] hbr]
  cases s with
  | nil => simp
  | cons c s =>
    have hnil : fnmatch [] s = decide (s = []) := by cases s <;> simp [fnmatch, tokens, matchToks]
    simp only [hnil, setHas, Bool.or_false]
    simp
    constructor
    · rintro ⟨⟨h1, h2⟩, rfl⟩; exact ⟨rfl, h1, h2⟩
    · rintro ⟨h, h1, h2⟩; exact ⟨⟨h1, h2⟩, h⟩

theorem fnmatch_open (p s : Str) (h : bracket p = none) :
    fnmatch ('[' :: p) s = match s with | [] => false | d :: s => decide ('[' = d) && fnmatch p s := by
  unfold fnmatch
  simp only [List.length_cons, tokens, show ¬ '[' = '*' by decide, show ¬ '[' = '?' by decide, if_false, if_true, h, matchToks]
  cases s <;> rfl

theorem fnmatch_literal (p : Str) (hp : Literal p) (s : Str) : fnmatch p s = decide (p = s) := by
  induction p generalizing s with
  | nil => cases s <;> simp [fnmatch, tokens, matchToks]
  | cons c p ih =>
    obtain ⟨h1, h2, h3⟩ := hp
    simp only [List.mem_cons, not_or] at h1 h2 h3
    rw [fnmatch_cons c p s (Ne.symm h1.1) (Ne.symm h2.1) (Ne.symm h3.1)]
    cases s with
    | nil => simp
    | cons d s =>
      simp only []
      rw [ih ⟨h1.2, h2.2, h3.2⟩ s]
      by_cases hc : c = d
      · simp [hc]
      · simp [hc]

/-- `??c` matches the channels of three letters which end with `c`. -/
theorem fnmatch_comp (c : Char) (h1 : c ≠ '?') (h2 : c ≠ '*') (h3 : c ≠ '[') (a b d : Char) :
    fnmatch ['?', '?', c] [a, b, d] = decide (c = d) := by
  rw [fnmatch_one]
  show fnmatch ['?', c] [b, d] = _
  rw [fnmatch_one]
  show fnmatch [c] [d] = _
  rw [fnmatch_cons c _ _ h1 h2 h3]
  simp [fnmatch, tokens, matchToks]

/-- A star stands for any text. -/
theorem C110_wildcard (p s : Str) : fnmatch ('*' :: p) s = true ↔ ∃ a b, s = a ++ b ∧ fnmatch p b = true := by
  rw [show fnmatch ('*' :: p) s = s.tails.any (fnmatch p) from rfl, List.any_eq_true]
  constructor
  · rintro ⟨b, hb, hp⟩
    obtain ⟨a, ha⟩ := (List.mem_tails _ _).1 hb
    exact ⟨a, b, ha.symm, hp⟩
  · rintro ⟨a, b, rfl, hp⟩
    exact ⟨b, (List.mem_tails _ _).2 ⟨a, rfl⟩, hp⟩

example : fnmatch "BH[NE]".toList "BHN".toList = true ∧ fnmatch "BH[!NE]".toList "BHN".toList = false ∧
    fnmatch "BH[0-9]".toList "BH1".toList = true ∧ fnmatch "BH[".toList "BH[".toList = true := by decide +kernel

example : fnmatch "B*T".toList "BHT".toList = true ∧ fnmatch "B*T".toList "BHQ".toList = false := by decide +kernel

section plot
variable {K : Type} [Field K] [LinearOrder K]

theorem flatMap_filter_perm {α β : Type} [DecidableEq β] (f : α → β) (L : List β) (hL : L.Nodup) (s : List α)
    (hs : ∀ x ∈ s, f x ∈ L) : (L.flatMap fun b => s.filter fun x => decide (f x = b)).Perm s := by
  induction L generalizing s with
  | nil =>
    cases s with
    | nil => simp
    | cons x s => exact absurd (hs x (by simp)) (by simp)
  | cons b L ih =>
    rw [List.nodup_cons] at hL
    rw [List.flatMap_cons]
    have hrest : (L.flatMap fun b => s.filter fun x => decide (f x = b)) =
        L.flatMap fun b' => (s.filter fun x => !decide (f x = b)).filter fun x => decide (f x = b') := by
      refine List.flatMap_congr ?_
      intro b' hb'
      rw [List.filter_filter]
      refine List.filter_congr ?_
      intro x _
      by_cases hx : f x = b'
      · have hne : b' ≠ b := by
          rintro rfl
          exact hL.1 hb'
        simp [hx, hne]
      · simp [hx]
    rw [hrest]
    refine ((ih hL.2 _ ?_).append_left _).trans (List.filter_append_perm _ _)
    intro x hx
    obtain ⟨hx1, hx2⟩ := List.mem_filter.1 hx
    have := hs x hx1
    rw [List.mem_cons] at this
    rcases this with h | h
    · simp [h] at hx2
    · exact h

/-- Traces of a channel. -/
def ofChannel (h : Heap K) (s : List Nat) (ch : Str) : List Nat := s.filter fun r => decide ((h r).cha = ch)

/-- The loop over channels, if all steps succeed. -/
theorem plotLoop_ok (body : PlotState → Str → PlotState × Option PyErr) (g : Str → PlotCall) (chs : List Str)
    (hb : ∀ ch ∈ chs, ∀ st, ∃ fs, body st ch = (⟨fs, st.plots ++ [g ch]⟩, none)) (st : PlotState) :
    ∃ fs, plotLoop body st chs = (⟨fs, st.plots ++ chs.map g⟩, none) := by
  induction chs generalizing st with
  | nil => exact ⟨st.fs, by simp [plotLoop]⟩
  | cons ch chs ih =>
    obtain ⟨fs, h1⟩ := hb ch (by simp) st
    obtain ⟨fs', h2⟩ := ih (fun c hc => hb c (List.mem_cons_of_mem _ hc)) ⟨fs, st.plots ++ [g ch]⟩
    refine ⟨fs', ?_⟩
    unfold plotLoop
    rw [h1]
    simp only [h2]
    simp

theorem insertionSort_baz (h : Heap K) (l : List Nat) (hb : ∀ r ∈ l, ∃ x, (h r).getNum "back_azimuth" = some x) :
    sortByBaz h l = .ok (l.insertionSort fun a b => bazKey h a ≤ bazKey h b) := by
  unfold sortByBaz
  rw [if_neg, if_neg]
  · simp only [List.any_eq_true, not_exists, not_and]
    intro r hr
    obtain ⟨x, hx⟩ := hb r hr
    simp [hx]
  · simp only [List.any_eq_true, not_exists, not_and]
    intro r hr
    obtain ⟨x, hx⟩ := hb r hr
    unfold Trace.getNum at hx
    cases hg : (h r).ext.get "back_azimuth" with
    | none => simp [hg] at hx
    | some v => simp [Dict.has, hg]

/-- Name of the figure for a channel. -/
theorem plot_name (root : Str) (f : Fields) :
    fmtPattern root f plotFnames = .ok (root ++ '/' :: (idText f ++ '.' :: (f.channel ++ ".pdf".toList))) := by
  simp [fmtPattern, plotFnames, idPieces, fmtPiece, idText]

theorem plotProfile_name (root : Str) (f : Fields) (c : Char) (hc : f.channel[2]? = some c) :
    fmtPattern root f plotProfileFnames = .ok (root ++ ("/profile_".toList ++ c :: ".pdf".toList)) := by
  simp only [fmtPattern, plotProfileFnames, fmtPiece, hc]
  simp

/-- **C110** The command `plot` makes one figure per channel: the traces of the channel, all of them, sorted by back
azimuth; every trace of the stream is in exactly one figure, and for a stream of one station (all files read for one
station) the figures have different names. -/
theorem C110_plot (order : List Str → List Str) (ho : SetOrder order) (h : Heap K) (root : Str) (s : List Nat)
    (hlit : ∀ r ∈ s, Literal (upper (h r).cha))
    (hup : ∀ r ∈ s, ∀ q ∈ s, upper (h r).cha = upper (h q).cha → (h r).cha = (h q).cha)
    (hbaz : ∀ r ∈ s, ∃ x, (h r).getNum "back_azimuth" = some x) (draw : PlotCall → Option PyErr)
    (hd : ∀ c : PlotCall, (∀ r ∈ c.traces, r ∈ s) → (∀ r ∈ c.traces, ∀ q ∈ c.traces, (h r).cha = (h q).cha) →
      draw c = none) (st : PlotState) :
    ∃ fs calls, plotStream order draw h root st s = (⟨fs, st.plots ++ calls⟩, none) ∧
      (calls.flatMap PlotCall.traces).Perm s ∧
      (∀ r ∈ s, ∃ c ∈ calls, r ∈ c.traces) ∧
      (∀ c ∈ calls, c.traces ≠ [] ∧ c.traces.Pairwise (fun a b => ∀ x y, (h a).getNum "back_azimuth" = some x →
          (h b).getNum "back_azimuth" = some y → x ≤ y) ∧
        ∃ ch, (∀ r, r ∈ c.traces ↔ r ∈ s ∧ (h r).cha = ch) ∧
          ∃ r ∈ c.traces, fmtPattern root (fieldsOf (h r)) plotFnames = .ok c.fname) ∧
      ((∀ r ∈ s, ∀ q ∈ s, (h r).net = (h q).net ∧ (h r).sta = (h q).sta ∧ (h r).loc = (h q).loc) →
        (calls.map PlotCall.fname).Nodup) := by
  obtain ⟨hnd, hmem⟩ := ho (s.map fun r => (h r).cha)
  set chs := order (s.map fun r => (h r).cha) with hchs
  have hch : ∀ ch ∈ chs, ∃ r ∈ s, (h r).cha = ch := by
    intro ch hc
    rw [hmem] at hc
    simpa using hc
  have hsel : ∀ ch ∈ chs, selectChannel h s ch = ofChannel h s ch := by
    intro ch hc
    obtain ⟨r, hr, rfl⟩ := hch ch hc
    unfold selectChannel ofChannel
    refine List.filter_congr ?_
    intro q hq
    rw [fnmatch_literal _ (hlit r hr)]
    refine decide_eq_decide.2 ⟨fun he => (hup r hr q hq he).symm, fun he => by rw [he]⟩
  have hne : ∀ ch ∈ chs, ofChannel h s ch ≠ [] := by
    intro ch hc hn
    obtain ⟨r, hr, hrc⟩ := hch ch hc
    have : r ∈ ofChannel h s ch := List.mem_filter.2 ⟨hr, by simp [hrc]⟩
    rw [hn] at this
    cases this
  let first : Str → Nat := fun ch => (ofChannel h s ch).headD 0
  have hfirst : ∀ ch ∈ chs, first ch ∈ ofChannel h s ch := by
    intro ch hc
    show (ofChannel h s ch).headD 0 ∈ _
    cases ho : ofChannel h s ch with
    | nil => exact absurd ho (hne ch hc)
    | cons a l => simp
  let name : Str → Str := fun ch =>
    root ++ '/' :: (idText (fieldsOf (h (first ch))) ++ '.' :: ((h (first ch)).cha ++ ".pdf".toList))
  let g : Str → PlotCall := fun ch =>
    ⟨name ch, (ofChannel h s ch).insertionSort fun a b => bazKey h a ≤ bazKey h b⟩
  have hbody : ∀ ch ∈ chs, ∀ st, ∃ fs, plotChannel draw h root plotFnames true s st ch = (⟨fs, st.plots ++ [g ch]⟩, none) := by
    intro ch hc st
    unfold plotChannel
    rw [hsel ch hc]
    cases hof : ofChannel h s ch with
    | nil => exact absurd hof (hne ch hc)
    | cons a l =>
      have ha : first ch = a := by show (ofChannel h s ch).headD 0 = a; rw [hof]; rfl
      have hsb := insertionSort_baz h (ofChannel h s ch) fun r hr => hbaz r (List.mem_of_mem_filter hr)
      rw [hof] at hsb
      have hn := plot_name root (fieldsOf (h a))
      have hdr := hd ⟨root ++ '/' :: (idText (fieldsOf (h a)) ++ '.' :: ((fieldsOf (h a)).channel ++ ".pdf".toList)),
        (a :: l).insertionSort fun a b => bazKey h a ≤ bazKey h b⟩
        (fun r hr => by
          have hr' := (List.mem_insertionSort _).1 hr
          rw [← hof] at hr'
          exact List.mem_of_mem_filter hr')
        (fun r hr q hq => by
          have hr' := (List.mem_insertionSort _).1 hr
          have hq' := (List.mem_insertionSort _).1 hq
          rw [← hof] at hr' hq'
          rw [show (h r).cha = ch by simpa using (List.mem_filter.1 hr').2,
            show (h q).cha = ch by simpa using (List.mem_filter.1 hq').2])
      simp only [hn, hsb, if_true, hdr]
      refine ⟨createDir st.fs (name ch), ?_⟩
      have hg : g ch = ⟨name ch, (a :: l).insertionSort fun a b => bazKey h a ≤ bazKey h b⟩ := by
        show (⟨name ch, (ofChannel h s ch).insertionSort fun a b => bazKey h a ≤ bazKey h b⟩ : PlotCall) = _
        rw [hof]
      have hnm : name ch = root ++ '/' :: (idText (fieldsOf (h a)) ++ '.' :: ((h a).cha ++ ".pdf".toList)) := by
        show root ++ '/' :: (idText (fieldsOf (h (first ch))) ++ '.' :: ((h (first ch)).cha ++ ".pdf".toList)) = _
        rw [ha]
      rw [hg, hnm]
      rfl
  obtain ⟨fs, hl⟩ := plotLoop_ok _ g chs hbody st
  have hmemtr : ∀ ch, ∀ r, r ∈ (g ch).traces ↔ r ∈ s ∧ (h r).cha = ch := by
    intro ch r
    show r ∈ (ofChannel h s ch).insertionSort _ ↔ _
    rw [List.mem_insertionSort]
    unfold ofChannel
    simp
  refine ⟨fs, chs.map g, hl, ?_, ?_, ?_, ?_⟩
  · rw [List.flatMap_map]
    have h1 : (chs.flatMap fun ch => (g ch).traces).Perm (chs.flatMap fun ch => ofChannel h s ch) := by
      refine List.Perm.flatMap_left _ ?_
      intro ch _
      exact List.perm_insertionSort _ _
    refine h1.trans (flatMap_filter_perm (fun r => (h r).cha) chs hnd s ?_)
    intro r hr
    rw [hmem]
    exact List.mem_map_of_mem hr
  · intro r hr
    refine ⟨g (h r).cha, List.mem_map_of_mem ?_, (hmemtr _ _).2 ⟨hr, rfl⟩⟩
    rw [hmem]
    exact List.mem_map_of_mem (f := fun r => (h r).cha) hr
  · intro c hc
    obtain ⟨ch, hch', rfl⟩ := List.mem_map.1 hc
    have hf := hfirst ch hch'
    have hf2 : (h (first ch)).cha = ch := by
      have := (List.mem_filter.1 hf).2
      simpa using this
    refine ⟨?_, ?_, ch, hmemtr ch, first ch, ?_, ?_⟩
    · intro hnil
      have := (hmemtr ch (first ch)).2 ⟨List.mem_of_mem_filter hf, hf2⟩
      rw [hnil] at this
      cases this
    · have : Std.Total (fun a b => bazKey h a ≤ bazKey h b) := ⟨fun a b => le_total _ _⟩
      have : IsTrans Nat (fun a b => bazKey h a ≤ bazKey h b) := ⟨fun a b c => le_trans⟩
      refine (List.pairwise_insertionSort (fun a b => bazKey h a ≤ bazKey h b) (ofChannel h s ch)).imp ?_
      intro a b hab x y hx hy
      unfold bazKey at hab
      rwa [hx, hy] at hab
    · exact (hmemtr ch (first ch)).2 ⟨List.mem_of_mem_filter hf, hf2⟩
    · rw [plot_name]
      rfl
  · intro hid
    rw [List.map_map]
    refine (List.nodup_map_iff_inj_on hnd).2 ?_
    intro a ha b hb heq
    have ha1 := hfirst a ha
    have hb1 := hfirst b hb
    have ha2 : (h (first a)).cha = a := by simpa using (List.mem_filter.1 ha1).2
    have hb2 : (h (first b)).cha = b := by simpa using (List.mem_filter.1 hb1).2
    obtain ⟨e1, e2, e3⟩ := hid (first a) (List.mem_of_mem_filter ha1) (first b) (List.mem_of_mem_filter hb1)
    have heq' : name a = name b := heq
    have hidt : idText (fieldsOf (h (first a))) = idText (fieldsOf (h (first b))) := by
      unfold idText fieldsOf
      simp only [e1, e2, e3]
    show a = b
    have : root ++ '/' :: (idText (fieldsOf (h (first a))) ++ '.' :: ((h (first a)).cha ++ ".pdf".toList)) =
      root ++ '/' :: (idText (fieldsOf (h (first b))) ++ '.' :: ((h (first b)).cha ++ ".pdf".toList)) := heq'
    rw [hidt, ha2, hb2] at this
    simpa using this

/-- **C110** If a trace has no back azimuth, the command `plot` raises `KeyError` (for the channel of this trace or for
one before it), and the figure of its channel is not drawn. -/
theorem C110_missing (draw : PlotCall → Option PyErr) (h : Heap K) (root : Str) (s : List Nat) (st : PlotState)
    (r : Nat) (hr : r ∈ s) (hlit : Literal (upper (h r).cha)) (hb : (h r).ext.has "back_azimuth" = false) :
    (plotChannel draw h root plotFnames true s st (h r).cha).2 = some .keyError ∧
      (plotChannel draw h root plotFnames true s st (h r).cha).1.plots = st.plots := by
  have hm : r ∈ selectChannel h s (h r).cha := by
    unfold selectChannel
    refine List.mem_filter.2 ⟨hr, ?_⟩
    rw [fnmatch_literal _ hlit]
    simp
  unfold plotChannel
  cases hs : selectChannel h s (h r).cha with
  | nil => rw [hs] at hm; cases hm
  | cons a l =>
    rw [hs] at hm
    have : sortByBaz h (a :: l) = .error .keyError := by
      unfold sortByBaz
      rw [if_pos]
      rw [List.any_eq_true]
      exact ⟨r, hm, by simp [hb]⟩
    simp only [plot_name, if_true, this]
    exact ⟨trivial, trivial⟩

/-- **C110** The command `plot-profile` makes one figure per component of a profile (channels `??Q`, …): all boxes of
the component in the order of the file; names of different components differ. -/
theorem C110_profile (order : List Str → List Str) (ho : SetOrder order) (h : Heap K) (root : Str) (s : List Nat)
    (comp : Nat → Char) (hcha : ∀ r ∈ s, (h r).cha = ['?', '?', comp r])
    (hc : ∀ r ∈ s, (comp r).toUpper = comp r ∧ comp r ≠ '?' ∧ comp r ≠ '*' ∧ comp r ≠ '[') (draw : PlotCall → Option PyErr)
    (hd : ∀ c : PlotCall, (∀ r ∈ c.traces, r ∈ s) → (∀ r ∈ c.traces, ∀ q ∈ c.traces, (h r).cha = (h q).cha) →
      draw c = none) (st : PlotState) :
    ∃ fs calls, plotProfileStream order draw h root st s = (⟨fs, st.plots ++ calls⟩, none) ∧
      (calls.flatMap PlotCall.traces).Perm s ∧
      (∀ r ∈ s, ∃ c ∈ calls, r ∈ c.traces) ∧
      (∀ c ∈ calls, c.traces ≠ [] ∧ c.traces.Sublist s ∧
        ∃ ch, (∀ r, r ∈ c.traces ↔ r ∈ s ∧ comp r = ch) ∧ c.fname = root ++ "/profile_".toList ++ ch :: ".pdf".toList) ∧
      (calls.map PlotCall.fname).Nodup := by
  obtain ⟨hnd, hmem⟩ := ho (s.map fun r => (h r).cha)
  set chs := order (s.map fun r => (h r).cha) with hchs
  have hch : ∀ ch ∈ chs, ∃ r ∈ s, (h r).cha = ch := by
    intro ch hc
    rw [hmem] at hc
    simpa using hc
  have hup : ∀ r ∈ s, upper (h r).cha = ['?', '?', comp r] := by
    intro r hr
    rw [hcha r hr]
    unfold upper
    simp only [List.map_cons, List.map_nil, (hc r hr).1]
    rfl
  have hsel : ∀ ch ∈ chs, selectChannel h s ch = ofChannel h s ch := by
    intro ch hc'
    obtain ⟨r, hr, rfl⟩ := hch ch hc'
    unfold selectChannel ofChannel
    refine List.filter_congr ?_
    intro q hq
    rw [hup r hr, hup q hq, fnmatch_comp _ (hc r hr).2.1 (hc r hr).2.2.1 (hc r hr).2.2.2, hcha r hr, hcha q hq]
    refine decide_eq_decide.2 ⟨fun he => by rw [he], fun he => ?_⟩
    simpa using he.symm
  have hne : ∀ ch ∈ chs, ofChannel h s ch ≠ [] := by
    intro ch hc hn
    obtain ⟨r, hr, hrc⟩ := hch ch hc
    have : r ∈ ofChannel h s ch := List.mem_filter.2 ⟨hr, by simp [hrc]⟩
    rw [hn] at this
    cases this
  let name : Str → Str := fun ch => root ++ ("/profile_".toList ++ ch.getD 2 ' ' :: ".pdf".toList)
  let g : Str → PlotCall := fun ch => ⟨name ch, ofChannel h s ch⟩
  have hbody : ∀ ch ∈ chs, ∀ st, ∃ fs,
      plotChannel draw h root plotProfileFnames false s st ch = (⟨fs, st.plots ++ [g ch]⟩, none) := by
    intro ch hc' st
    unfold plotChannel
    rw [hsel ch hc']
    cases hof : ofChannel h s ch with
    | nil => exact absurd hof (hne ch hc')
    | cons a l =>
      have ham : a ∈ ofChannel h s ch := by rw [hof]; simp
      have has := List.mem_of_mem_filter ham
      have hach : (h a).cha = ch := by simpa using (List.mem_filter.1 ham).2
      have hn := plotProfile_name root (fieldsOf (h a)) (comp a)
        (by show (h a).cha[2]? = _; rw [hcha a has]; rfl)
      have hdr := hd ⟨root ++ ("/profile_".toList ++ comp a :: ".pdf".toList), a :: l⟩
        (fun r hr => by
          have hr' : r ∈ ofChannel h s ch := by rw [hof]; exact hr
          exact List.mem_of_mem_filter hr')
        (fun r hr q hq => by
          have hr' : r ∈ ofChannel h s ch := by rw [hof]; exact hr
          have hq' : q ∈ ofChannel h s ch := by rw [hof]; exact hq
          rw [show (h r).cha = ch by simpa using (List.mem_filter.1 hr').2,
            show (h q).cha = ch by simpa using (List.mem_filter.1 hq').2])
      simp only [hn, Bool.false_eq_true, if_false, hdr]
      refine ⟨createDir st.fs (name ch), ?_⟩
      have hg : g ch = ⟨name ch, a :: l⟩ := by
        show (⟨name ch, ofChannel h s ch⟩ : PlotCall) = _
        rw [hof]
      have hnm : name ch = root ++ ("/profile_".toList ++ comp a :: ".pdf".toList) := by
        show root ++ ("/profile_".toList ++ ch.getD 2 ' ' :: ".pdf".toList) = _
        rw [← hach, hcha a has]
        rfl
      rw [hg, hnm]
  obtain ⟨fs, hl⟩ := plotLoop_ok _ g chs hbody st
  have hmemtr : ∀ ch, ∀ r, r ∈ (g ch).traces ↔ r ∈ s ∧ (h r).cha = ch := by
    intro ch r
    show r ∈ ofChannel h s ch ↔ _
    unfold ofChannel
    simp
  refine ⟨fs, chs.map g, hl, ?_, ?_, ?_, ?_⟩
  · rw [List.flatMap_map]
    refine flatMap_filter_perm (fun r => (h r).cha) chs hnd s ?_
    intro r hr
    rw [hmem]
    exact List.mem_map_of_mem hr
  · intro r hr
    refine ⟨g (h r).cha, List.mem_map_of_mem ?_, (hmemtr _ _).2 ⟨hr, rfl⟩⟩
    rw [hmem]
    exact List.mem_map_of_mem (f := fun r => (h r).cha) hr
  · intro c hc'
    obtain ⟨ch, hch', rfl⟩ := List.mem_map.1 hc'
    obtain ⟨r, hr, hrc⟩ := hch ch hch'
    refine ⟨hne ch hch', List.filter_sublist, comp r, ?_, ?_⟩
    · intro q
      rw [hmemtr]
      refine and_congr_right fun hq => ?_
      rw [← hrc, hcha q hq, hcha r hr]
      simp
    · show root ++ ("/profile_".toList ++ ch.getD 2 ' ' :: ".pdf".toList) = _
      rw [← hrc, hcha r hr, List.append_assoc]
      rfl
  · rw [List.map_map]
    refine (List.nodup_map_iff_inj_on hnd).2 ?_
    intro a ha b hb heq
    obtain ⟨r, hr, hra⟩ := hch a ha
    obtain ⟨q, hq, hqb⟩ := hch b hb
    have heq' : root ++ ("/profile_".toList ++ a.getD 2 ' ' :: ".pdf".toList) =
      root ++ ("/profile_".toList ++ b.getD 2 ' ' :: ".pdf".toList) := heq
    rw [← hra, ← hqb, hcha r hr, hcha q hq] at heq' ⊢
    have h2 := List.append_cancel_left (List.append_cancel_left heq')
    have h3 : comp r = comp q := (List.cons.inj h2).1
    rw [h3]

end plot

/-! ## C109: print -/

section commands
variable {K S T W : Type} [Field K] [LinearOrder K] [FloorRing K]

/-- **C109** (partial: the documented object `inventory` is not known, see `C109_counterexample`) The command `print`
shows the events for the object `events` and the stations for the object `stations`, and the streams of all files
otherwise, in the order given; nothing else is read and nothing is written. -/
theorem C109_print_partial (loads : Str → Res (Value K)) (P : Parts K S T W) (commands : List Str) (o : Str)
    (rest : List Str) (kw d : Dict (Value K)) (hk : prepare loads kw = .ok d) (w : W) :
    runCommands loads P "print".toList commands (some (o :: rest)) kw w =
      if o = "events".toList then (match P.readEvents with | .ok _ => .shown .events | .error _ => .message)
      else if o = "stations".toList then (match P.readInventory with | .ok _ => .shown .stations | .error _ => .message)
      else .shown (.files (o :: rest)) := by
  have hc : checkCommands "print".toList commands = .ok () := by
    unfold checkCommands
    rw [if_neg (by decide), if_neg (by decide)]
  have hn : needs "print".toList (some (o :: rest)) =
      .ok ⟨decide (o = "events".toList), decide (o = "stations".toList)⟩ := by
    unfold needs
    rw [if_neg (by decide), if_neg (by decide)]
  unfold runCommands
  rw [hk]
  simp only []
  rw [hc]
  simp only []
  rw [hn]
  simp only [Option.getD_some]
  rw [if_neg (show ¬ "print".toList = "data".toList by decide)]
  by_cases h1 : o = "events".toList
  · have h2 : o ≠ "stations".toList := by rw [h1]; decide
    rw [if_pos h1, if_pos (decide_eq_true h1), if_neg (fun hh => h2 (of_decide_eq_true hh))]
    cases P.readEvents with
    | error e => rfl
    | ok u =>
      simp only [printed]
      rw [if_pos trivial, if_pos h1]
  · rw [if_neg h1, if_neg (fun hh => h1 (of_decide_eq_true hh))]
    by_cases h2 : o = "stations".toList
    · rw [if_pos h2, if_pos (decide_eq_true h2)]
      cases P.readInventory with
      | error e => rfl
      | ok u =>
        simp only [printed]
        rw [if_pos trivial, if_neg h1, if_pos h2]
    · rw [if_neg h2, if_neg (fun hh => h2 (of_decide_eq_true hh))]
      simp only [printed]
      rw [if_pos trivial, if_neg h1, if_neg h2]

/-! ## C111: the other commands -/

theorem streamLoop_ok (body : S → W → W × Option PyErr) (err : Option PyErr) (g : S → W → W) (ss : List S)
    (hb : ∀ s ∈ ss, ∀ w, body s w = (g s w, none)) (w : W) :
    streamLoop body err w ss = (ss.foldl (fun w s => g s w) w, err) := by
  induction ss generalizing w with
  | nil => rfl
  | cons s ss ih =>
    unfold streamLoop
    rw [hb s List.mem_cons_self w]
    exact ih (fun x hx => hb x (List.mem_cons_of_mem _ hx)) _

theorem streamLoop_stop (body : S → W → W × Option PyErr) (err : Option PyErr) (g : S → W → W) (ss rest : List S)
    (hb : ∀ s ∈ ss, ∀ w, body s w = (g s w, none)) (s : S) (e : PyErr) (k : W → W)
    (hs : ∀ w, body s w = (k w, some e)) (w : W) :
    streamLoop body err w (ss ++ s :: rest) = (k (ss.foldl (fun w s => g s w) w), some e) := by
  induction ss generalizing w with
  | nil =>
    show streamLoop body err w (s :: rest) = _
    unfold streamLoop
    rw [hs w]
    rfl
  | cons a ss ih =>
    rw [List.cons_append]
    unfold streamLoop
    rw [hb a List.mem_cons_self w]
    exact ih (fun x hx => hb x (List.mem_cons_of_mem _ hx)) _

/-- What has to be readable for a command that is not `print`: the stations, the events (but for `stack` and `plot`) and
for `data` the source of the waveforms. -/
def Readable (P : Parts K S T W) (command : Str) : Prop :=
  P.readInventory = .ok () ∧
  (command ≠ "stack".toList → command ≠ "plot".toList → P.readEvents = .ok ()) ∧
  (command = "data".toList → P.initData = .ok ())

theorem runCommands_eq (loads : Str → Res (Value K)) (P : Parts K S T W) (command : Str) (commands : List Str)
    (objects : Option (List Str)) (kw d : Dict (Value K)) (hk : prepare loads kw = .ok d)
    (hc : checkCommands command commands = .ok ()) (hp : command ≠ "print".toList) (hr : Readable P command) (w : W) :
    runCommands loads P command commands objects kw w =
      .ran (dispatch P command commands d w).1 (dispatch P command commands d w).2 := by
  obtain ⟨h1, h2, h3⟩ := hr
  unfold runCommands
  rw [hk]
  simp only []
  rw [hc]
  simp only []
  have hd : (if command = "data".toList then P.initData else .ok ()) = .ok () := by
    by_cases hh : command = "data".toList
    · rw [if_pos hh, h3 hh]
    · rw [if_neg hh]
  by_cases hsp : command = "stack".toList ∨ command = "plot".toList
  · have hn : needs command objects = .ok ⟨false, true⟩ := by
      unfold needs
      rw [if_pos hsp]
    rw [hn]
    simp only [Bool.false_eq_true, if_false, if_true, h1, hd]
    rw [if_neg hp]
  · have hn : needs command objects = .ok ⟨true, true⟩ := by
      unfold needs
      rw [if_neg hsp, if_pos hp]
    rw [not_or] at hsp
    rw [hn]
    simp only [if_true, h1, h2 hsp.1 hsp.2, hd]
    rw [if_neg hp]

/-- **C111** Stations that cannot be read: a message, nothing is processed or written, whatever the command. -/
theorem C111_stations (loads : Str → Res (Value K)) (P : Parts K S T W) (command : Str) (commands : List Str)
    (objects : Option (List Str)) (kw d : Dict (Value K)) (hk : prepare loads kw = .ok d)
    (hc : checkCommands command commands = .ok ()) (hp : command ≠ "print".toList) (e : PyErr)
    (hr : P.readInventory = .error e) (w : W) : runCommands loads P command commands objects kw w = .message := by
  unfold runCommands
  rw [hk]
  simp only []
  rw [hc]
  simp only []
  by_cases hsp : command = "stack".toList ∨ command = "plot".toList
  · have hn : needs command objects = .ok ⟨false, true⟩ := by
      unfold needs
      rw [if_pos hsp]
    rw [hn]
    simp only [Bool.false_eq_true, if_false, if_true, hr]
  · have hn : needs command objects = .ok ⟨true, true⟩ := by
      unfold needs
      rw [if_neg hsp, if_pos hp]
    rw [hn]
    simp only [if_true, hr]
    cases P.readEvents <;> rfl

/-- **C111** Events that cannot be read: a message and nothing else, but for the commands `stack` and `plot`, which do
not need them (`print`: see C109). -/
theorem C111_events (loads : Str → Res (Value K)) (P : Parts K S T W) (command : Str) (commands : List Str)
    (objects : Option (List Str)) (kw d : Dict (Value K)) (hk : prepare loads kw = .ok d)
    (hc : checkCommands command commands = .ok ()) (hp : command ≠ "print".toList) (hs : command ≠ "stack".toList)
    (hpl : command ≠ "plot".toList) (e : PyErr)
    (hr : P.readEvents = .error e) (w : W) : runCommands loads P command commands objects kw w = .message := by
  have hn : needs command objects = .ok ⟨true, true⟩ := by
    unfold needs
    rw [if_neg (by rw [not_or]; exact ⟨hs, hpl⟩), if_pos hp]
  unfold runCommands
  rw [hk]
  simp only []
  rw [hc]
  simp only []
  rw [hn]
  simp only [if_true, hr]

/-- **C111** `data` without a usable source of waveforms: a message and nothing else. -/
theorem C111_source (loads : Str → Res (Value K)) (P : Parts K S T W) (commands : List Str)
    (objects : Option (List Str)) (kw d : Dict (Value K)) (hk : prepare loads kw = .ok d) (e : PyErr)
    (hr : P.initData = .error e) (w : W) : runCommands loads P "data".toList commands objects kw w = .message := by
  have hn : needs "data".toList objects = .ok ⟨true, true⟩ := by
    unfold needs
    rw [if_neg (by decide), if_pos (by decide)]
  have hc : checkCommands "data".toList commands = .ok () := by
    unfold checkCommands
    rw [if_neg (by decide), if_neg (by decide)]
  unfold runCommands
  rw [hk]
  simp only []
  rw [hc]
  simp only []
  rw [hn]
  simp only [if_true, hr]
  cases P.readEvents <;> cases P.readInventory <;> rfl

theorem checkCommands_other (command : Str) (commands : List Str) (h : command ≠ "calc".toList) :
    checkCommands command commands = .ok () := by
  unfold checkCommands
  rw [if_neg h, if_neg h]

/-- **C111** `convert` writes each stream read once, unchanged and in the order of the files. -/
theorem C111_convert (loads : Str → Res (Value K)) (P : Parts K S T W) (commands : List Str)
    (objects : Option (List Str)) (kw d : Dict (Value K)) (hk : prepare loads kw = .ok d)
    (hr : Readable P "convert".toList) (ss : List S) (err : Option PyErr)
    (hit : P.streams (.processed false) = (ss, err)) (g : S → W → W)
    (hg : ∀ s ∈ ss, ∀ w, P.convert s w = (g s w, none)) (w : W) :
    runCommands loads P "convert".toList commands objects kw w = .ran (ss.foldl (fun w s => g s w) w) err := by
  rw [runCommands_eq loads P _ commands objects kw d hk (checkCommands_other _ _ (by decide)) (by decide) hr]
  have hd : dispatch P "convert".toList commands d w = (ss.foldl (fun w s => g s w) w, err) := by
    unfold dispatch
    have hso : sourceOf "convert".toList = .processed false := by decide
    simp only [hso, hit]
    rw [if_pos trivial]
    exact streamLoop_ok P.convert err g ss hg w
  rw [hd]

/-- **C111** `stack` writes one stack per stream read, the stack of exactly this stream. -/
theorem C111_stack (loads : Str → Res (Value K)) (P : Parts K S T W) (commands : List Str)
    (objects : Option (List Str)) (kw d : Dict (Value K)) (hk : prepare loads kw = .ok d)
    (hr : Readable P "stack".toList) (ss : List S) (err : Option PyErr)
    (hit : P.streams (.processed false) = (ss, err)) (f : S → S) (hf : ∀ s ∈ ss, P.stack s = .ok (f s)) (g : S → W → W)
    (hg : ∀ s ∈ ss, ∀ w, P.writeStack (f s) w = (g (f s) w, none)) (w : W) :
    runCommands loads P "stack".toList commands objects kw w = .ran (ss.foldl (fun w s => g (f s) w) w) err := by
  rw [runCommands_eq loads P _ commands objects kw d hk (checkCommands_other _ _ (by decide)) (by decide) hr]
  have hd : dispatch P "stack".toList commands d w = (ss.foldl (fun w s => g (f s) w) w, err) := by
    unfold dispatch
    have hso : sourceOf "stack".toList = .processed false := by decide
    simp only [hso, hit]
    rw [if_neg (by decide), if_neg (by decide), if_neg (by decide), if_pos trivial]
    refine streamLoop_ok (stackBody P) err (fun s w => g (f s) w) ss ?_ w
    intro s hs w
    unfold stackBody
    rw [hf s hs]
    exact hg s hs w
  rw [hd]

/-- **C111** The first stream that cannot be stacked ends `stack`; the stacks before it have been written, later
streams are not treated. -/
theorem C111_stack_stop (P : Parts K S T W) (commands : List Str) (d : Dict (Value K)) (ss rest : List S) (s : S)
    (err : Option PyErr) (hit : P.streams (.processed false) = (ss ++ s :: rest, err)) (f : S → S)
    (hf : ∀ s ∈ ss, P.stack s = .ok (f s)) (g : S → W → W) (hg : ∀ s ∈ ss, ∀ w, P.writeStack (f s) w = (g (f s) w, none))
    (e : PyErr) (hs : P.stack s = .error e) (w : W) :
    dispatch P "stack".toList commands d w = (ss.foldl (fun w s => g (f s) w) w, some e) := by
  unfold dispatch
  have hso : sourceOf "stack".toList = .processed false := by decide
  simp only [hso, hit]
  rw [if_neg (by decide), if_neg (by decide), if_neg (by decide), if_pos trivial]
  refine streamLoop_stop (stackBody P) err (fun s w => g (f s) w) ss rest ?_ s e id ?_ w
  · intro s hs w
    unfold stackBody
    rw [hf s hs]
    exact hg s hs w
  · intro w
    unfold stackBody
    rw [hs]
    rfl

/-- **C111** `plot` and `plot-profile` draw each stream read once with the plot options of the configuration. -/
theorem C111_plots (loads : Str → Res (Value K)) (P : Parts K S T W) (commands : List Str)
    (objects : Option (List Str)) (kw d : Dict (Value K)) (hk : prepare loads kw = .ok d) (ss : List S)
    (err : Option PyErr) (o : Dict (Leaf K)) (g : S → W → W) (w : W) :
    (Readable P "plot".toList → d.get "plot" = some (.obj o) → P.streams (.processed false) = (ss, err) →
      (∀ s ∈ ss, ∀ w, P.plot o s w = (g s w, none)) →
      runCommands loads P "plot".toList commands objects kw w = .ran (ss.foldl (fun w s => g s w) w) err) ∧
    (Readable P "plot-profile".toList → d.get "plot_profile" = some (.obj o) → P.streams .profileFile = (ss, err) →
      (∀ s ∈ ss, ∀ w, P.plotProfile o s w = (g s w, none)) →
      runCommands loads P "plot-profile".toList commands objects kw w = .ran (ss.foldl (fun w s => g s w) w) err) := by
  constructor
  · intro hr ho hit hg
    rw [runCommands_eq loads P _ commands objects kw d hk (checkCommands_other _ _ (by decide)) (by decide) hr]
    have hd : dispatch P "plot".toList commands d w = (ss.foldl (fun w s => g s w) w, err) := by
      unfold dispatch
      have hso : sourceOf "plot".toList = .processed false := by decide
      simp only [hso, hit]
      rw [if_neg (by decide), if_pos trivial]
      refine streamLoop_ok _ err g ss ?_ w
      intro s hs w
      unfold withOptions optionDict
      rw [ho]
      exact hg s hs w
    rw [hd]
  · intro hr ho hit hg
    rw [runCommands_eq loads P _ commands objects kw d hk (checkCommands_other _ _ (by decide)) (by decide) hr]
    have hd : dispatch P "plot-profile".toList commands d w = (ss.foldl (fun w s => g s w) w, err) := by
      unfold dispatch
      have hso : sourceOf "plot-profile".toList = .profileFile := by decide
      simp only [hso, hit]
      rw [if_neg (by decide), if_neg (by decide), if_pos trivial]
      refine streamLoop_ok _ err g ss ?_ w
      intro s hs w
      unfold withOptions optionDict
      rw [ho]
      exact hg s hs w
    rw [hd]

/-- **C111** `profile` gives all traces of all files to one profile, made with the options `boxes` and `profile`, and
writes this profile and nothing else; nothing is written if it cannot be made. -/
theorem C111_profile (loads : Str → Res (Value K)) (P : Parts K S T W) (commands : List Str)
    (objects : Option (List Str)) (kw d : Dict (Value K)) (hk : prepare loads kw = .ok d)
    (hr : Readable P "profile".toList) (boxes opts : Dict (Leaf K)) (hb : d.get "boxes" = some (.obj boxes))
    (ho : d.get "profile" = some (.obj opts)) (w : W) :
    (∀ x, P.profile boxes opts P.traces = .ok x →
      runCommands loads P "profile".toList commands objects kw w = .ran (P.writeProfile x w).1 (P.writeProfile x w).2) ∧
    (∀ e, P.profile boxes opts P.traces = .error e →
      runCommands loads P "profile".toList commands objects kw w = .ran w (some e)) := by
  rw [runCommands_eq loads P _ commands objects kw d hk (checkCommands_other _ _ (by decide)) (by decide) hr]
  have hb' : optionDict d "boxes" = .ok boxes := by unfold optionDict; rw [hb]
  have ho' : optionDict d "profile" = .ok opts := by unfold optionDict; rw [ho]
  have hd : dispatch P "profile".toList commands d w = match P.profile boxes opts P.traces with
      | .error e => (w, some e)
      | .ok x => P.writeProfile x w := by
    unfold dispatch
    simp only []
    rw [if_neg (by decide), if_neg (by decide), if_neg (by decide), if_neg (by decide), if_pos trivial, hb']
    simp only []
    rw [ho']
    simp only []
    cases P.profile boxes opts P.traces <;> rfl
  constructor
  · intro x hx
    rw [hd, hx]
  · intro e he
    rw [hd, he]

/-- Commands with their own branch. -/
def ownBranch : List Str :=
  ["print".toList, "convert".toList, "plot".toList, "plot-profile".toList, "stack".toList, "profile".toList]

/-- **C111** The other commands are run as a sequence of processing steps (C93). -/
theorem C111_process (loads : Str → Res (Value K)) (P : Parts K S T W) (command : Str) (commands : List Str)
    (objects : Option (List Str)) (kw d : Dict (Value K)) (hk : prepare loads kw = .ok d)
    (hc : checkCommands command commands = .ok ()) (hcmd : command ∉ ownBranch) (hr : Readable P command) (w : W) :
    runCommands loads P command commands objects kw w =
      .ran (runProcess loads P.ops command commands kw (P.streams (sourceOf command)).1
        (P.streams (sourceOf command)).2 w).1
        (runProcess loads P.ops command commands kw (P.streams (sourceOf command)).1
        (P.streams (sourceOf command)).2 w).2 := by
  unfold ownBranch at hcmd
  simp only [List.mem_cons, List.not_mem_nil, or_false, not_or] at hcmd
  obtain ⟨h1, h2, h3, h4, h5, h6⟩ := hcmd
  rw [runCommands_eq loads P _ commands objects kw d hk hc h1 hr]
  have hd : dispatch P command commands d w =
      processLoop P.ops d (command :: commands) (P.streams (sourceOf command)).2 w (P.streams (sourceOf command)).1 := by
    unfold dispatch
    simp only []
    rw [if_neg h2, if_neg h3, if_neg h4, if_neg h5, if_neg h6]
  have hp : runProcess loads P.ops command commands kw (P.streams (sourceOf command)).1
      (P.streams (sourceOf command)).2 w =
      processLoop P.ops d (command :: commands) (P.streams (sourceOf command)).2 w (P.streams (sourceOf command)).1 := by
    unfold runProcess
    simp only [hk, hc]
  rw [hd, hp]

/-- **C111** An unknown command writes nothing; it is reported only if there is something to process. -/
theorem C111_unknown (loads : Str → Res (Value K)) (P : Parts K S T W) (command : Str) (commands : List Str)
    (objects : Option (List Str)) (kw d : Dict (Value K)) (hk : prepare loads kw = .ok d)
    (hcmd : command ∉ ownBranch) (h1 : command ≠ "data".toList) (h2 : command ≠ "calc".toList)
    (h3 : command ≠ "moveout".toList) (hr : Readable P command) (w : W) :
    runCommands loads P command commands objects kw w =
      .ran w (if (P.streams (sourceOf command)).1 = [] then (P.streams (sourceOf command)).2 else some .notImplemented) := by
  have hc := checkCommands_other command commands h2
  rw [C111_process loads P command commands objects kw d hk hc hcmd hr]
  have hp : runProcess loads P.ops command commands kw (P.streams (sourceOf command)).1
      (P.streams (sourceOf command)).2 w =
      (w, if (P.streams (sourceOf command)).1 = [] then (P.streams (sourceOf command)).2 else some .notImplemented) := by
    unfold runProcess
    simp only [hk, hc]
    cases (P.streams (sourceOf command)).1 with
    | nil => simp [processLoop]
    | cons s ss =>
      have ha : applyCommands P.ops d (command :: commands) s = .error .notImplemented := by
        unfold applyCommands
        rw [List.foldlM_cons]
        unfold applyCommand
        rw [if_neg h1, if_neg h2, if_neg h3]
        rfl
      unfold processLoop
      rw [ha]
      simp
  rw [hp]

end commands

/-! ## Concrete cases -/

/-- Streams are lists of names; what is written is recorded. -/
def logParts : Parts ℚ (List Str) Str (List (List Str)) where
  readEvents := .ok ()
  readInventory := .ok ()
  initData := .ok ()
  streams
    | .events => ([], none)
    | .profileFile => ([["prof".toList]], none)
    | .processed _ => ([["a".toList, "b".toList], ["c".toList]], none)
  traces := (["a".toList, "b".toList, "c".toList], none)
  ops := logOps
  convert s w := (w ++ [s], none)
  plot _ s w := (w ++ ["figure".toList :: s], none)
  plotProfile _ s w := (w ++ ["profile figure".toList :: s], none)
  stack s := if s = ["bad".toList] then .error .valueError else .ok ["stack".toList ++ s.flatten]
  writeStack s w := (w ++ [s], none)
  profile _ _ t := .ok t.1
  writeProfile s w := (w ++ [s], none)

/-- Result of a run. -/
def written {W : Type} : CommandResult W → Option (W × Option PyErr)
  | .ran w e => some (w, e)
  | _ => none

def shownOf {W : Type} : CommandResult W → Option Printed
  | .shown p => some p
  | _ => none

def noJson : Str → Res (Value ℚ) := fun _ => .error .valueError

/-- **C109 is false**: the help of the command line tool offers the object `inventory`, but `rf print inventory` does
not show the stations: it tries to read waveforms from a file named `inventory`, and the configuration with the name of
the station file is not read. -/
theorem C109_counterexample :
    shownOf (runCommands noJson logParts "print".toList [] (some ["inventory".toList]) [] []) =
      some (.files ["inventory".toList]) ∧
    confFile (K := ℚ) "print".toList (some "conf.json".toList) [("objects", .leaf (.strs ["inventory".toList]))] = .ok none := by
  decide +kernel

example : shownOf (runCommands noJson logParts "print".toList [] (some ["events".toList]) [] []) = some .events ∧
    shownOf (runCommands noJson logParts "print".toList [] (some ["stations".toList]) [] []) = some .stations ∧
    shownOf (runCommands noJson logParts "print".toList [] (some ["a.h5".toList, "b.h5".toList]) [] []) =
      some (.files ["a.h5".toList, "b.h5".toList]) := by
  decide +kernel

example : written (runCommands noJson logParts "convert".toList [] none [] []) =
    some ([["a".toList, "b".toList], ["c".toList]], none) := by decide +kernel

example : written (runCommands noJson logParts "stack".toList [] none [] []) =
    some ([["stackab".toList], ["stackc".toList]], none) := by decide +kernel

example : written (runCommands noJson logParts "plot".toList [] none [] []) =
    some ([["figure".toList, "a".toList, "b".toList], ["figure".toList, "c".toList]], none) := by decide +kernel

example : written (runCommands noJson logParts "plot-profile".toList [] none [] []) =
    some ([["profile figure".toList, "prof".toList]], none) := by decide +kernel

example : written (runCommands noJson logParts "profile".toList [] none [] []) =
    some ([["a".toList, "b".toList, "c".toList]], none) := by decide +kernel

example : written (runCommands noJson logParts "calc".toList ["moveout".toList] none [] []) =
    some ([["a".toList, "b".toList, "calc".toList, "moveout".toList], ["c".toList, "calc".toList, "moveout".toList]], none) := by
  decide +kernel

example : written (runCommands noJson logParts "stak".toList [] none [] []) = some ([], some .notImplemented) := by
  decide +kernel

/-- The first stream that fails ends the program. -/
example : written (runCommands noJson { logParts with streams := fun _ => ([["a".toList], ["bad".toList], ["c".toList]], none) }
      "stack".toList [] none [] []) = some ([["stacka".toList]], some .valueError) := by
  decide +kernel

example : Readable logParts "stack".toList := ⟨rfl, fun _ _ => rfl, fun _ => rfl⟩

/-- Traces of two channels, not sorted. -/
def plotHeap : Heap ℚ := fun i =>
  { net := "CX".toList, sta := "PB01".toList, loc := [], cha := if i % 2 = 0 then "BHQ".toList else "BHT".toList,
    start := 0, sr := 1, data := [], ext := [("back_azimuth", .num (if i < 2 then 120 else 30))] }

def plotsOf (r : PlotState × Option PyErr) : List PlotCall × Option PyErr := (r.1.plots, r.2)

example : plotsOf (plotStream List.dedup (fun _ => none) plotHeap "plots".toList ⟨⟨fun _ => false, []⟩, []⟩ [0, 1, 2, 3]) =
    ([⟨"plots/CX.PB01..BHQ.pdf".toList, [2, 0]⟩, ⟨"plots/CX.PB01..BHT.pdf".toList, [3, 1]⟩], none) := by
  decide +kernel

/-- Boxes of a profile. -/
def boxHeap : Heap ℚ := fun i =>
  { net := [], sta := [], loc := [], cha := if i % 2 = 0 then "??Q".toList else "??T".toList,
    start := 0, sr := 1, data := [], ext := [] }

example : plotsOf (plotProfileStream List.dedup (fun _ => none) boxHeap "plots".toList ⟨⟨fun _ => false, []⟩, []⟩ [0, 1, 2, 3]) =
    ([⟨"plots/profile_Q.pdf".toList, [0, 2]⟩, ⟨"plots/profile_T.pdf".toList, [1, 3]⟩], none) := by
  decide +kernel

example : plotsOf (plotStream List.dedup (fun _ => none) boxHeap "plots".toList ⟨⟨fun _ => false, []⟩, []⟩ [0]) =
    ([], some .keyError) := by
  decide +kernel

end Verif.Props
