import Verif.Props.Multitaper
import Verif.Props.Water
import Verif.Props.Corr

/-!
# Which samples enter the spectra of `deconv_multitaper` (C89)
-/

set_option linter.unusedSimpArgs false
set_option linter.unusedSectionVars false

namespace Verif.Props
open Verif.Py Verif.Model Verif.Spec Finset Complex

/-- Weight of sample `n`: sum of the tapers of the windows `j ∈ used`, window `j` starting at `start j`. -/
noncomputable def coverage (start : ℕ → ℕ) (used : Finset ℕ) (tap : List ℝ) (n : ℕ) : ℝ :=
  ∑ j ∈ used, if start j ≤ n ∧ n < start j + tap.length then tap.getD (n - start j) 0 else 0

/-- The windows of `ntap` samples ending before the last of `nft` samples; without `guard` all windows. -/
def usedWindows (guard : Bool) (start : ℕ → ℕ) (nft ntap nwin : ℕ) : Finset ℕ :=
  (range nwin).filter fun j => guard = true → start j + ntap < nft

theorem range_foldlM_succ {β : Type} (f : β → ℕ → Res β) (n : ℕ) (b r : β)
    (h : (List.range (n + 1)).foldlM f b = .ok r) :
    ∃ c, (List.range n).foldlM f b = .ok c ∧ f c n = .ok r := by
  rw [List.range_succ, List.foldlM_append] at h
  cases hc : (List.range n).foldlM f b with
  | error e => rw [hc] at h; cases h
  | ok c =>
    rw [hc] at h
    refine ⟨c, rfl, ?_⟩
    have h : (List.foldlM f c [n] : Res β) = .ok r := h
    rw [List.foldlM_cons] at h
    cases hf : f c n with
    | error e => rw [hf] at h; cases h
    | ok d =>
      rw [hf] at h
      have h : (List.foldlM f d [] : Res β) = .ok r := h
      rw [List.foldlM_nil] at h
      injection h with h

theorem mtBit_get (nft js : ℕ) (tap x b : List ℝ) (h : mtBit nft js tap x = .ok b) (n : ℕ) (hn : n < nft) :
    b.getD n 0 = (if js ≤ n ∧ n < js + tap.length then tap.getD (n - js) 0 else 0) * x.getD n 0 := by
  unfold mtBit at h
  simp only [] at h
  split at h
  · cases h
  · injection h with h
    rw [← h, List.getD_eq_getElem _ _ (by simpa using hn), List.getElem_map, List.getElem_range]
    congr 1
    split
    · rename_i hc
      split
      · rename_i h1
        rw [h1] at hc
        rw [show n - js = 0 by omega]
      · rfl
    · rfl

theorem dft_add (x y z : List ℝ) (n k : ℕ) (h : ∀ j < n, z.getD j 0 = x.getD j 0 + y.getD j 0) :
    dft z n k = dft x n k + dft y n k := by
  unfold dft
  rw [← sum_add_distrib]
  refine sum_congr rfl fun j hj => ?_
  rw [h j (mem_range.1 hj)]
  push_cast
  ring

/-- Sample-wise product with a weight. -/
noncomputable def weighted (nft : ℕ) (c : ℕ → ℝ) (x : List ℝ) : List ℝ :=
  (List.range nft).map fun (n : ℕ) => c n * x.getD n 0

theorem weighted_get (nft : ℕ) (c : ℕ → ℝ) (x : List ℝ) (n : ℕ) (hn : n < nft) :
    (weighted nft c x).getD n 0 = c n * x.getD n 0 := by
  unfold weighted
  rw [List.getD_eq_getElem _ _ (by simpa using hn), List.getElem_map, List.getElem_range]

/-- The state after `nwin` windows. -/
theorem mtSum_get (guard : Bool) (nft ntap nwin : ℕ) (ofac : ℝ) (taps : List (List ℝ)) (x : List ℝ)
    (A : List (List ℂ)) (h : mtSum guard nft ntap nwin ofac taps x = .ok A) :
    A.length = taps.length ∧ ∀ k < taps.length, (A.getD k []).length = nft ∧ ∀ m < nft,
      (A.getD k []).getD m 0 =
        dft (weighted nft (coverage (mtStart ntap ofac) (usedWindows guard (mtStart ntap ofac) nft ntap nwin)
          (taps.getD k [])) x) nft m := by
  refine ⟨mtSum_length _ _ _ _ _ _ _ _ h, ?_⟩
  induction nwin generalizing A with
  | zero =>
    unfold mtSum at h
    simp only [List.range_zero, List.foldlM_nil] at h
    injection h with h
    intro k hk
    have e : A.getD k [] = List.replicate nft 0 := by
      rw [← h, List.getD_eq_getElem _ _ (by simpa using hk), List.getElem_map]
    rw [e]
    refine ⟨by simp, fun m hm => ?_⟩
    rw [List.getD_eq_getElem _ _ (by simpa using hm), List.getElem_replicate]
    unfold dft
    symm
    apply sum_eq_zero
    intro j hj
    rw [weighted_get _ _ _ _ (mem_range.1 hj)]
    simp [coverage, usedWindows]
  | succ nwin ih =>
    unfold mtSum at h
    obtain ⟨B, hB, hs⟩ := range_foldlM_succ _ _ _ _ h
    have ih := ih B hB
    have hlB := mtSum_length guard nft ntap nwin ofac taps x B hB
    intro k hk
    simp only [] at hs
    by_cases hg : guard && !(decide (mtStart ntap ofac nwin + ntap < nft))
    · rw [if_pos hg] at hs
      injection hs with hs
      subst hs
      have hu : usedWindows guard (mtStart ntap ofac) nft ntap (nwin + 1) =
          usedWindows guard (mtStart ntap ofac) nft ntap nwin := by
        unfold usedWindows
        rw [range_add_one, filter_insert, if_neg]
        simp only [Bool.and_eq_true, Bool.not_eq_true', decide_eq_false_iff_not] at hg
        exact fun hc => hg.2 (hc hg.1)
      rw [hu]
      exact ih k hk
    · rw [if_neg hg] at hs
      have hu : usedWindows guard (mtStart ntap ofac) nft ntap (nwin + 1) =
          insert nwin (usedWindows guard (mtStart ntap ofac) nft ntap nwin) := by
        unfold usedWindows
        rw [range_add_one, filter_insert, if_pos]
        intro hc
        by_contra hno
        exact hg (by simp [hc, hno])
      rw [hu]
      unfold mtWindow at hs
      cases hm : taps.mapM fun tap => mtBit nft (mtStart ntap ofac nwin) tap x with
      | error e => rw [hm] at hs; cases hs
      | ok bits =>
        rw [hm] at hs
        have hs : Except.ok (List.zipWith (fun a bit => addL a (fft (toC bit) nft)) B bits)
          = (Except.ok A : Res (List (List ℂ))) := hs
        injection hs with hs
        obtain ⟨hbl, hbg⟩ := mapM_ok _ _ _ hm
        have hkb : k < bits.length := by omega
        have hkB : k < B.length := by omega
        have hA : A.getD k [] = addL (B.getD k []) (fft (toC (bits.getD k [])) nft) := by
          rw [← hs, getD_zipWith_of_lt _ _ _ [] [] _ _ hkB hkb]
        obtain ⟨ih1, ih2⟩ := ih k hk
        have hfl : (fft (toC (bits.getD k [])) nft).length = nft := by simp [fft]
        rw [hA]
        refine ⟨by unfold addL; rw [List.length_zipWith, ih1, hfl]; simp, fun m hmn => ?_⟩
        unfold addL
        rw [getD_zipWith_of_lt _ _ _ 0 0 _ _ (by omega) (by omega), ih2 m hmn, fft_toC_get _ _ _ hmn]
        symm
        apply dft_add
        intro j hj
        have hbit : mtBit nft (mtStart ntap ofac nwin) (taps.getD k []) x = .ok (bits.getD k []) := by
          obtain ⟨y, hy, hy'⟩ := hbg k (taps.getD k []) (by
            rw [List.getD_eq_getElem _ _ hk]; exact List.getElem?_eq_getElem hk)
          rw [hy, List.getD_eq_getElem?_getD, hy']
          rfl
        rw [weighted_get _ _ _ _ hj, weighted_get _ _ _ _ hj, mtBit_get _ _ _ _ _ hbit _ hj]
        unfold coverage
        rw [sum_insert (by simp [usedWindows])]
        ring

/-- **C89 (part)** The spectral estimate of taper `k` is the discrete Fourier transform of the trace times the
sum of the tapers of the used windows; for response and noise (`guard`) these are the windows ending before
the last sample.  Missing: that the windows cover the trace, which is false, see the counterexample. -/
theorem C89_estimate_partial (guard : Bool) (nft ntap nwin : ℕ) (ofac : ℝ) (taps : List (List ℝ)) (x : List ℝ)
    (A : List (List ℂ)) (h : mtSum guard nft ntap nwin ofac taps x = .ok A) :
    ∀ k < taps.length, ∀ m < nft, (A.getD k []).getD m 0 =
      dft ((List.range nft).map fun (n : ℕ) => (∑ j ∈ (range nwin).filter
          (fun j => guard = true → mtStart ntap ofac j + ntap < nft),
        if mtStart ntap ofac j ≤ n ∧ n < mtStart ntap ofac j + (taps.getD k []).length
        then (taps.getD k []).getD (n - mtStart ntap ofac j) 0 else 0) * x.getD n 0) nft m :=
  fun k hk m hm => ((mtSum_get guard nft ntap nwin ofac taps x A h).2 k hk).2 m hm

/-! ### Samples without any influence -/

theorem foldlM_congr_ok {α β : Type} (f g : β → α → Res β) (l : List α) (b : β)
    (h : ∀ a ∈ l, ∀ b, f b a = g b a) : l.foldlM f b = l.foldlM g b := by
  induction l generalizing b with
  | nil => rfl
  | cons a l ih =>
    rw [List.foldlM_cons, List.foldlM_cons, h a List.mem_cons_self b]
    congr 1
    funext c
    exact ih c fun a ha => h a (List.mem_cons_of_mem _ ha)

theorem mapM_congr_ok {α β : Type} (f g : α → Res β) (l : List α) (h : ∀ a ∈ l, f a = g a) :
    l.mapM f = l.mapM g := by
  induction l with
  | nil => rfl
  | cons a l ih =>
    rw [List.mapM_cons, List.mapM_cons, h a List.mem_cons_self, ih fun a ha => h a (List.mem_cons_of_mem _ ha)]

theorem mtBit_congr (nft js E : ℕ) (tap x y : List ℝ) (hl : x.length = y.length)
    (h : ∀ n < E, x.getD n 0 = y.getD n 0) (hE : js + tap.length ≤ E) : mtBit nft js tap x = mtBit nft js tap y := by
  unfold mtBit
  simp only [hl]
  split
  · rfl
  · congr 1
    apply List.map_congr_left
    intro n _
    by_cases hc : js ≤ n ∧ n < js + tap.length
    · rw [h n (by omega)]
    · rw [if_neg hc, zero_mul, zero_mul]

theorem mtSum_congr (guard : Bool) (nft ntap nwin E : ℕ) (ofac : ℝ) (taps : List (List ℝ)) (x y : List ℝ)
    (ht : ∀ tap ∈ taps, tap.length = ntap) (hl : x.length = y.length) (h : ∀ n < E, x.getD n 0 = y.getD n 0)
    (hE : ∀ j ∈ usedWindows guard (mtStart ntap ofac) nft ntap nwin, mtStart ntap ofac j + ntap ≤ E) :
    mtSum guard nft ntap nwin ofac taps x = mtSum guard nft ntap nwin ofac taps y := by
  unfold mtSum
  apply foldlM_congr_ok
  intro j hj acc
  simp only []
  split
  · rfl
  · rename_i hg
    have hu : j ∈ usedWindows guard (mtStart ntap ofac) nft ntap nwin := by
      unfold usedWindows
      rw [mem_filter]
      refine ⟨mem_range.2 (List.mem_range.1 hj), fun hc => ?_⟩
      by_contra hno
      exact hg (by simp [hc, hno])
    unfold mtWindow
    rw [mapM_congr_ok (fun tap => mtBit nft (mtStart ntap ofac j) tap x)
      (fun tap => mtBit nft (mtStart ntap ofac j) tap y) taps]
    intro tap htap
    exact mtBit_congr nft _ E tap x y hl h (by rw [ht tap htap]; exact hE j hu)

theorem mtComp_congr (env : MtEnv) (henv : Shaped env) (nft ntap nwav K E : ℕ) (dt ofac tshift : ℝ)
    (gauss : Option ℝ) (el : List ℝ) (S : List (List ℂ)) (dat dat' nos : List ℝ) (hl : dat.length = dat'.length)
    (h : ∀ n < E, (env.detrend dat).getD n 0 = (env.detrend dat').getD n 0)
    (hE : ∀ j, mtStart ntap ofac j + ntap < nft → mtStart ntap ofac j + ntap ≤ E) :
    mtComp env nft ntap nwav dt ofac tshift gauss (env.tapers ntap K).1 el S dat nos =
      mtComp env nft ntap nwav dt ofac tshift gauss (env.tapers ntap K).1 el S dat' nos := by
  unfold mtComp
  simp only []
  rw [mtSum_congr true nft ntap (mtNwin ofac nft ntap - 1).toNat E ofac (env.tapers ntap K).1 (env.detrend dat)
    (env.detrend dat') (henv.taps ntap K) (by rw [henv.detrend, henv.detrend, hl]) h]
  intro j hj
  unfold usedWindows at hj
  rw [mem_filter] at hj
  exact hE j (hj.2 rfl)

/-- Samples of a response behind the last used window have no influence on the result: two sets of responses
which agree, after removal of the trend, up to the sample `E` where the last used window ends, give the same
result. -/
theorem C89_tail_unused (env : MtEnv) (henv : Shaped env) (rsp rsp' : List (List ℝ)) (src : List ℝ)
    (nse : List (List ℝ)) (sr tshift : ℝ) (gauss : Option ℝ) (K : ℕ) (T olap : ℝ) (normalize : Option ℤ)
    (E nft : ℕ) (hlen : rsp.length = rsp'.length) (hr : ∀ r ∈ rsp, r.length = nft) (hr' : ∀ r ∈ rsp', r.length = nft)
    (h : ∀ c, ∀ n < E, (env.detrend (rsp.getD c [])).getD n 0 = (env.detrend (rsp'.getD c [])).getD n 0)
    (hE : ∀ j, mtStart (pyRound (T / (1 / sr))).toNat (1 / (1 - olap)) j + (pyRound (T / (1 / sr))).toNat < nft →
      mtStart (pyRound (T / (1 / sr))).toNat (1 / (1 - olap)) j + (pyRound (T / (1 / sr))).toNat ≤ E) :
    deconvMultitaper env rsp src nse sr tshift gauss K T olap normalize =
      deconvMultitaper env rsp' src nse sr tshift gauss K T olap normalize := by
  cases rsp with
  | nil =>
    cases rsp' with
    | nil => rfl
    | cons => simp at hlen
  | cons r rs =>
    cases rsp' with
    | nil => simp at hlen
    | cons r' rs' =>
      have e1 : r.length = nft := hr r List.mem_cons_self
      have e2 : r'.length = nft := hr' r' List.mem_cons_self
      have g1 : getItem (r :: rs) 0 = .ok r := by simp [getItem]
      have g2 : getItem (r' :: rs') 0 = .ok r' := by simp [getItem]
      have hcomp : ∀ (nwav : ℕ) (S : List (List ℂ)),
          ((List.range (r :: rs).length).mapM fun (c : ℕ) => do
            let nos ← getItem nse c
            mtComp env nft (pyRound (T / (1 / sr))).toNat nwav (1 / sr) (1 / (1 - olap)) tshift gauss
              (env.tapers (pyRound (T / (1 / sr))).toNat K).1 (env.tapers (pyRound (T / (1 / sr))).toNat K).2 S
              ((r :: rs).getD c []) nos) =
          ((List.range (r' :: rs').length).mapM fun (c : ℕ) => do
            let nos ← getItem nse c
            mtComp env nft (pyRound (T / (1 / sr))).toNat nwav (1 / sr) (1 / (1 - olap)) tshift gauss
              (env.tapers (pyRound (T / (1 / sr))).toNat K).1 (env.tapers (pyRound (T / (1 / sr))).toNat K).2 S
              ((r' :: rs').getD c []) nos) := by
        intro nwav S
        rw [hlen]
        apply mapM_congr_ok
        intro c hc
        have hc := List.mem_range.1 hc
        congr 1
        funext nos
        apply mtComp_congr env henv _ _ _ _ E
        · rw [List.getD_eq_getElem _ _ (by omega), List.getD_eq_getElem _ _ hc,
            hr _ (List.getElem_mem _), hr' _ (List.getElem_mem _)]
        · exact h c
        · exact hE
      unfold deconvMultitaper
      rw [g1, g2]
      simp only [bind, Except.bind, e1, e2] at hcomp ⊢
      simp only [hcomp]

/-- Removal of the regression line, as `scipy.signal.detrend`: it depends on the sums of the samples and of the
samples times their index. -/
noncomputable def lineDetrend (x : List ℝ) : List ℝ :=
  let N : ℝ := x.length
  let s0 := x.sum
  let s1 := (x.zipIdx.map fun (p : ℝ × ℕ) => p.1 * p.2).sum
  let n1 := ∑ n ∈ range x.length, (n : ℝ)
  let n2 := ∑ n ∈ range x.length, (n : ℝ) ^ 2
  let b := (N * s1 - n1 * s0) / (N * n2 - n1 ^ 2)
  let a := (s0 - b * n1) / N
  x.zipIdx.map fun (p : ℝ × ℕ) => p.1 - a - b * p.2

theorem lineDetrend_length (x : List ℝ) : (lineDetrend x).length = x.length := by simp [lineDetrend]

theorem lineDetrend_congr (x y : List ℝ) (hl : x.length = y.length) (h0 : x.sum = y.sum)
    (h1 : (x.zipIdx.map fun (p : ℝ × ℕ) => p.1 * p.2).sum = (y.zipIdx.map fun (p : ℝ × ℕ) => p.1 * p.2).sum)
    (n : ℕ) (hn : x.getD n 0 = y.getD n 0) : (lineDetrend x).getD n 0 = (lineDetrend y).getD n 0 := by
  by_cases hlt : n < x.length
  · have hlt' : n < y.length := by omega
    rw [List.getD_eq_getElem _ _ hlt, List.getD_eq_getElem _ _ hlt'] at hn
    unfold lineDetrend
    simp only [h0, h1, hl]
    rw [List.getD_eq_getElem _ _ (by simpa using hlt), List.getD_eq_getElem _ _ (by simpa using hlt'),
      List.getElem_map, List.getElem_map, List.getElem_zipIdx, List.getElem_zipIdx]
    simp only [hn]
  · rw [List.getD_eq_default _ _ (by rw [lineDetrend_length]; omega),
      List.getD_eq_default _ _ (by rw [lineDetrend_length]; omega)]

/-- A response of 32 samples. -/
def tailA : List ℝ := [0, 1, 3, 2, 0, -1, -2, 0] ++ List.replicate 24 0
/-- The same response with a pulse at its end. -/
def tailB : List ℝ := [0, 1, 3, 2, 0, -1, -2, 0] ++ List.replicate 21 0 ++ [1, -2, 1]

/-- **C89, negation**: with tapers of 16 s, overlap 3/4 and 32 samples the last four samples of the response are
not covered by any used window; whatever the tapers, source, noise and remaining parameters, a response with
a pulse at the end gives the same result as the one without. -/
theorem C89_counterexample : tailA ≠ tailB ∧ ∀ (env : MtEnv), Shaped env → env.detrend = lineDetrend →
    ∀ (src : List ℝ) (nse : List (List ℝ)) (tshift : ℝ) (gauss : Option ℝ) (K : ℕ) (normalize : Option ℤ),
      deconvMultitaper env [tailA] src nse 1 tshift gauss K 16 (3 / 4) normalize =
        deconvMultitaper env [tailB] src nse 1 tshift gauss K 16 (3 / 4) normalize := by
  constructor
  · intro h
    have := congrArg (fun l => l.getD 29 0) h
    norm_num [tailA, tailB] at this
  · intro env henv hd src nse tshift gauss K normalize
    have hr : pyRound ((16 : ℝ) / (1 / 1)) = 16 := by
      have := pyRound_int (K := ℝ) 16
      norm_num at this ⊢
      exact this
    refine C89_tail_unused env henv [tailA] [tailB] src nse 1 tshift gauss K 16 (3 / 4) normalize 28 32 rfl
      (by simp [tailA]) (by simp [tailB]) ?_ ?_
    · intro c n hn
      cases c with
      | zero =>
        rw [hd]
        refine lineDetrend_congr _ _ (by simp [tailA, tailB]) ?_ ?_ n ?_
        · norm_num [tailA, tailB]
        · norm_num [tailA, tailB, List.replicate, List.zipIdx]
        · show tailA.getD n 0 = tailB.getD n 0
          unfold tailA tailB
          interval_cases n <;> rfl
      | succ c => rfl
    · intro j
      rw [hr]
      have : mtStart (16 : ℤ).toNat (1 / (1 - 3 / 4)) j = 4 * j := by
        unfold mtStart
        rw [pyIntR_nonneg _ (by positivity)]
        have : (j : ℝ) * ((16 : ℤ).toNat : ℕ) / (1 / (1 - 3 / 4)) = ((4 * j : ℕ) : ℝ) := by
          rw [show (16 : ℤ).toNat = 16 from rfl]
          push_cast
          ring
        rw [this, Int.floor_natCast]
        rfl
      rw [this]
      intro h
      have : (16 : ℤ).toNat = 16 := rfl
      omega

/-- The weights of the example: a window of two points starting at samples 0 and 1. -/
example : coverage (fun j => j) (usedWindows true (fun j => j) 4 2 3) [1, 2] 1 = 3 ∧
    coverage (fun j => j) (usedWindows true (fun j => j) 4 2 3) [1, 2] 3 = 0 := by
  have : usedWindows true (fun j => j) 4 2 3 = {0, 1} := by decide
  rw [this]
  constructor <;> norm_num [coverage, Finset.sum_insert]

end Verif.Props
