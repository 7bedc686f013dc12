import Verif.Props.RecoverTime
import Verif.Props.Recover
import Verif.Props.DeconvolveKernel
import Verif.Model.Kernels

/-!
# A conversion appears in the receiver function at its time after the onset (C143)
-/

set_option linter.unusedSimpArgs false
set_option linter.unusedSectionVars false

namespace Verif.Props
open Verif.Py Verif.Model Verif.Spec Finset

/-- Copies inside of the transform window form a circular convolution. -/
theorem copies_circ (s : ℤ) (N n : ℕ) (hn : N ≤ n) (src x rsp : List ℝ) (hc : CopiesOf s N src x rsp) :
    CircConv n src ((List.range n).map fun (i : ℕ) => x.getD (((i : ℤ) + s) % n).toNat 0) rsp := by
  obtain ⟨hconv, hx, hr, hfit⟩ := hc
  intro j hj
  have hn0 : (0 : ℤ) < n := by omega
  have hg : ∀ k ∈ range n, src.getD k 0 *
      ((List.range n).map fun (i : ℕ) => x.getD (((i : ℤ) + s) % n).toNat 0).getD (((j : ℤ) - k) % n).toNat 0
      = src.getD k 0 * x.getD (((j : ℤ) - k + s) % n).toNat 0 := by
    intro k _
    have h1 := Int.emod_nonneg ((j : ℤ) - k) hn0.ne'
    have h2 := Int.emod_lt_of_pos ((j : ℤ) - k) hn0
    rw [List.getD_eq_getElem ((List.range n).map _) _ (by rw [List.length_map, List.length_range]; omega)]
    simp only [List.getElem_map, List.getElem_range]
    rw [show ((((j : ℤ) - k) % n).toNat : ℤ) = ((j : ℤ) - k) % n by omega, Int.emod_add_emod]
  rw [sum_congr rfl hg]
  have hre : ∑ k ∈ range n, src.getD k 0 * x.getD (((j : ℤ) - k + s) % n).toNat 0
      = ∑ l ∈ range n, src.getD (((j : ℤ) - l + s) % n).toNat 0 * x.getD l 0 := by
    have hinv : ∀ k : ℕ, k < n → (((j : ℤ) - ((((j : ℤ) - k + s) % n).toNat : ℕ) + s) % n).toNat = k := by
      intro k hk
      have h1 := Int.emod_nonneg ((j : ℤ) - k + s) hn0.ne'
      rw [show (((((j : ℤ) - k + s) % n).toNat : ℕ) : ℤ) = ((j : ℤ) - k + s) % n by omega]
      have : ((j : ℤ) - ((j : ℤ) - k + s) % n + s) % n = k % n := by
        rw [show (j : ℤ) - ((j : ℤ) - k + s) % n + s = ((j : ℤ) + s) - ((j : ℤ) - k + s) % n by ring,
          Int.sub_emod, Int.emod_emod, ← Int.sub_emod]
        congr 1
        ring
      rw [this, Int.emod_eq_of_lt (by omega) (by omega)]
      omega
    have hlt : ∀ k : ℕ, (((j : ℤ) - k + s) % n).toNat < n := fun k => by
      have h1 := Int.emod_nonneg ((j : ℤ) - k + s) hn0.ne'
      have h2 := Int.emod_lt_of_pos ((j : ℤ) - k + s) hn0
      omega
    refine sum_nbij' (fun k => (((j : ℤ) - k + s) % n).toNat) (fun k => (((j : ℤ) - k + s) % n).toNat)
      (fun k _ => mem_range.2 (hlt k)) (fun k _ => mem_range.2 (hlt k)) (fun k hk => hinv k (mem_range.1 hk))
      (fun k hk => hinv k (mem_range.1 hk)) (fun k hk => ?_)
    rw [hinv k (mem_range.1 hk)]
  rw [hre]
  have e1 := hconv j
  rw [sig_nat] at e1
  rw [e1, hx, ← sum_subset (range_subset_range.2 hn) (f := fun (l : ℕ) => src.getD (((j : ℤ) - l + s) % n).toNat 0 * x.getD l 0)]
  · refine sum_congr rfl fun l hl => ?_
    have hl := mem_range.1 hl
    by_cases h0 : x.getD l 0 = 0
    · rw [h0]; ring
    · obtain ⟨f1, f2⟩ := hfit l hl h0
      rw [mul_comm]
      congr 1
      by_cases hneg : (j : ℤ) - l + s < 0
      · rw [sig_neg _ _ hneg]
        symm
        refine List.getD_eq_default _ _ ?_
        have : ((j : ℤ) - l + s) % n = (j : ℤ) - l + s + n := by
          rw [← Int.add_emod_right, Int.emod_eq_of_lt (by omega) (by omega)]
        omega
      · rw [Int.emod_eq_of_lt (by omega) (by omega)]
        unfold sig
        rw [if_pos (by omega)]
  · intro l _ hl
    rw [List.getD_eq_default x _ (by rw [hx]; simpa using hl), mul_zero]

/-- The water level deconvolution of copies of the source without Gauss filter. -/
theorem water_copies (fastLen : ℕ → ℕ) (rsp : List (List ℝ)) (src : List ℝ) (sr wl : ℝ) (nfft : Option ℕ) (N : ℕ)
    (hN : outLen rsp none = some N) (hfast : N ≤ nfft.getD (fastLen N)) (rf : List (List ℂ)) (s : ℤ)
    (h : deconvWaterlevel fastLen rsp src sr wl none (s / sr) none .none nfft = .ok rf)
    (hlev : AboveLevel (nfft.getD (fastLen N)) src wl) (i : ℕ) (r x : List ℝ) (hr : rsp[i]? = some r)
    (hc : CopiesOf s N src x r) : rf[i]? = some (toC x) := by
  set n := nfft.getD (fastLen N) with hn
  obtain ⟨y, hy, hl, hv⟩ := C135_recovers fastLen rsp src sr wl none nfft N hN rf s h hlev i r _ hr
    (copies_circ s N n hfast src x r hc)
  rw [hy]
  congr 1
  rw [← hn] at hl hv
  rw [min_eq_left hfast] at hl
  obtain ⟨-, hx, -, -⟩ := hc
  refine listC_ext _ _ (by rw [hl]; simp [toC, hx]) fun m hm => ?_
  have hmN : m < N := by rw [← hl]; exact hm
  have hn0 : (0 : ℤ) < n := by omega
  rw [hv m hm]
  have h1 := Int.emod_nonneg ((m : ℤ) - s) hn0.ne'
  have h2 := Int.emod_lt_of_pos ((m : ℤ) - s) hn0
  rw [List.getD_eq_getElem _ _ (by rw [List.length_map, List.length_range]; omega)]
  simp only [List.getElem_map, List.getElem_range]
  rw [show ((((m : ℤ) - s) % n).toNat : ℤ) = ((m : ℤ) - s) % n by omega, Int.emod_add_emod,
    show (m : ℤ) - s + s = m by ring, Int.emod_eq_of_lt (by omega) (by omega)]
  unfold toC
  rw [List.getD_eq_getElem x _ (by simp; omega), List.getD_eq_getElem _ _ (by simp; omega)]
  simp

/-- **C143**, water level method.  After a successful call of `deconvolve` with a source window that starts `s` samples
before the onset, without Gauss filter and normalisation: for every response that consists of copies of the cut
source, the new samples are the amplitudes of the copies, each at the sample of its onset. -/
theorem C143_waterlevel (ka : KernelArgs) (dec : DeconvEnv ℝ) (h h' : Heap ℝ) (st : List ℕ) (a : DeconvArgs ℝ)
    (l : List ℕ) (w0 w1 w2 : ℝ) (hwin : a.winsrc = .tuple w0 w1 w2) (hn : st.Nodup)
    (hm : a.method = "waterlevel".toList ∨ a.method = "freq".toList) (hnorm : a.normalize = some .none)
    (hg : ka.gaussW = none) (hl : ka.lengthW = none)
    (hd : deconvolve (withKernels ka dec) h st a = (h', .ok l)) (N : ℕ) (hlen : ∀ r ∈ l, (h r).data.length = N)
    (hfast : N ≤ ka.nfft.getD (ka.fastLen N)) :
    ∃ src ∈ st, OfComp a.srcComps (h src) ∧ ∃ (onset : ℝ) (T c : Trace ℝ),
      T.data = (h src).data ∧ T.start = (h src).start ∧ T.sr = (h src).sr ∧ T.getTime "onset" = some onset ∧
      c = dec.taper (dec.trimPad T (onset + w0) (onset + w1)) w2 ∧
      ((0 < (h src).sr → SnappedOnset (h src) onset) ∧
        ∀ r ∈ l, (h' r).getTime "onset" = some onset ∧ (h' r).start = (h r).start ∧ (h' r).sr = (h r).sr) ∧
      ∀ (s : ℤ), -w0 * (h src).sr = s → (h src).sr ≠ 0 →
        AboveLevel (ka.nfft.getD (ka.fastLen N)) c.data ka.waterlevel →
        ∀ r ∈ l, ∀ x, CopiesOf s N c.data x (h r).data → (h' r).data = x := by
  obtain ⟨src, hs, ho, onset, T, c, nrm, t1, t2, t3, t4, t5, t6, t7, -, hw, -⟩ :=
    C86_kernel_call (withKernels ka dec) h h' st a l w0 w1 w2 hwin hn (by
      rintro he
      rcases hm with hm | hm <;> rw [hm] at he <;> exact absurd he (by decide)) hd
  refine ⟨src, hs, ho, onset, T, c, t1, t2, t3, t4, t5, t7, fun s hs0 hsr hlev r hr x hx => ?_⟩
  obtain ⟨rf, hrf, hres⟩ := hw hm
  have hnrm := t6 _ hnorm
  subst hnrm
  change waterKernel ka _ _ _ _ _ = _ at hrf
  unfold waterKernel at hrf
  rw [hg, hl] at hrf
  simp only [Option.getD_some] at hrf
  have hw0 : -w0 = s / (h src).sr := by rw [← hs0]; field_simp
  rw [hw0] at hrf
  cases hdw : deconvWaterlevel ka.fastLen (l.map fun r => (h r).data) c.data (h src).sr ka.waterlevel none
      (s / (h src).sr) none .none ka.nfft with
  | error e => rw [hdw] at hrf; cases hrf
  | ok rfc =>
    rw [hdw] at hrf
    simp only [Except.map, Except.ok.injEq] at hrf
    subst hrf
    obtain ⟨i, hi, rfl⟩ := List.mem_iff_getElem.1 hr
    have hN : outLen (l.map fun r => (h r).data) none = some N := by
      cases l with
      | nil => simp at hi
      | cons q l => simp [outLen, hlen q List.mem_cons_self]
    have := water_copies ka.fastLen _ c.data (h src).sr ka.waterlevel ka.nfft N hN hfast rfc s hdw hlev i
      ((h l[i]).data) x (by rw [List.getElem?_map, List.getElem?_eq_getElem hi]; rfl) hx
    have h2 := hres i l[i] (List.getElem?_eq_getElem hi)
    rw [List.getElem?_map, this] at h2
    simp only [Option.map_some, Option.some.injEq] at h2
    rw [← h2]
    unfold toC
    rw [List.map_map]
    exact List.map_id' x

/-- **C143**, time domain method with an exact solver and without added noise.  For a source window with an odd number
of samples, or with the onset strictly inside: if every response consists of copies of the cut source, the new samples
are the amplitudes of the copies, each at the sample of its onset, up to one factor for all responses: the energy
of the source without normalisation, the inverse of the largest amplitude of the response chosen for the
normalisation otherwise. -/
theorem C143_time (ka : KernelArgs) (dec : DeconvEnv ℝ) (h h' : Heap ℝ) (st : List ℕ) (a : DeconvArgs ℝ)
    (l : List ℕ) (w0 w1 w2 : ℝ) (hwin : a.winsrc = .tuple w0 w1 w2) (hn : st.Nodup)
    (hm : a.method = "time".toList) (n : Norm) (hnorm : a.normalize = some n) (hn2 : n ≠ .src)
    (hsolve : ExactSolver ka.solve) (hsp : ka.spiking = 0) (hl : ka.lengthT = none)
    (hd : deconvolve (withKernels ka dec) h st a = (h', .ok l)) (N : ℕ) (hN : 1 ≤ N)
    (hlen : ∀ r ∈ l, (h r).data.length = N) :
    ∃ src ∈ st, OfComp a.srcComps (h src) ∧ ∃ (onset : ℝ) (T c : Trace ℝ),
      T.data = (h src).data ∧ T.start = (h src).start ∧ T.sr = (h src).sr ∧ T.getTime "onset" = some onset ∧
      c = dec.taper (dec.trimPad T (onset + w0) (onset + w1)) w2 ∧
      ((0 < (h src).sr → SnappedOnset (h src) onset) ∧
        ∀ r ∈ l, (h' r).getTime "onset" = some onset ∧ (h' r).start = (h r).start ∧ (h' r).sr = (h r).sr) ∧
      ∀ (s : ℤ), -w0 * (h src).sr = s → (∃ v ∈ c.data, v ≠ 0) →
        (c.data.length % 2 = 1 ∨ (0 < s ∧ s < c.data.length)) →
        ∀ x : ℕ → List ℝ, (∀ r ∈ l, (x r).length = N ∧ ConvOf s c.data (x r) (h r).data) →
          ∃ f : ℝ, 0 < f ∧ (∀ r ∈ l, (h' r).data = (x r).map (f * ·)) ∧
            (n = .none → f = ∑ m ∈ range c.data.length, c.data.getD m 0 ^ 2) ∧
            (∀ i : ℤ, n = .idx i → ∃ y, getItem (l.map x) i = .ok y ∧ maxAbs y = .ok (1 / f)) := by
  obtain ⟨src, hs, ho, onset, T, c, nrm, t1, t2, t3, t4, t5, t6, t7, ht, -⟩ :=
    C86_kernel_call (withKernels ka dec) h h' st a l w0 w1 w2 hwin hn (by
      rintro he
      rw [hm] at he
      exact absurd he (by decide)) hd
  refine ⟨src, hs, ho, onset, T, c, t1, t2, t3, t4, t5, t7, fun s hs0 hE hw x hx => ?_⟩
  obtain ⟨rf, hrf, hres⟩ := ht hm s hs0
  have hnrm := t6 _ hnorm
  subst hnrm
  change timeKernel ka _ _ _ _ = _ at hrf
  have hne : l ≠ [] := by
    rintro rfl
    cases n <;> simp [timeKernel, hl, deconvTime, bind, Except.bind] at hrf
  have hex := C142_exact ka.solve hsolve c.data hE s N hN hw (l.map fun r => (h r).data) (l.map x) (by
      intro r hr
      obtain ⟨q, hq, rfl⟩ := List.mem_map.1 hr
      exact hlen q hq) (by
      rw [List.forall₂_map_left_iff, List.forall₂_map_right_iff]
      exact List.forall₂_same.2 fun r hr => hx r hr) (normIdx (some n)) none (Or.inr ⟨rfl, by simpa using hne⟩)
  have hE0 := energy_pos c.data hE
  cases n with
  | src => exact absurd rfl hn2
  | none =>
    unfold timeKernel at hrf
    simp only [hsp, hl] at hrf
    rw [hex] at hrf
    simp only [normIdx, Except.ok.injEq] at hrf
    subst hrf
    refine ⟨energy c.data, hE0, fun r hr => ?_, fun _ => rfl, fun i hi => by cases hi⟩
    obtain ⟨i, hi, rfl⟩ := List.mem_iff_getElem.1 hr
    have h2 := hres i l[i] (List.getElem?_eq_getElem hi)
    rw [List.getElem?_map, List.getElem?_map, List.getElem?_eq_getElem hi] at h2
    simp only [Option.map_some, Option.some.injEq] at h2
    exact h2.symm
  | idx j =>
    unfold timeKernel at hrf
    simp only [hsp, hl] at hrf
    rw [hex] at hrf
    simp only [normIdx] at hrf
    unfold normalizeAll at hrf
    cases hy : getItem (l.map x) j with
    | error e => rw [hy] at hrf; cases hrf
    | ok y =>
      rw [hy] at hrf
      simp only [bind, Except.bind] at hrf
      cases hmx : maxAbs y with
      | error e => rw [hmx] at hrf; cases hrf
      | ok m =>
        rw [hmx] at hrf
        simp only at hrf
        split at hrf
        · cases hrf
        · rename_i hm0
          simp only [Except.ok.injEq] at hrf
          subst hrf
          have hmpos : 0 < m := by
            obtain ⟨b1, w, hw, b2⟩ := maxAbs_spec y m hmx
            exact lt_of_le_of_ne (b2 ▸ abs_nonneg w) (Ne.symm hm0)
          refine ⟨1 / m, by positivity, fun r hr => ?_, fun hc => (by cases hc), fun i hi => ?_⟩
          · obtain ⟨i, hi, rfl⟩ := List.mem_iff_getElem.1 hr
            have h2 := hres i l[i] (List.getElem?_eq_getElem hi)
            rw [List.getElem?_map, List.getElem?_map, List.getElem?_eq_getElem hi] at h2
            simp only [Option.map_some, Option.some.injEq] at h2
            rw [← h2]
            exact List.map_congr_left fun v _ => mul_comm _ _
          · cases hi
            exact ⟨y, hy, by rw [one_div_one_div]; exact hmx⟩

/-- A direct wave with onset at sample 1 and a conversion with half of its amplitude and opposite sign at sample 3. -/
example : CopiesOf 1 5 [1, 2, 1] [0, 1, 0, -1/2, 0] [1, 2, 1/2, -1, -1/2] := by
  refine ⟨fun n => ?_, rfl, rfl, fun l hl h0 => ?_⟩
  · simp only [List.length_cons, List.length_nil, sum_range_succ, sum_range_zero]
    by_cases h0 : n < 0
    · rw [sig_neg _ _ h0]
      simp only [List.getD_cons_zero, List.getD_cons_succ, zero_mul, zero_add, add_zero, one_mul]
      rw [sig_neg _ (n - ((0 + 1 : ℕ) : ℤ) + 1) (by push_cast; omega),
        sig_neg _ (n - ((0 + 1 + 1 + 1 : ℕ) : ℤ) + 1) (by push_cast; omega)]
      simp
    · obtain ⟨m, rfl⟩ := Int.eq_ofNat_of_zero_le (not_lt.1 h0)
      rcases m with _ | _ | _ | _ | _ | m <;> simp [sig]
      · norm_num
      · rw [if_pos (by omega), if_pos (by omega), if_pos (by omega), List.getElem?_eq_none (by simp; omega),
          List.getElem?_eq_none (by simp; omega), List.getElem?_eq_none (by simp; omega)]
        simp
  · have : l = 0 ∨ l = 1 ∨ l = 2 ∨ l = 3 ∨ l = 4 := by omega
    rcases this with rfl | rfl | rfl | rfl | rfl <;> simp at h0 ⊢

end Verif.Props
