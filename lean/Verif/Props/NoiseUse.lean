import Verif.Props.NoiseKernel
import Verif.Props.OrderKernels
import Verif.Props.GainKernels
import Verif.Props.TrimMoveout
import Verif.Props.DeconvolveProps

/-!
# C190: properties of the deconvolution with the noise cut by the package itself
-/

set_option linter.unusedSimpArgs false
set_option linter.unusedSectionVars false

namespace Verif.Props
open Verif.Py Verif.Model Verif.Spec

/-- The kernels of the package together with the noise window of the package satisfy what C144 asks for: the order of the
traces of a record does not matter. -/
theorem C190_order (ka : KernelArgs) (dec : DeconvEnv ℝ) (trim : Trace ℝ → TArg ℝ → TArg ℝ → Res (Trace ℝ))
    (hcut : CutsSamples trim) (hcha : ∀ t a b t', trim t a b = .ok t' → t'.cha = t.cha)
    (hcha2 : ∀ t a b x, (dec.taper (dec.trimPad t a b) x).cha = t.cha) :
    PermKernels (withNoise trim (withKernels ka dec)) :=
  C144_kernels ka (withNoise trim dec)
    (fun h s s' c hn hp hspan hons out hok => C190_perm trim hcut hcha h s s' c hn hp hspan hons out hok) hcha2

/-- The kernels of the package together with the noise window of the package satisfy what C137 asks for: a common gain
factor of all components of a record does not change the receiver functions. -/
theorem C190_gain_kernels (ka : KernelArgs) (hs : ExactSolver ka.solve) (hl : 0 < ka.spiking)
    (hd : Homogeneous ka.mt.detrend) (dec : DeconvEnv ℝ) (trim : Trace ℝ → TArg ℝ → TArg ℝ → Res (Trace ℝ))
    (ht : ∀ k, 0 < k → ∀ t a b, trim (gain k t) a b = (trim t a b).map (gain k))
    (h1 : ∀ c, 0 < c → ∀ t a b, dec.trimPad (gain c t) a b = gain c (dec.trimPad t a b))
    (h2 : ∀ c, 0 < c → ∀ t a, dec.taper (gain c t) a = gain c (dec.taper t a)) :
    GainKernels (withNoise trim (withKernels ka dec)) :=
  C137_kernels ka hs hl hd (withNoise trim dec) h1 h2
    fun c k h s rsp rc hk hc hsub => C190_gain trim ht c k h s rsp rc hk hc hsub

section examples

theorem nearestTrim_cha {K : Type} [Field K] [LinearOrder K] [FloorRing K] (t : Trace K) (a b : TArg K) (t' : Trace K)
    (h : nearestTrim t a b = .ok t') : t'.cha = t.cha := by
  cases a <;> cases b <;> simp only [nearestTrim] at h <;> first
    | (split at h
       · cases h
       · cases h; rfl)
    | cases h

theorem nearestTrim_gain {K : Type} [Field K] [LinearOrder K] [FloorRing K] (k : K) (t : Trace K) (a b : TArg K) :
    nearestTrim (gain k t) a b = (nearestTrim t a b).map (gain k) := by
  cases a <;> cases b <;> simp only [nearestTrim, Except.map]
  have e1 : (gain k t).start = t.start := rfl
  have e2 : (gain k t).sr = t.sr := rfl
  rw [e1, e2]
  split
  · rfl
  · simp only [Except.ok.injEq]
    unfold samplesOf gain
    simp only [List.map_take, List.map_drop]
    rfl

/-- The hypotheses of `C190_order` and `C190_gain_kernels` can be met, with the defaults of the package. -/
example : ∃ (ka : KernelArgs) (dec : DeconvEnv ℝ), ka.olap = 3 / 4 ∧ PermKernels (withNoise nearestTrim (withKernels ka dec)) ∧
    GainKernels (withNoise nearestTrim (withKernels ka dec)) ∧ NoiseLocal (withNoise nearestTrim (withKernels ka dec)) :=
  ⟨{ solve := uniqueSolve, spiking := 1, lengthT := none, fastLen := id, waterlevel := 1 / 20, gaussW := some (1 / 2),
      lengthW := none, nfft := none, gaussI := 1 / 2, itmax := 400, minderr := 1 / 1000, muteShift := false,
      mt := { tapers := fun n k => (List.replicate k (List.replicate n 1), List.replicate k 1), detrend := lineDetrend },
      gaussM := some (1 / 2), tapers := 3, taperLength := 10, olap := 3 / 4 },
    { trimPad := fun t _ _ => t, taper := fun t _ => t, noise := fun _ _ _ _ => .ok [],
      time := fun _ _ _ _ => .ok [], water := fun _ _ _ _ _ => .ok [], iter := fun _ _ _ _ _ => .ok [],
      mt := fun _ _ _ _ _ _ => .ok [], func := fun h r _ _ _ => (h, .ok r) }, rfl,
    C190_order _ _ nearestTrim nearestTrim_cuts nearestTrim_cha fun _ _ _ _ => rfl,
    C190_gain_kernels _ uniqueSolve_exact one_pos lineDetrend_smul _ nearestTrim (fun k _ => nearestTrim_gain k)
      (fun _ _ _ _ _ => rfl) fun _ _ _ _ => rfl, C190_local nearestTrim _⟩

/-- A record of 60 s that starts at 100 s, one sample per second; the samples count the seconds. -/
def nHeap (o : ℚ) : Heap ℚ := fun r =>
  { net := "XX".toList, sta := "A".toList, loc := [],
    cha := if r = 0 then "BHL".toList else if r = 1 then "BHQ".toList else "BHT".toList,
    start := 100, sr := 1, data := (List.range 61).map fun i => (i : ℚ) + 100 * r, ext := [("onset", .time o)] }

/-- The default options of the multitaper method. -/
def nArgs : DeconvArgs ℚ :=
  { method := "multitaper".toList, srcComps := "L".toList, rspComps := none, winsrc := .letter "P".toList, normalize := none }

/-- A kernel that returns the noise. -/
def nEnv : DeconvEnv ℚ := { dEnv with mt := fun _ _ nse _ _ _ => .ok nse }

/-- `C190_noise`: the onset is 7.3 s after the start, the nearest sample 7 s after it; the noise are the samples of the
first 2 s of each component. -/
example : let out := deconvolve (withNoise nearestTrim nEnv) (nHeap (1073 / 10)) [0, 1, 2] nArgs
    (match out.2 with | .ok l => l | _ => []) = [0, 1, 2] ∧ (out.1 0).data = [0, 1, 2] ∧ (out.1 1).data = [100, 101, 102] ∧
    (out.1 2).data = [200, 201, 202] := by
  decide +kernel

/-- **C190**: the statement that the multitaper method works with its defaults whenever the record contains the onset and
the source window is false: the onset is 4 s after the start of the record, and all kernels and all source windows
give a `ValueError`. -/
theorem C190_counterexample : (∀ r, (nHeap 104 r).data.length = 61 ∧ (nHeap 104 r).getTime "onset" = some 104) ∧
    ∀ dec : DeconvEnv ℚ, (deconvolve (withNoise nearestTrim dec) (nHeap 104) [0, 1, 2] nArgs).2 = .error .valueError := by
  refine ⟨fun r => ⟨by simp [nHeap], rfl⟩, fun dec => ?_⟩
  refine C190_early nearestTrim (fun t x y hxy => ?_) dec (nHeap 104) [0, 1, 2] nArgs 0 104 (by decide) (by decide) (by decide)
    rfl rfl (fun l hl => ?_) rfl 4 (by decide +kernel) (fun r _ => ?_)
  · simp only [nearestTrim]
    rw [if_pos (by linarith)]
  · left
    injection hl with hl
    exact hl.symm
  · simp only [nHeap, Trace.delta]
    norm_num

/-- The numbers of `C190_works_partial` are met by a record of 100 s with 10 samples per second, the onset 30 s after
its start, tapers of 10 s, the overlap 3/4 and the source window of 40 s. -/
example : let T0 : ℝ := 0
    let sr : ℝ := 10
    let o : ℝ := 30
    let N := 1001
    let L := 401
    let ntap := 100
    let olap : ℝ := 3 / 4
    pyRound ((10 : ℝ) / (1 / sr)) = (ntap : ℕ) ∧ (o - T0) * sr ≤ (N : ℝ) - 1 ∧
    ntap * (1 - olap) + 1 ≤ (o - T0 - 5) * sr ∧ (L : ℝ) + olap * ntap ≤ N ∧ L < N ∧ ntap * (1 - olap) ≤ (L : ℝ) ∧
    2 * (ntap * (1 - olap)) ≤ (N : ℝ) := by
  refine ⟨?_, by norm_num, by norm_num, by norm_num, by norm_num, by norm_num, by norm_num⟩
  rw [show (10 : ℝ) / (1 / 10) = ((100 : ℤ) : ℝ) by norm_num, pyRound_int]
  rfl

end examples
end Verif.Props
