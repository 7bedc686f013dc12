import Verif.Props.StreamDec

/-!
# Downsampling and defaults of `RFStream.rf` (C87, C88)
-/

set_option linter.unusedSimpArgs false
set_option linter.unusedSectionVars false

namespace Verif.Props
open Verif.Py Verif.Model Verif.Spec

section downsample
variable {K : Type} [Field K] [LinearOrder K] [IsStrictOrderedRing K] [FloorRing K]

/-- ObsPy `Trace.decimate(factor)`: the factor has to be positive, the rate is divided by it. -/
def Decimates (env : RfEnv K) : Prop :=
  ∀ (n : ℤ) (t t' : Trace K), env.decimate n t = .ok t' → 1 ≤ n ∧ t'.sr = t.sr / (n : K)

theorem mirrorLoop_sr (h : Heap K) (s : List Nat) (r : Nat) : ((mirrorLoop h s).1 r).sr = (h r).sr := by
  induction s generalizing h with
  | nil => rfl
  | cons a s ih =>
    unfold mirrorLoop
    split
    · rw [ih]
      by_cases hr : r = a
      · subst hr; rw [Heap.set_self]; rfl
      · rw [Heap.set_ne _ _ hr]
    · by_cases hr : r = a
      · subst hr; simp [Heap.set]
      · simp [Heap.set, hr]

theorem addInfoAll_sr (i : Str) (h : Heap K) (s : List Nat) (r : Nat) :
    (addInfoAll i h s r).sr = (h r).sr := by
  unfold addInfoAll
  apply forEachE_inv (fun t => t.sr)
  intro t t' ht
  unfold addInfo at ht
  split at ht
  · injection ht with ht; rw [← ht]; rfl
  · injection ht with ht
    rw [← ht]
    split <;> rfl
  · cases ht

/-- What the rest of a call of `rf` without other steps does to the traces after downsampling. -/
theorem rf_downsample (env : RfEnv K) (m : Str) (d : K) (h h' : Heap K) (s s' : List Nat) (hn : s.Nodup)
    (hr : rf env { plainArgs m with downsample := some d } (h, s) = ((h', s'), none)) :
    s' = s ∧ ∀ r ∈ s, ∃ t', decimateTrace env d (h r) = .ok t' ∧ (h' r).sr = t'.sr := by
  unfold rf rfBody at hr
  cases hm : rfMethod h s (some m) with
  | error e =>
    simp only [plainArgs, hm] at hr
    simp [SRes.andThen] at hr
  | ok m' =>
    simp only [plainArgs, hm, rfBefore, rfPrep, filterStage, trimStage, decimateStage, rotateStage,
      deconvolveStage, forTraces, SRes.andThen, Bool.false_eq_true, if_false] at hr
    cases hd : Heap.forEachE (decimateTrace env d) h s with
    | mk h1 e =>
      rw [hd] at hr
      cases e with
      | some e => simp [qStage] at hr
      | none =>
        simp only [qStage] at hr
        have hok := Heap.forEachE_ok (decimateTrace env d) h h1 s hn hd
        cases hmi : mirrorStage m' (Heap.forEach negQ h1 s, s) with
        | mk st2 e2 =>
          rw [hmi] at hr
          cases e2 with
          | some e => simp at hr
          | none =>
            simp only [] at hr
            cases hl : labelStage m' st2 with
            | mk st3 e3 =>
              rw [hl] at hr
              cases e3 with
              | some e => simp at hr
              | none =>
                simp only [Prod.mk.injEq, and_true] at hr
                have e2 : st2.2 = s := by
                  have := mirrorStage_traces m' (Heap.forEach negQ h1 s, s)
                  rw [hmi] at this; exact this
                have e3 : st3.2 = st2.2 := by
                  have := labelStage_traces m' st2
                  rw [hl] at this; exact this
                refine ⟨by rw [← hr.2, e3, e2], fun r hrs => ⟨h1 r, (hok r).1 hrs, ?_⟩⟩
                rw [← hr.1, addInfoAll_sr, (labelStage_rest m' st2 st3 hl r).2.2.1]
                have : ((mirrorStage m' (Heap.forEach negQ h1 s, s)).1.1 r).sr =
                    (Heap.forEach negQ h1 s r).sr := by
                  unfold mirrorStage
                  split
                  · exact mirrorLoop_sr _ _ _
                  · rfl
                rw [hmi] at this
                rw [this]
                exact Heap.forEach_inv (fun t => t.sr) _ (fun t => by unfold negQ; split <;> rfl) _ _ r

/-- **C87** Traces sampled slower than requested keep their rate. -/
theorem C87_untouched (env : RfEnv K) (m : Str) (d : K) (h h' : Heap K) (s s' : List Nat) (hn : s.Nodup)
    (hr : rf env { plainArgs m with downsample := some d } (h, s) = ((h', s'), none)) :
    ∀ r ∈ s, (h r).sr < d → (h' r).sr = (h r).sr := by
  intro r hrs hlt
  obtain ⟨-, h2⟩ := rf_downsample env m d h h' s s' hn hr
  obtain ⟨t', ht, e⟩ := h2 r hrs
  unfold decimateTrace at ht
  rw [if_neg (not_le.2 hlt)] at ht
  injection ht with ht
  rw [e, ← ht]

/-- **C87 (part)** For a sampling rate which is a whole number and a multiple of the requested rate the
result has the requested rate.  Missing: rates which are no whole numbers, see the counterexample. -/
theorem C87_rate_partial (env : RfEnv K) (henv : Decimates env) (m : Str) (d : K) (hd : 0 < d) (h h' : Heap K)
    (s s' : List Nat) (hn : s.Nodup)
    (hr : rf env { plainArgs m with downsample := some d } (h, s) = ((h', s'), none)) :
    ∀ r ∈ s, ∀ (n k : ℕ), (h r).sr = n → (n : K) = k * d → 0 < k → (h' r).sr = d := by
  intro r hrs n k hsr hk hk0
  obtain ⟨-, h2⟩ := rf_downsample env m d h h' s s' hn hr
  obtain ⟨t', ht, e⟩ := h2 r hrs
  unfold decimateTrace at ht
  have hk1 : (1 : K) ≤ k := by exact_mod_cast hk0
  rw [if_pos (by rw [hsr, hk]; nlinarith)] at ht
  have hq : ⌊((⌊(h r).sr⌋ : ℤ) : K) / d⌋ = (k : ℤ) := by
    rw [hsr, Int.floor_natCast, Int.cast_natCast, hk, mul_div_assoc, div_self hd.ne', mul_one,
      Int.floor_natCast]
  rw [hq] at ht
  obtain ⟨-, h3⟩ := henv _ _ _ ht
  rw [e, h3, hsr, hk]
  have : ((k : ℤ) : K) ≠ 0 := by
    rw [Int.cast_natCast]; linarith
  field_simp
  push_cast
  ring

/-- **C87** In any case the rate does not fall below the requested rate, and for a whole rate it is less
than twice the requested rate. -/
theorem C87_bounds (env : RfEnv K) (henv : Decimates env) (m : Str) (d : K) (hd : 0 < d) (h h' : Heap K)
    (s s' : List Nat) (hn : s.Nodup)
    (hr : rf env { plainArgs m with downsample := some d } (h, s) = ((h', s'), none)) :
    ∀ r ∈ s, d ≤ (h r).sr → d ≤ (h' r).sr ∧ (h' r).sr ≤ (h r).sr ∧
      ((∃ n : ℕ, (h r).sr = n) → (h' r).sr < 2 * d) := by
  intro r hrs hle
  obtain ⟨-, h2⟩ := rf_downsample env m d h h' s s' hn hr
  obtain ⟨t', ht, e⟩ := h2 r hrs
  unfold decimateTrace at ht
  rw [if_pos hle] at ht
  set q := ⌊((⌊(h r).sr⌋ : ℤ) : K) / d⌋ with hq
  obtain ⟨h1, h3⟩ := henv _ _ _ ht
  have hq1 : (1 : K) ≤ q := by exact_mod_cast h1
  have hq0 : (0 : K) < q := by linarith
  have hfl : ((⌊(h r).sr⌋ : ℤ) : K) ≤ (h r).sr := Int.floor_le _
  have hqle : (q : K) ≤ ((⌊(h r).sr⌋ : ℤ) : K) / d := Int.floor_le _
  rw [le_div_iff₀ hd] at hqle
  rw [e, h3]
  refine ⟨?_, ?_, ?_⟩
  · rw [le_div_iff₀ hq0]; linarith
  · rw [div_le_iff₀ hq0]
    have : 0 < (h r).sr := lt_of_lt_of_le hd hle
    nlinarith
  · rintro ⟨n, hn'⟩
    have hlt : ((⌊(h r).sr⌋ : ℤ) : K) / d < q + 1 := Int.lt_floor_add_one _
    rw [div_lt_iff₀ hd, hn', Int.floor_natCast, Int.cast_natCast] at hlt
    rw [div_lt_iff₀ hq0, hn']
    nlinarith

end downsample

/-! ### Default source components and window -/

section defaults
variable {K : Type} [Field K] [LinearOrder K] [IsStrictOrderedRing K] [FloorRing K]

theorem rf_args (env : RfEnv K) (a b : RfArgs K) (st : SState K) (hm : a.method = b.method)
    (hf : a.filter = b.filter) (ht : a.trim = b.trim) (hd : a.downsample = b.downsample)
    (hro : a.rotate = b.rotate) (hde : a.deconvolve = b.deconvolve)
    (h : ∀ m d, rfMethod st.1 st.2 a.method = .ok m → rfDeconvArgs a m d = rfDeconvArgs b m d) :
    rf env a st = rf env b st := by
  have : rfBody env a st = rfBody env b st := by
    unfold rfBody
    rw [← hm]
    cases hme : rfMethod st.1 st.2 a.method with
    | error e => rfl
    | ok m =>
      have h' := fun d => h m d hme
      simp only [rfBefore, rfPrep]
      have e1 : filterStage env a = filterStage env b := by unfold filterStage; rw [hf]
      have e2 : trimStage env a = trimStage env b := by unfold trimStage; rw [ht]
      have e3 : decimateStage env a = decimateStage env b := by unfold decimateStage; rw [hd]
      have e4 : rotateStage env a = rotateStage env b := by unfold rotateStage; rw [hro]
      have e5 : deconvolveStage env a m = deconvolveStage env b m := by
        unfold deconvolveStage; rw [hde]; simp only [h']
      rw [e1, e2, e3, e4, e5]
  unfold rf
  rw [this]

/-- **C88** For P receiver functions the default of `source_components` is 'LZ'. -/
theorem C88_source_P (env : RfEnv K) (a : RfArgs K) (st : SState K)
    (hm : rfMethod st.1 st.2 a.method = .ok "P".toList) :
    rf env { a with srcComps := none } st = rf env { a with srcComps := some "LZ".toList } st := by
  refine rf_args env _ _ st rfl rfl rfl rfl rfl rfl ?_
  intro m d h
  rw [hm] at h
  injection h with h
  subst h
  rfl

/-- **C88** For S receiver functions it is 'QR'. -/
theorem C88_source_S (env : RfEnv K) (a : RfArgs K) (st : SState K)
    (hm : rfMethod st.1 st.2 a.method = .ok "S".toList) :
    rf env { a with srcComps := none } st = rf env { a with srcComps := some "QR".toList } st := by
  refine rf_args env _ _ st rfl rfl rfl rfl rfl rfl ?_
  intro m d h
  rw [hm] at h
  injection h with h
  subst h
  rfl

/-- **C88** The default of the source window is the one of the method. -/
theorem C88_window (env : RfEnv K) (a : RfArgs K) (st : SState K) (m : Str)
    (hm : rfMethod st.1 st.2 a.method = .ok m) :
    rf env { a with winsrc := none } st = rf env { a with winsrc := some (.letter m) } st := by
  refine rf_args env _ _ st rfl rfl rfl rfl rfl rfl ?_
  intro m' d h
  rw [hm] at h
  injection h with h
  subst h
  rfl

/-- **C88** The method of the stream's headers is used if none is given. -/
theorem C88_method (env : RfEnv K) (a : RfArgs K) (st : SState K) (m : Str)
    (hm : streamMethod st.1 st.2 = .ok (some m)) :
    rf env { a with method := none } st = rf env { a with method := some m } st := by
  have : rfBody env { a with method := none } st = rfBody env { a with method := some m } st := by
    unfold rfBody rfMethod requestedMethod
    simp only [hm]
    split <;> rfl
  unfold rf
  rw [this]

end defaults

section examples

/-- Decimation as in ObsPy. -/
def dsEnv : RfEnv ℚ := { rEnv with decimate := fun f t =>
  if 1 ≤ f then (.ok { t with sr := t.sr / f }) else .error .zeroDivision }

theorem dsEnv_decimates : Decimates dsEnv := by
  intro n t t' h
  have h : (if 1 ≤ n then (Except.ok { t with sr := t.sr / n }) else Except.error PyErr.zeroDivision) = .ok t' := h
  split at h
  · rename_i h1
    injection h with h
    subst h
    exact ⟨h1, rfl⟩
  · cases h

/-- Two Hz are downsampled to one, with 3 Hz requested the trace is left. -/
example : (rf dsEnv { plainArgs "P".toList with downsample := some 1 } (dHeap, [0, 1, 2])).2 = none ∧
    ((rf dsEnv { plainArgs "P".toList with downsample := some 1 } (dHeap, [0, 1, 2])).1.1 0).sr = 1 ∧
    ((rf dsEnv { plainArgs "P".toList with downsample := some 3 } (dHeap, [0, 1, 2])).1.1 0).sr = 2 := by
  decide +kernel

/-- **C87, negation**: 2.5 Hz is twice 1.25 Hz, but the rate stays because the sampling rate is truncated to
2 first; from 0.5 Hz to 0.25 Hz the call even fails with the factor zero. -/
theorem C87_counterexample : ∃ (env : RfEnv ℚ) (_ : Decimates env) (h1 h2 : Heap ℚ),
    (h1 0).sr = 2 * (5 / 4) ∧
    (rf env { plainArgs "P".toList with downsample := some (5 / 4) } (h1, [0])).2 = none ∧
    ((rf env { plainArgs "P".toList with downsample := some (5 / 4) } (h1, [0])).1.1 0).sr = 5 / 2 ∧
    (h2 0).sr = 2 * (1 / 4) ∧
    (rf env { plainArgs "P".toList with downsample := some (1 / 4) } (h2, [0])).2 = some .zeroDivision := by
  refine ⟨dsEnv, dsEnv_decimates, fun r => { dHeap r with sr := 5 / 2 },
    fun r => { dHeap r with sr := 1 / 2 }, ?_⟩
  decide +kernel

/-- The default source of the example record is the L component; with 'QR' the call uses Q. -/
example : rfMethod dHeap [0, 1, 2] (some "P".toList) = .ok "P".toList ∧
    rfMethod dHeap [0, 1, 2] (some "S".toList) = .ok "S".toList := by
  decide +kernel

end examples
end Verif.Props
