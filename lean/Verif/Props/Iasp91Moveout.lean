import Verif.Props.Iasp91

/-!
# Move out correction with the velocity model of the package: C177
-/

set_option linter.unusedSimpArgs false
set_option linter.unusedSectionVars false

namespace Verif.Props
open Verif.Py Verif.Spec Verif.Model Verif.Model.Simple Verif.Model.Ppoints Verif.Model.Iasp91

section steps
variable {K : Type} [Field K] [LinearOrder K] [FloorRing K] [IsStrictOrderedRing K] (sqrt : K → K)
  (find : List K → K → Nat) (nanCase : Trace K → Res (List K))

/-- The correction of a stream succeeds if it succeeds for each trace. -/
theorem stream_of_steps (info : Str) (phase : Option Str) (p : Str) (ref : K) (m : SimpleModel K) (hfresh : m.tRef = [])
    (st : SState K) (hn : st.2.Nodup) (hp : moveoutPhase st.1 st.2 phase = .ok p)
    (hst : ∀ r ∈ st.2, ∃ t', (moveoutStep sqrt find nanCase p ref m (st.1 r)).2 = .ok t') :
    ∃ m' st', streamMoveout sqrt find nanCase info phase ref m st = (m', st', none) := by
  have key : ∀ (s : List Nat) (m' : SimpleModel K) (h : Heap K), s.Nodup → CacheInv sqrt m m' p ref →
      (∀ r ∈ s, ∃ t', (moveoutStep sqrt find nanCase p ref m (h r)).2 = .ok t') →
      (moveout sqrt find nanCase p ref m' h s).2.2 = none := by
    intro s
    induction s with
    | nil => intro m' h _ _ _; rfl
    | cons a s ih =>
      intro m' h hn inv hc
      obtain ⟨ha, hn'⟩ := List.nodup_cons.1 hn
      obtain ⟨t', ht'⟩ := hc a (by simp)
      rw [← step_of_inv sqrt find nanCase m m' hfresh p ref inv] at ht'
      have j := moveout_inv sqrt find nanCase m m' p ref p ref (fun _ => rfl) inv h [a]
      simp only [moveout] at j ⊢
      rcases h1 : moveoutStep sqrt find nanCase p ref m' (h a) with ⟨a1, r1⟩
      rw [h1] at ht' j
      simp only at ht'
      subst ht'
      simp only at j ⊢
      refine ih a1 _ hn' j (fun r hr => ?_)
      rw [Heap.set_ne _ _ (by rintro rfl; exact ha hr)]
      exact hc r (List.mem_cons_of_mem _ hr)
  have hmo := key st.2 m st.1 hn (inv_refl sqrt m hfresh p ref) hst
  have hx := (moveout_ext sqrt find nanCase p ref m st.1 st.2)
  unfold streamMoveout
  simp only [hp]
  rcases h1 : Simple.moveout sqrt find nanCase p ref m st.1 st.2 with ⟨a, b, e⟩
  rw [h1] at hmo hx
  simp only at hmo hx
  subst hmo
  simp only []
  have hl := moveoutLabel_loop p ref b st.2 (fun r hr => by
    obtain ⟨x, hx2⟩ := hx.2 rfl r hr
    exact ⟨_, by rw [hx.1 r]; exact hx2⟩)
  rcases hll : Heap.forEachE (moveoutLabel p ref) b st.2 with ⟨u, e⟩
  rw [hll] at hl
  simp only at hl
  subst hl
  exact ⟨_, _, rfl⟩

end steps

/-- Rays of slowness at most `b` exist in media with velocity up to `111.2 / b`. -/
theorem not_evanescent (v s b : ℝ) (hv : 0 < v) (hb : 0 < b) (hs : |s| ≤ b) (h : v * b ≤ 1112 / 10) :
    ¬ Evanescent v s := by
  unfold Evanescent
  rw [not_lt, div_pow, div_le_div_iff₀ (by norm_num) (by positivity), one_mul]
  have h1 : s ^ 2 ≤ b ^ 2 := sq_le_sq' (by linarith [(abs_le.1 hs).1]) (abs_le.1 hs).2
  have h2 : (v * b) ^ 2 ≤ (1112 / 10) ^ 2 := pow_le_pow_left₀ (by positivity) h 2
  calc s ^ 2 * v ^ 2 ≤ b ^ 2 * v ^ 2 := mul_le_mul_of_nonneg_right h1 (by positivity)
    _ = (v * b) ^ 2 := by ring
    _ ≤ _ := h2

theorem propagates_of_not {K : Type} [Field K] [LinearOrder K] [IsStrictOrderedRing K] (layers : List (Layer K)) (s : K)
    (hv : ∀ l ∈ layers, 0 < l.vs ∧ l.vs < l.vp) (h : ∀ l ∈ layers, ¬ Evanescent l.vp s) : Propagates layers s :=
  fun l hl => ⟨not_lt.1 (h l hl), not_lt.1 fun h2 => h l hl (evanescent_mono _ _ s (hv l hl).1 (hv l hl).2.le h2)⟩

/-- Delay per kilometre in the crust of the model. -/
theorem crust_rate (s : ℝ) (nP nS : ℕ) (hP : 1 ≤ nP) (hS : 1 ≤ nS)
    (hprop : (s / (1112 / 10)) ^ 2 ≤ 1 / (58 / 10 : ℝ) ^ 2) :
    1 / 8 ≤ (nP : ℝ) * qSpec Real.sqrt (58 / 10) s + (nS : ℝ) * qSpec Real.sqrt (336 / 100) s
      - 2 * qSpec Real.sqrt (58 / 10) s := by
  unfold qSpec
  generalize hh : (s / (1112 / 10)) ^ 2 = h at hprop
  have h0 : 0 ≤ h := by rw [← hh]; positivity
  have p1 : (0 : ℝ) ≤ 1 / (58 / 10) ^ 2 - h := by linarith
  have p2 : (0 : ℝ) ≤ 1 / (336 / 100) ^ 2 - h := by norm_num at hprop ⊢; linarith
  have a1 := Real.mul_self_sqrt p1
  have a2 := Real.mul_self_sqrt p2
  have b1 := Real.sqrt_nonneg (1 / (58 / 10) ^ 2 - h)
  have b2 := Real.sqrt_nonneg (1 / (336 / 100) ^ 2 - h)
  have c1 : √(1 / (58 / 10 : ℝ) ^ 2 - h) ≤ 10 / 58 := by
    rw [Real.sqrt_le_left (by norm_num)]; norm_num; linarith
  have c2 : √(1 / (336 / 100 : ℝ) ^ 2 - h) ≤ 100 / 336 := by
    rw [Real.sqrt_le_left (by norm_num)]; norm_num; linarith
  generalize √(1 / (58 / 10 : ℝ) ^ 2 - h) = qp at *
  generalize √(1 / (336 / 100 : ℝ) ^ 2 - h) = qs at *
  have hd : 1 / 8 ≤ qs - qp := by
    have e : (qs - qp) * (qs + qp) = 1 / (336 / 100) ^ 2 - 1 / (58 / 10) ^ 2 := by ring_nf; ring_nf at a1 a2; linarith
    by_contra hcon
    have hcon := not_le.1 hcon
    have hsum : qs + qp ≤ 100 / 336 + 10 / 58 := by linarith
    have : (qs - qp) * (qs + qp) ≤ 1 / 8 * (100 / 336 + 10 / 58) := by
      calc (qs - qp) * (qs + qp) ≤ 1 / 8 * (qs + qp) := mul_le_mul_of_nonneg_right hcon.le (by linarith)
        _ ≤ _ := mul_le_mul_of_nonneg_left hsum (by norm_num)
    rw [e] at this
    norm_num at this
  have hP' : (1 : ℝ) ≤ nP := by exact_mod_cast hP
  have hS' : (1 : ℝ) ≤ nS := by exact_mod_cast hS
  nlinarith [mul_nonneg (sub_nonneg.2 hP') b1, mul_nonneg (sub_nonneg.2 hS') b2]

section shipped
variable {m : SimpleModel ℝ} {layers : List (Layer ℝ)} (hm : ShippedModel m layers)
include hm

theorem shipped_ref (ref : ℝ) (href : |ref| ≤ 81 / 10) : Propagates layers ref :=
  propagates_of_not layers ref (fun l hl => ⟨(hm.speed l hl).1, (hm.speed l hl).2.1⟩) fun l hl =>
    not_evanescent _ _ (81 / 10) ((hm.speed l hl).1.trans (hm.speed l hl).2.1) (by norm_num) href
      (by linarith [(hm.speed l hl).2.2])

theorem shipped_vel : ∀ l ∈ layers, 0 < l.vs ∧ l.vs < l.vp ∧ 0 ≤ l.dz :=
  fun l hl => ⟨(hm.speed l hl).1, (hm.speed l hl).2.1, (hm.thick l hl).1⟩

/-- Slownesses up to 10 s/deg reach at least 760 km. -/
theorem shipped_reach (s : ℝ) (hs : |s| ≤ 10) : ∀ l ∈ layers.take 170, ¬ Evanescent l.vp s := fun l hl =>
  not_evanescent _ _ 10 ((hm.speed l (List.mem_of_mem_take hl)).1.trans (hm.speed l (List.mem_of_mem_take hl)).2.1)
    (by norm_num) hs (by linarith [hm.upper l hl])

/-- The delay of a conversion in 18 km depth is more than 2 s. -/
theorem shipped_delta (s : ℝ) (nP nS : ℕ) (hP : 1 ≤ nP) (hS : 1 ≤ nS)
    (hs : ∀ l ∈ layers.take 11, ¬ Evanescent l.vp s) : 2 ≤ delaySpec Real.sqrt nP nS true layers s 9 := by
  unfold delaySpec
  simp only [if_true]
  have e : layers.take (9 + 1) = layers.take 1 ++ (layers.take 10).drop 1 := by
    have : layers.take 1 = (layers.take 10).take 1 := by rw [List.take_take]; norm_num
    rw [this, List.take_append_drop]
  rw [e, List.map_append, List.sum_append]
  have h1 : ((layers.take 1).map fun l : Layer ℝ => ((nP : ℝ) * qSpec Real.sqrt l.vp s + (nS : ℝ) * qSpec Real.sqrt l.vs s
      - 2 * qSpec Real.sqrt l.vp s) * l.dz).sum = 0 := by
    have := hm.empty
    have hc := hm.count
    cases layers with
    | nil => simp at hc
    | cons a ls =>
      simp only [List.take_succ_cons, List.take_zero, List.map_cons, List.map_nil, List.cons.injEq, and_true] at this
      simp [this]
  have h2 : (9 : ℕ) • (1 / 4 : ℝ) ≤ (((layers.take 10).drop 1).map fun l : Layer ℝ =>
      ((nP : ℝ) * qSpec Real.sqrt l.vp s + (nS : ℝ) * qSpec Real.sqrt l.vs s
      - 2 * qSpec Real.sqrt l.vp s) * l.dz).sum := by
    have hlen : (((layers.take 10).drop 1).map fun l : Layer ℝ =>
      ((nP : ℝ) * qSpec Real.sqrt l.vp s + (nS : ℝ) * qSpec Real.sqrt l.vs s
      - 2 * qSpec Real.sqrt l.vp s) * l.dz).length = 9 := by
      simp [hm.count]
    rw [← hlen]
    refine List.card_nsmul_le_sum _ _ fun x hx => ?_
    obtain ⟨l, hl, rfl⟩ := List.mem_map.1 hx
    have hl11 : l ∈ (layers.take 11).drop 1 := by
      have : (layers.take 10).drop 1 = ((layers.take 11).drop 1).take 9 := by
        rw [List.drop_take, List.drop_take, List.take_take]; norm_num
      rw [this] at hl
      exact List.mem_of_mem_take hl
    obtain ⟨c1, c2, c3⟩ := hm.crust l hl11
    have := crust_rate s nP nS hP hS (by
      have := not_lt.1 (hs l (List.mem_of_mem_drop hl11))
      rwa [c1] at this)
    rw [c1, c2, c3]
    linarith
  rw [h1]
  norm_num at h2 ⊢
  linarith

/-- Delays of a conversion below layer `j ≥ 1` are positive and less than those two layers further down. -/
theorem shipped_order (s : ℝ) (nP nS : ℕ) (hP : 1 ≤ nP) (hS : 1 ≤ nS) (n : ℕ) (hn : n ≤ 669)
    (hs : ∀ l ∈ layers.take n, ¬ Evanescent l.vp s) (j : ℕ) (hj : 1 ≤ j) (hjn : j + 2 < n) :
    0 < delaySpec Real.sqrt nP nS true layers s j ∧
      delaySpec Real.sqrt nP nS true layers s j < delaySpec Real.sqrt nP nS true layers s (n - 1) := by
  have hlay : ∀ l ∈ layers.take n, l ∈ layers := fun l hl => List.mem_of_mem_take hl
  set f : Layer ℝ → ℝ := fun l => ((nP : ℝ) * qSpec Real.sqrt l.vp s + (nS : ℝ) * qSpec Real.sqrt l.vs s
      - 2 * qSpec Real.sqrt l.vp s) * l.dz with hf
  have hf0 : ∀ l ∈ layers.take n, 0 ≤ f l := fun l hl => by
    obtain ⟨v1, v2, v3⟩ := shipped_vel hm l (hlay l hl)
    exact delaySpec_term_nonneg Real.sqrt sqrtStrict_real.mono l s ⟨v1, v2.le, v3⟩ (not_lt.1 (hs l hl)) nP nS hP hS
  have hfpos : ∀ l ∈ layers.take n, 0 < l.dz → 0 < f l := fun l hl h => by
    exact (term_pos_iff Real.sqrt sqrtStrict_real l s (shipped_vel hm l (hlay l hl)) (not_lt.1 (hs l hl)) nP nS hP hS).2 h
  have hd : ∀ k < n, delaySpec Real.sqrt nP nS true layers s k = (((layers.take n).take (k + 1)).map f).sum := by
    intro k hk
    unfold delaySpec
    rw [List.take_take, min_eq_left (by omega)]
    simp only [if_true, hf]
  have hnl : n ≤ layers.length := by rw [hm.count]; exact hn
  have hget : ∀ i < n, ∃ l, layers[i]? = some l ∧ l.dz = m.dz.getD i 0 := by
    intro i hi
    refine ⟨layers[i], List.getElem?_eq_getElem (by omega), ?_⟩
    rw [hm.dz, List.getD_eq_getElem _ _ (by simp; omega), List.getElem_map]
  have hmem : ∀ (a b i : ℕ) (l : Layer ℝ), layers[i]? = some l → a ≤ i → i < b → b ≤ n →
      l ∈ ((layers.take n).take b).drop a := by
    intro a b i l hl h1 h2 h3
    refine List.mem_iff_getElem?.2 ⟨i - a, ?_⟩
    rw [List.getElem?_drop, List.take_take, List.getElem?_take, if_pos (by omega), show a + (i - a) = i by omega]
    exact hl
  rw [hd j (by omega), hd (n - 1) (by omega)]
  constructor
  · have := (sum_take_lt_iff (layers.take n) f hf0 0 (j + 1)).2 (by
      obtain ⟨l, hl, hdz⟩ := hget 1 (by omega)
      have h2 : l.dz = 2 := (hm.crust l (by
        refine List.mem_iff_getElem?.2 ⟨0, ?_⟩
        rw [List.getElem?_drop, List.getElem?_take, if_pos (by omega)]
        exact hl)).2.2
      have hin := hmem 0 (j + 1) 1 l hl (by omega) (by omega) (by omega)
      exact ⟨l, hin, hfpos l (List.mem_of_mem_take (List.mem_of_mem_drop hin)) (by rw [h2]; norm_num)⟩)
    simpa using this
  · refine (sum_take_lt_iff (layers.take n) f hf0 (j + 1) (n - 1 + 1)).2 ?_
    have key : ∀ i, j + 1 ≤ i → i < n → 0 < m.dz.getD i 0 → ∃ x ∈ ((layers.take n).take (n - 1 + 1)).drop (j + 1), 0 < f x := by
      intro i h1 h2 h3
      obtain ⟨l, hl, hdz⟩ := hget i h2
      have hin := hmem (j + 1) (n - 1 + 1) i l hl h1 (by omega) (by omega)
      exact ⟨l, hin, hfpos l (List.mem_of_mem_take (List.mem_of_mem_drop hin)) (by rw [hdz]; exact h3)⟩
    rcases hm.single (j + 1) (by omega) with h | h
    · exact key (j + 1) le_rfl (by omega) h
    · exact key (j + 2) (by omega) hjn h

/-- `'Sp'` is corrected like `'Ps'`. -/
theorem shipped_sp (find : List ℝ → ℝ → ℕ) (nanCase : Trace ℝ → Res (List ℝ)) (s ref : ℝ) (href : |ref| ≤ 81 / 10)
    (h0 : ∀ l ∈ layers.take 1, ¬ Evanescent l.vp s) (tr : Trace ℝ) (hslow : tr.getNum "slowness" = some s) :
    (moveoutStep Real.sqrt find nanCase "Sp".toList ref m tr).2 =
      (moveoutStep Real.sqrt find nanCase "Ps".toList ref m tr).2 := by
  obtain ⟨N, hN, hprop, -, heq⟩ := usable Real.sqrt find nanCase m layers hm.vp hm.vs hm.dz (by rw [hm.depths, hm.count])
    hm.fresh s ref (shipped_vel hm) (fun l hl => h0 l (by
      cases layers with
      | nil => simp at hl
      | cons a ls => simp only [List.head?_cons, Option.some.injEq] at hl; subst hl; simp))
  rw [heq "Sp".toList (by decide) tr hslow, heq "Ps".toList (by decide) tr hslow]
  exact C36_sp_is_ps Real.sqrt find (topOf m N) (layers.take N) (by simp [topOf, hm.vp, List.map_take])
    (by simp [topOf, hm.vs, List.map_take]) (by simp [topOf, hm.dz, List.map_take]) rfl s ref hprop
    (fun l hl => shipped_ref hm ref href l (List.mem_of_mem_take hl)) nanCase tr hslow

end shipped

/-- **C177, one trace.** With the model of the package, conversions at the tabulated depths which the rays reach are moved to
the delay for the reference slowness. -/
theorem C177_trace (find : List ℝ → ℝ → ℕ) (hf : FindSpec find) (nanCase : Trace ℝ → Res (List ℝ)) (m : SimpleModel ℝ)
    (layers : List (Layer ℝ)) (hm : ShippedModel m layers) (p : Str) (hp : Converted p) (s ref : ℝ)
    (href : |ref| ≤ 81 / 10) (n : ℕ) (h10 : 10 ≤ n) (hn : n ≤ 669) (hreach : ∀ l ∈ layers.take (n + 1), ¬ Evanescent l.vp s)
    (tr : Trace ℝ) (onset : ℝ) (hsr : 0 < tr.sr) (hδ : tr.delta ≤ 2) (hon : tr.getTime "onset" = some onset)
    (h1 : tr.start ≤ onset) (h2 : onset ≤ tr.endtime) (h3 : index0 tr onset + 2 ≤ tr.npts)
    (hslow : tr.getNum "slowness" = some s) :
    ∃ tr', (moveoutStep Real.sqrt find nanCase p ref m tr).2 = .ok tr' ∧ tr' = { tr with data := tr'.data } ∧
      ∀ j, 1 ≤ j → j + 2 < n → ∀ k k' : ℕ, k < tr.data.length → k' < tr.data.length →
        tr.start + (k : ℝ) / tr.sr - onset = delayOf Real.sqrt p layers s j →
        tr.start + (k' : ℝ) / tr.sr - onset = delayOf Real.sqrt p layers ref j → tr'.data[k']? = tr.data[k]? := by
  -- the phase with which the correction is done
  obtain ⟨q, hstep, hdel, q1, q2, q3, q4⟩ : ∃ q : Str,
      (moveoutStep Real.sqrt find nanCase p ref m tr).2 = (moveoutStep Real.sqrt find nanCase q ref m tr).2 ∧
      (∀ x j, delayOf Real.sqrt p layers x j = delaySpec Real.sqrt ((upper q).count 'P') ((upper q).count 'S') true layers x j) ∧
      q.length % 2 = 0 ∧ (∀ c ∈ upper q, c = 'P' ∨ c = 'S') ∧ (upper q).head? = some 'P' ∧ 'S' ∈ upper q := by
    by_cases hsp : p = "Sp".toList
    · subst hsp
      refine ⟨"Ps".toList, shipped_sp hm find nanCase s ref href (fun l hl => hreach l ?_) tr hslow, fun x j => ?_,
        by decide, by decide, by decide, by decide⟩
      · have : layers.take 1 = (layers.take (n + 1)).take 1 := by rw [List.take_take, min_eq_left (by omega)]
        rw [this] at hl
        exact List.mem_of_mem_take hl
      · unfold delayOf
        rw [if_pos rfl, show (upper "Ps".toList).count 'P' = 1 by decide, show (upper "Ps".toList).count 'S' = 1 by decide]
    · obtain ⟨a, b, c, d⟩ := hp.resolve_left hsp
      exact ⟨p, rfl, fun x j => by unfold delayOf; rw [if_neg hsp], a, b, c, d⟩
  have hP1 : 1 ≤ (upper q).count 'P' := List.one_le_count_iff.2 (List.mem_of_mem_head? q3)
  have hS1 : 1 ≤ (upper q).count 'S' := List.one_le_count_iff.2 q4
  have hreach11 : ∀ l ∈ layers.take 11, ¬ Evanescent l.vp s := fun l hl => hreach l (by
    have : layers.take 11 = (layers.take (n + 1)).take 11 := by rw [List.take_take]; congr 1; omega
    rw [this] at hl
    exact List.mem_of_mem_take hl)
  obtain ⟨tr', e1, e2, e3⟩ := C175_conversion Real.sqrt find hf sqrtStrict_real nanCase m layers hm.vp hm.vs hm.dz
    (by rw [hm.depths, hm.count]) hm.fresh s ref q q1 q2 q3 q4 (shipped_ref hm ref href) (shipped_vel hm) n
    (by rw [hm.count]; exact hn) hreach tr onset hsr hon h1 h2 h3 hslow _ rfl
    (by rw [min_eq_left (by omega)]
        exact hδ.trans (shipped_delta hm s _ _ hP1 hS1 hreach11)) (by omega)
  refine ⟨tr', by rw [hstep]; exact e1, e2, fun j hj hjn k k' hk hk' hkt hkt' => ?_⟩
  obtain ⟨o1, o2⟩ := shipped_order hm s _ _ hP1 hS1 n hn (fun l hl => hreach l (by
    have : layers.take n = (layers.take (n + 1)).take n := by rw [List.take_take]; congr 1; omega
    rw [this] at hl
    exact List.mem_of_mem_take hl)) j hj hjn
  rw [hdel] at hkt hkt'
  exact e3 j (by omega) o1 o2 k k' hk hk' hkt hkt'

/-- Requirements on a trace: sampling interval of at most 2 s, onset inside of the data and slowness of at most 10 s/deg. -/
def Ordinary (t : Trace ℝ) (onset s : ℝ) : Prop :=
  0 < t.sr ∧ t.delta ≤ 2 ∧ t.getTime "onset" = some onset ∧ t.start ≤ onset ∧ onset ≤ t.endtime ∧
    index0 t onset + 2 ≤ t.npts ∧ t.getNum "slowness" = some s ∧ |s| ≤ 10

/-- **C177.** `moveout()` of a stream with the model of the package succeeds and moves the conversions at all tabulated
depths down to 760 km to the delay for the reference slowness. -/
theorem C177_stream (pkg : Str) (loadtxt : Str → Res (Table ℝ)) (hfile : loadtxt pkg = loadShipped) (c : Models ℝ)
    (hnew : c.get "iasp91".toList = none) (find : List ℝ → ℝ → ℕ) (hf : FindSpec find)
    (nanCase : Trace ℝ → Res (List ℝ)) (info : Str) (phase : Option Str) (p : Str) (hp : Converted p) (ref : ℝ)
    (href : |ref| ≤ 81 / 10) (st : SState ℝ) (hn : st.2.Nodup) (hph : moveoutPhase st.1 st.2 phase = .ok p)
    (onset slow : ℕ → ℝ) (hst : ∀ r ∈ st.2, Ordinary (st.1 r) (onset r) (slow r)) :
    ∃ m layers c' st', (loadModel pkg loadtxt c "iasp91".toList).2 = .ok m ∧ ShippedModel m layers ∧
      moveoutCall Real.sqrt find nanCase info pkg loadtxt phase ref "iasp91".toList c st = (c', st', none) ∧
      st'.2 = st.2 ∧ ∀ r ∈ st.2, ∀ j, 1 ≤ j → j ≤ 165 → ∀ k k' : ℕ, k < (st.1 r).data.length →
        k' < (st.1 r).data.length →
        (st.1 r).start + (k : ℝ) / (st.1 r).sr - onset r = delayOf Real.sqrt p layers (slow r) j →
        (st.1 r).start + (k' : ℝ) / (st.1 r).sr - onset r = delayOf Real.sqrt p layers ref j →
        (st'.1 r).data[k']? = (st.1 r).data[k]? := by
  obtain ⟨m, layers, hload, hm⟩ := C176_loads pkg loadtxt hfile c hnew
  have hreach : ∀ s : ℝ, |s| ≤ 10 → ∀ l ∈ layers.take (168 + 1), ¬ Evanescent l.vp s := fun s hs l hl =>
    shipped_reach hm s hs l (by
      have : layers.take 169 = (layers.take 170).take 169 := by rw [List.take_take]; norm_num
      rw [show 168 + 1 = 169 from rfl, this] at hl
      exact List.mem_of_mem_take hl)
  have each : ∀ r ∈ st.2, ∃ tr', (moveoutStep Real.sqrt find nanCase p ref m (st.1 r)).2 = .ok tr' ∧ _ := fun r hr => by
    obtain ⟨a1, a2, a3, a4, a5, a6, a7, a8⟩ := hst r hr
    exact C177_trace find hf nanCase m layers hm p hp (slow r) ref href 168 (by norm_num) (by norm_num)
      (hreach _ a8) (st.1 r) (onset r) a1 a2 a3 a4 a5 a6 a7
  obtain ⟨m', st', hok⟩ := stream_of_steps Real.sqrt find nanCase info phase p ref m hm.fresh st hn hph
    (fun r hr => by obtain ⟨t, ht, -⟩ := each r hr; exact ⟨t, ht⟩)
  rcases hl : loadModel pkg loadtxt c "iasp91".toList with ⟨c1, r1⟩
  rw [hl] at hload
  simp only at hload
  subst hload
  refine ⟨m, layers, c1.put "iasp91".toList m', st', rfl, hm, ?_, ?_, fun r hr j hj hj2 k k' hk hk' hkt hkt' => ?_⟩
  · unfold moveoutCall
    simp only [hph, hl, hok]
  · exact (C40_bookkeeping Real.sqrt find nanCase info phase ref m m' st st' hn hok).1
  · obtain ⟨p', hp', heach⟩ := C118_each_trace Real.sqrt find nanCase info phase ref m m' hm.fresh st st' hn hok
    rw [hph, Except.ok.injEq] at hp'
    subst hp'
    obtain ⟨t, ht, htd⟩ := heach r hr
    obtain ⟨t2, ht2, -, hconv⟩ := each r hr
    rw [ht, Except.ok.injEq] at ht2
    subst ht2
    rw [htd]
    exact hconv j hj (by omega) k k' hk hk' hkt hkt'

/-! ## A case -/

/-- Delay of a conversion in 2 km depth. -/
theorem shipped_two {m : SimpleModel ℝ} {layers : List (Layer ℝ)} (hm : ShippedModel m layers) (x : ℝ) :
    delayOf Real.sqrt "Ps".toList layers x 1 = 2 * (qSpec Real.sqrt (336 / 100) x - qSpec Real.sqrt (58 / 10) x) := by
  have h1 := hm.empty
  have h2 := hm.crust
  have hc := hm.count
  unfold delayOf
  rw [if_neg (by decide), show (upper "Ps".toList).count 'P' = 1 by decide, show (upper "Ps".toList).count 'S' = 1 by decide]
  unfold delaySpec
  match layers, hc with
  | a :: b :: ls, _ =>
    simp only [List.take_succ_cons, List.take_zero, List.map_cons, List.map_nil, List.cons.injEq, and_true] at h1
    obtain ⟨c1, c2, c3⟩ := h2 b (by simp)
    simp only [List.take_succ_cons, List.take_zero, List.map_cons, List.map_nil, List.sum_cons, List.sum_nil, h1, c1, c2, c3]
    norm_num
    ring

/-- A trace of 45 samples whose sampling interval is the difference `d` of the delays in 2 km depth for the slownesses 6.4 and
0 s/deg. -/
noncomputable def shallowTrace (a d : ℝ) : Trace ℝ :=
  ⟨[], "STA".toList, [], ['Q'], 0, 1 / d, (List.range 45).map (fun (k : ℕ) => (k : ℝ)),
    [("onset", .time (40 * d - a)), ("slowness", .num 0), ("phase", .str ['P'])]⟩

/-- Sample 40 of the trace is moved to sample 41 by `moveout()`. -/
example (pkg : Str) (loadtxt : Str → Res (Table ℝ)) (hfile : loadtxt pkg = loadShipped) (info : Str)
    (nanCase : Trace ℝ → Res (List ℝ)) :
    ∃ a d c' st', moveoutCall Real.sqrt npFind nanCase info pkg loadtxt none (64 / 10) "iasp91".toList []
        (fun _ => shallowTrace a d, [0]) = (c', st', none) ∧ (st'.1 0).data[41]? = some 40 := by
  obtain ⟨m, layers, hload, hm⟩ := C176_loads pkg loadtxt hfile [] rfl
  have q1 : qSpec Real.sqrt (336 / 100) 0 = 100 / 336 := by
    unfold qSpec
    rw [show (1 / (336 / 100) ^ 2 - (0 / (1112 / 10)) ^ 2 : ℝ) = (100 / 336) ^ 2 by norm_num, Real.sqrt_sq (by norm_num)]
  have q2 : qSpec Real.sqrt (58 / 10) 0 = 10 / 58 := by
    unfold qSpec
    rw [show (1 / (58 / 10) ^ 2 - (0 / (1112 / 10)) ^ 2 : ℝ) = (10 / 58) ^ 2 by norm_num, Real.sqrt_sq (by norm_num)]
  have q3 : (2919 / 10000 : ℝ) ≤ qSpec Real.sqrt (336 / 100) (64 / 10) := by
    unfold qSpec
    rw [Real.le_sqrt' (by norm_num)]
    norm_num
  have q4 : qSpec Real.sqrt (336 / 100) (64 / 10) ≤ 100 / 336 := by
    unfold qSpec
    rw [Real.sqrt_le_left (by norm_num)]
    norm_num
  have q5 : qSpec Real.sqrt (58 / 10) (64 / 10) ≤ 1626 / 10000 := by
    unfold qSpec
    rw [Real.sqrt_le_left (by norm_num)]
    norm_num
  have q6 : 0 ≤ qSpec Real.sqrt (58 / 10) (64 / 10) := Real.sqrt_nonneg _
  have ha := shipped_two hm 0
  have hb := shipped_two hm (64 / 10)
  rw [q1, q2] at ha
  generalize hA : delayOf Real.sqrt "Ps".toList layers 0 1 = a at ha
  generalize hB : delayOf Real.sqrt "Ps".toList layers (64 / 10) 1 = b at hb
  have hd : 1 / 125 ≤ b - a := by rw [ha, hb]; norm_num; linarith
  have hd2 : b - a ≤ 2 := by rw [ha, hb]; norm_num; linarith
  have hord : Ordinary (shallowTrace a (b - a)) (40 * (b - a) - a) 0 := by
    have hpos : 0 < b - a := by linarith
    have ha0 : 0 ≤ a := by rw [ha]; norm_num
    have ha1 : a ≤ 40 * (b - a) := by rw [ha] at hd ⊢; norm_num at hd ⊢; linarith
    have hdel : (shallowTrace a (b - a)).delta = b - a := by simp [Trace.delta, shallowTrace]
    refine ⟨by simpa [shallowTrace] using hpos, by rw [hdel]; exact hd2, rfl, ?_, ?_, ?_, rfl, by norm_num⟩
    · show (0 : ℝ) ≤ _
      linarith
    · unfold Trace.endtime
      rw [hdel, if_neg (by simp [shallowTrace])]
      have : ((shallowTrace a (b - a)).data.length - 1 : ℕ) = 44 := by simp [shallowTrace]
      rw [this]
      show _ ≤ (0 : ℝ) + _
      push_cast
      linarith
    · have h1 : index0 (shallowTrace a (b - a)) (40 * (b - a) - a) ≤ 40 := by
        unfold index0
        rw [← Int.cast_le (R := ℝ)]
        refine (Int.floor_le _).trans ?_
        show (40 * (b - a) - a - 0) * (1 / (b - a)) ≤ _
        rw [mul_one_div, div_le_iff₀ hpos]
        push_cast
        linarith
      have h2 : (shallowTrace a (b - a)).npts = 45 := by simp [Trace.npts, shallowTrace]
      rw [h2]
      push_cast
      omega
  obtain ⟨m2, layers2, c', st', hload2, hm2, hok, -, hmoved⟩ := C177_stream pkg loadtxt hfile [] rfl npFind npFind_spec nanCase
    info none "Ps".toList (.inr ⟨by decide, by decide, by decide, by decide⟩) (64 / 10) (by norm_num [abs_le])
    (fun _ => shallowTrace a (b - a), [0]) (by simp) rfl (fun _ => 40 * (b - a) - a) (fun _ => 0) (fun _ _ => hord)
  refine ⟨a, b - a, c', st', hok, ?_⟩
  have e : ∀ x, delayOf Real.sqrt "Ps".toList layers2 x 1 = delayOf Real.sqrt "Ps".toList layers x 1 := fun x => by
    rw [shipped_two hm, shipped_two hm2]
  have hpos : b - a ≠ 0 := by linarith
  rw [hmoved 0 (by simp) 1 le_rfl (by norm_num) 40 41 (by simp [shallowTrace]) (by simp [shallowTrace])
    (by rw [e, hA]; simp only [shallowTrace]; push_cast; field_simp; ring)
    (by rw [e, hB]; simp only [shallowTrace]; push_cast; field_simp; ring)]
  simp [shallowTrace]

end Verif.Props
