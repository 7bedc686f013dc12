import Verif.Props.HarmonicsExamples

/-!
# Harmonic decomposition: superposition (C151) and independence of order and full turns (C152)
-/

set_option linter.unusedSimpArgs false
set_option linter.unusedSectionVars false

namespace Verif.Props
open Verif.Py Verif.Model Verif.Model.Harmonics Verif.Spec Finset

/-! ### Superposition -/

theorem Normal.lin {𝕜 : Type} [RCLike 𝕜] {m n : ℕ} {A : ℕ → ℕ → 𝕜} {b c x y : ℕ → 𝕜} (u v : 𝕜)
    (hx : Normal m n A b x) (hy : Normal m n A c y) :
    Normal m n A (fun i => u * b i + v * c i) (fun j => u * x j + v * y j) := by
  have := Normal.sum (N := 2) (A := A) (m := m) (n := n) (fun t => if t = 0 then b else c)
    (fun t => if t = 0 then x else y) (fun t => if t = 0 then u else v) (fun t ht => by
      by_cases h0 : t = 0
      · simpa [h0] using hx
      · simpa [h0] using hy)
  simpa [Finset.sum_range_succ] using this

/-- The least squares solution of minimal norm is linear in the right hand side. -/
theorem lstsq_linear (E : LstsqEnv) (hE : LstsqOk E) (n : ℕ) (A : List (List ℝ)) (b c d : List ℝ) (u v : ℝ)
    (hA : A ≠ []) (hn : ∀ r ∈ A, r.length = n) (hb : b.length = A.length) (hc : c.length = A.length)
    (hd : d = List.zipWith (fun p q => u * p + v * q) b c) (k : ℕ) (hk : k < n) :
    (E.real A d).getD k 0 = u * (E.real A b).getD k 0 + v * (E.real A c).getD k 0 := by
  have hdl : d.length = A.length := by rw [hd]; simp [hb, hc]
  have h1 := minNorm_normal (hE.real n A b hA hn hb).2
  have h2 := minNorm_normal (hE.real n A c hA hn hc).2
  have h3 := minNorm_normal (hE.real n A d hA hn hdl).2
  have h4 := Normal.lin u v h1 h2
  have h5 : Normal A.length n (entry A) (d.getD · 0) (fun j => u * (E.real A b).getD j 0 + v * (E.real A c).getD j 0) := by
    constructor
    · intro y
      refine Eq.trans ?_ (h4.residual y)
      refine dotP_congr _ _ _ _ _ (fun _ _ => rfl) fun i hi => ?_
      rw [hd, List.getD_eq_getElem _ _ (by simp [hb, hc]; omega), List.getD_eq_getElem b _ (by omega),
        List.getD_eq_getElem c _ (by omega), List.getElem_zipWith]
    · exact h4.kernel
  exact h3.unique h5 k hk

/-- Two heaps with the same headers as far as a stream is concerned. -/
def SameHeads (h h' : Heap ℝ) (s : List ℕ) : Prop := ∀ r ∈ s, (h' r).cha = (h r).cha ∧ (h' r).ext = (h r).ext

theorem ofComponent_congr (h h' : Heap ℝ) (s : List ℕ) (c : Char) (hc : ∀ r ∈ s, (h' r).cha = (h r).cha) :
    ofComponent h' s c = ofComponent h s c :=
  List.filter_congr fun r hr => by rw [hc r hr]

theorem byTime_congr (h h' : Heap ℝ) (l : List ℕ)
    (ht : ∀ r ∈ l, (h' r).getTime "event_time" = (h r).getTime "event_time") : byTime h' l = byTime h l := by
  unfold byTime
  have := List.map_insertionSort (fun a b => timeKey h' a ≤ timeKey h' b) (fun a b => timeKey h a ≤ timeKey h b)
    (fun r : ℕ => r) l (fun a ha b hb => by unfold timeKey; rw [ht a ha, ht b hb])
  simpa using this

theorem SameHeads.usable {h h' : Heap ℝ} {s : List ℕ} (hs : SameHeads h h' s) {c : Char} {B : ℕ → ℝ} {N : ℕ}
    (hu : Usable h s (ofComponent h s c) B N) (hl : ∀ r ∈ s, (h' r).data.length = (h r).data.length) :
    Usable h' s (ofComponent h' s c) B N := by
  rw [ofComponent_congr h h' s c fun r hr => (hs r hr).1]
  have hm : ∀ r ∈ ofComponent h s c, r ∈ s := fun r hr => (List.mem_filter.1 hr).1
  refine ⟨hu.nonempty, fun r hr => ?_, fun r hr => ?_, fun r hr => ?_, ?_⟩
  · obtain ⟨t, ht⟩ := hu.time r hr
    exact ⟨t, by rw [← ht]; unfold Trace.getTime; rw [(hs r (hm r hr)).2]⟩
  · rw [(hs r (hm r hr)).2]
    exact hu.baz r hr
  · rw [hl r (hm r hr)]
    exact hu.npts r hr
  · obtain ⟨f, hf, hN⟩ := hu.first
    exact ⟨f, hf, (hl f (List.mem_of_head? hf)).trans hN⟩

theorem SameHeads.byTime {h h' : Heap ℝ} {s : List ℕ} (hs : SameHeads h h' s) (c : Char) :
    byTime h' (ofComponent h' s c) = byTime h (ofComponent h s c) := by
  rw [ofComponent_congr h h' s c fun r hr => (hs r hr).1]
  exact byTime_congr h h' _ fun r hr => by unfold Trace.getTime; rw [(hs r (List.mem_filter.1 hr).1).2]

/-- `hz` holds the samples `u x + v y` for the samples `x` of `hx` and `y` of `hy`. -/
structure Superposed (u v : ℝ) (hx hy hz : Heap ℝ) (s : List ℕ) : Prop where
  headsY : SameHeads hx hy s
  headsZ : SameHeads hx hz s
  length : ∀ r ∈ s, (hy r).data.length = (hx r).data.length
  data : ∀ r ∈ s, (hz r).data = List.zipWith (fun p q => u * p + v * q) (hx r).data (hy r).data

theorem Superposed.lengthZ {u v : ℝ} {hx hy hz : Heap ℝ} {s : List ℕ} (hs : Superposed u v hx hy hz s) :
    ∀ r ∈ s, (hz r).data.length = (hx r).data.length := fun r hr => by
  rw [hs.data r hr]
  simp [hs.length r hr]

theorem Superposed.samples {u v : ℝ} {hx hy hz : Heap ℝ} {s l : List ℕ} (hs : Superposed u v hx hy hz s)
    (hl : ∀ r ∈ l, r ∈ s) (i N : ℕ) (hi : i < N) (hN : ∀ r ∈ l, (hx r).data.length = N) :
    (l.map fun r => (hz r).data.getD i 0) = List.zipWith (fun p q => u * p + v * q)
      (l.map fun r => (hx r).data.getD i 0) (l.map fun r => (hy r).data.getD i 0) := by
  rw [List.zipWith_map, List.zipWith_self]
  refine List.map_congr_left fun r hr => ?_
  have h1 := hN r hr
  have h2 := hs.length r (hl r hr)
  rw [hs.data r (hl r hr), List.getD_eq_getElem _ _ (by simp; omega), List.getD_eq_getElem (hx r).data _ (by omega),
    List.getD_eq_getElem (hy r).data _ (by omega), List.getElem_zipWith]

/-- C151, one component: the harmonics of a superposition of data are the superposition of the harmonics. -/
theorem C151_one_component (E : LstsqEnv) (hE : LstsqOk E) (info : Str) (a : HArgs) (u v : ℝ) (hx hy hz : Heap ℝ)
    (s : List ℕ) (c : Char) (B : ℕ → ℝ) (N : ℕ)
    (hcomp : a.components = [c]) (hc : c = 'R' ∨ c = 'Q' ∨ c = 'T') (hsc : a.scalars = none)
    (hm : a.method = "time".toList ∨ a.method = "freq".toList ∧ 0 < N)
    (hu : Usable hx s (ofComponent hx s c) B N) (hs : Superposed u v hx hy hz s) :
    ∃ (ox oy oz : List (Trace ℝ)), harmonics E info a hx s = .ok ox ∧ harmonics E info a hy s = .ok oy ∧
      harmonics E info a hz s = .ok oz ∧ ox.length = 5 ∧ oy.length = 5 ∧
      oz.map (fun t => t.data) = List.zipWith (List.zipWith fun p q => u * p + v * q) (ox.map fun t => t.data)
        (oy.map fun t => t.data) := by
  obtain ⟨f, -, hb⟩ := body_one E hE a hx s c B N hcomp hc hsc hm hu
  obtain ⟨f', -, hb'⟩ := body_one E hE a hy s c B N hcomp hc hsc hm (hs.headsY.usable hu hs.length)
  obtain ⟨f'', -, hb''⟩ := body_one E hE a hz s c B N hcomp hc hsc hm (hs.headsZ.usable hu hs.lengthZ)
  rw [hs.headsY.byTime] at hb'
  rw [hs.headsZ.byTime] at hb''
  obtain ⟨ox, ho, hd⟩ := harmonics_data E info a hx s _ _ _ _ hb
  obtain ⟨oy, ho', hd'⟩ := harmonics_data E info a hy s _ _ _ _ hb'
  obtain ⟨oz, ho'', hd''⟩ := harmonics_data E info a hz s _ _ _ _ hb''
  refine ⟨ox, oy, oz, ho, ho', ho'', by simpa using congrArg List.length hd, by simpa using congrArg List.length hd', ?_⟩
  rw [hd, hd', hd'', List.zipWith_map, List.zipWith_self]
  refine List.map_congr_left fun k hk => ?_
  rw [List.zipWith_map, List.zipWith_self]
  refine List.map_congr_left fun i hi => ?_
  rw [List.mem_range] at hk hi
  set l := byTime hx (ofComponent hx s c) with hl
  have hlo : ∀ r ∈ l, r ∈ ofComponent hx s c := fun r => (byTime_mem hx _ r).1
  have hl0 : l ≠ [] := by
    intro he
    have := (byTime_perm hx (ofComponent hx s c)).length_eq
    rw [← hl, he] at this
    exact hu.nonempty (List.length_eq_zero_iff.1 this.symm)
  refine lstsq_linear E hE 5 _ _ _ _ u v (by simpa using hl0) ?_ (by simp) (by simp)
    (hs.samples (fun r hr => (List.mem_filter.1 (hlo r hr)).1) i N hi fun r hr => hu.npts r (hlo r hr)) k hk
  intro r hr
  obtain ⟨q, -, rfl⟩ := List.mem_map.1 hr
  rfl

/-- C151, two components. -/
theorem C151_two_components (E : LstsqEnv) (hE : LstsqOk E) (info : Str) (a : HArgs) (u v : ℝ) (hx hy hz : Heap ℝ)
    (s : List ℕ) (c : Char) (B BT : ℕ → ℝ) (N : ℕ)
    (hcomp : a.components = [c, 'T']) (hc : c = 'R' ∨ c = 'Q')
    (hm : a.method = "time".toList ∨ a.method = "freq".toList ∧ 0 < N)
    (hu : Usable hx s (ofComponent hx s c) B N) (hut : Usable hx s (ofComponent hx s 'T') BT N)
    (hcount : (ofComponent hx s c).length = (ofComponent hx s 'T').length) (hs : Superposed u v hx hy hz s) :
    ∃ (ox oy oz : List (Trace ℝ)), harmonics E info a hx s = .ok ox ∧ harmonics E info a hy s = .ok oy ∧
      harmonics E info a hz s = .ok oz ∧ ox.length = 10 ∧ oy.length = 10 ∧
      oz.map (fun t => t.data) = List.zipWith (List.zipWith fun p q => u * p + v * q) (ox.map fun t => t.data)
        (oy.map fun t => t.data) := by
  have hcy : ∀ c, ofComponent hy s c = ofComponent hx s c :=
    fun c => ofComponent_congr hx hy s c fun r hr => (hs.headsY r hr).1
  have hcz : ∀ c, ofComponent hz s c = ofComponent hx s c :=
    fun c => ofComponent_congr hx hz s c fun r hr => (hs.headsZ r hr).1
  obtain ⟨f, -, hb⟩ := body_two E hE a hx s c B N hcomp hc hm hu ⟨BT, hut⟩ hcount
  obtain ⟨f', -, hb'⟩ := body_two E hE a hy s c B N hcomp hc hm (hs.headsY.usable hu hs.length)
    ⟨BT, hs.headsY.usable hut hs.length⟩ (by rw [hcy, hcy]; exact hcount)
  obtain ⟨f'', -, hb''⟩ := body_two E hE a hz s c B N hcomp hc hm (hs.headsZ.usable hu hs.lengthZ)
    ⟨BT, hs.headsZ.usable hut hs.lengthZ⟩ (by rw [hcz, hcz]; exact hcount)
  rw [hs.headsY.byTime, hs.headsY.byTime] at hb'
  rw [hs.headsZ.byTime, hs.headsZ.byTime] at hb''
  obtain ⟨ox, ho, hd⟩ := harmonics_data E info a hx s _ _ _ _ hb
  obtain ⟨oy, ho', hd'⟩ := harmonics_data E info a hy s _ _ _ _ hb'
  obtain ⟨oz, ho'', hd''⟩ := harmonics_data E info a hz s _ _ _ _ hb''
  refine ⟨ox, oy, oz, ho, ho', ho'', by simpa using congrArg List.length hd, by simpa using congrArg List.length hd', ?_⟩
  rw [hd, hd', hd'', List.zipWith_map, List.zipWith_self]
  refine List.map_congr_left fun k hk => ?_
  rw [List.zipWith_map, List.zipWith_self]
  refine List.map_congr_left fun i hi => ?_
  rw [List.mem_range] at hk hi
  have hll : (byTime hx (ofComponent hx s 'T')).length = (byTime hx (ofComponent hx s c)).length := by
    rw [(byTime_perm hx _).length_eq, (byTime_perm hx _).length_eq, hcount]
  have hl0 : byTime hx (ofComponent hx s c) ≠ [] := by
    intro he
    have := (byTime_perm hx (ofComponent hx s c)).length_eq
    rw [he] at this
    exact hu.nonempty (List.length_eq_zero_iff.1 this.symm)
  set l := byTime hx (ofComponent hx s c) with hl
  set lt := byTime hx (ofComponent hx s 'T') with hlt
  have hlo : ∀ r ∈ l, r ∈ ofComponent hx s c := fun r => (byTime_mem hx _ r).1
  have hlot : ∀ r ∈ lt, r ∈ ofComponent hx s 'T' := fun r => (byTime_mem hx _ r).1
  refine lstsq_linear E hE 10 _ _ _ _ u v (by simpa using hl0) ?_ (by simp [hll]) (by simp [hll]) ?_ k hk
  · intro r hr
    rcases List.mem_append.1 hr with hr | hr <;> (obtain ⟨q, -, rfl⟩ := List.mem_map.1 hr; rfl)
  · rw [List.zipWith_append (by simp),
      hs.samples (fun r hr => (List.mem_filter.1 (hlo r hr)).1) i N hi fun r hr => hu.npts r (hlo r hr),
      hs.samples (fun r hr => (List.mem_filter.1 (hlot r hr)).1) i N hi fun r hr => hut.npts r (hlot r hr)]

/-! ### Full turns, common rotation -/

/-- The trace `t'` is the trace `t` with a back azimuth (if it has one) increased by `d` and a number of full
turns. -/
def TurnedBy (d : ℝ) (t t' : Trace ℝ) : Prop :=
  match t.ext.get "back_azimuth" with
  | some (.num x) => ∃ k : ℤ, t' = t.put "back_azimuth" (.num (x + d + 360 * k))
  | _ => t' = t

theorem TurnedBy.get {d : ℝ} {t t' : Trace ℝ} (h : TurnedBy d t t') (key : String) (hk : key ≠ "back_azimuth") :
    t'.ext.get key = t.ext.get key := by
  unfold TurnedBy at h
  split at h
  · obtain ⟨k, rfl⟩ := h
    exact Dict.get_set_ne _ _ hk
  · rw [h]

theorem TurnedBy.fields {d : ℝ} {t t' : Trace ℝ} (h : TurnedBy d t t') :
    t'.net = t.net ∧ t'.sta = t.sta ∧ t'.loc = t.loc ∧ t'.cha = t.cha ∧ t'.start = t.start ∧ t'.sr = t.sr ∧
      t'.data = t.data := by
  unfold TurnedBy at h
  split at h
  · obtain ⟨k, rfl⟩ := h
    exact ⟨rfl, rfl, rfl, rfl, rfl, rfl, rfl⟩
  · rw [h]
    exact ⟨rfl, rfl, rfl, rfl, rfl, rfl, rfl⟩

theorem erase_set {V : Type} (dd : Dict V) (k : String) (v : V) : (dd.set k v).erase k = dd.erase k := by
  induction dd with
  | nil => simp [Dict.set, Dict.erase]
  | cons p dd ih =>
    obtain ⟨k', v'⟩ := p
    unfold Dict.set
    by_cases hk : k' = k
    · subst hk
      simp [Dict.erase]
    · rw [if_neg hk]
      unfold Dict.erase at ih ⊢
      rw [List.filter_cons, List.filter_cons, ih]

theorem erase_comm {V : Type} (dd : Dict V) (k k' : String) : (dd.erase k).erase k' = (dd.erase k').erase k := by
  unfold Dict.erase
  rw [List.filter_filter, List.filter_filter]
  exact List.filter_congr fun p _ => Bool.and_comm _ _

theorem TurnedBy.clean {d : ℝ} {t t' : Trace ℝ} (h : TurnedBy d t t') : cleanTrace t' = cleanTrace t := by
  have hext : t'.ext.erase "back_azimuth" = t.ext.erase "back_azimuth" := by
    unfold TurnedBy at h
    split at h
    · obtain ⟨k, rfl⟩ := h
      exact erase_set _ _ _
    · rw [h]
  have hall : ∀ (ks : List String) (x y : Dict (Val ℝ)), x.erase "back_azimuth" = y.erase "back_azimuth" →
      "back_azimuth" ∈ ks → ks.foldl (fun d k => d.erase k) x = ks.foldl (fun d k => d.erase k) y := by
    intro ks
    induction ks with
    | nil => intro x y _ hm; cases hm
    | cons k ks ih =>
      intro x y hxy hm
      rw [List.foldl_cons, List.foldl_cons]
      by_cases hk : k = "back_azimuth"
      · rw [hk, hxy]
      · exact ih _ _ (by rw [erase_comm, hxy, erase_comm]) ((List.mem_cons.1 hm).resolve_left (Ne.symm hk))
  obtain ⟨h1, h2, h3, h4, h5, h6, h7⟩ := h.fields
  obtain ⟨n, st, lo, ch, sta, sr, da, ex⟩ := t
  obtain ⟨n', st', lo', ch', sta', sr', da', ex'⟩ := t'
  simp only at h1 h2 h3 h4 h5 h6 h7 hext
  subst h1 h2 h3 h4 h5 h6 h7
  unfold cleanTrace
  simp only
  rw [hall poppedKeys ex' ex hext (by decide)]

theorem radians_turn (b azim d : ℝ) (k : ℤ) :
    radians (b + d + 360 * k - (azim + d)) = radians (b - azim) + k * (2 * Real.pi) := by
  unfold radians
  ring

theorem trig_turn (b azim d : ℝ) (k : ℤ) :
    Real.cos (radians (b + d + 360 * k - (azim + d))) = Real.cos (radians (b - azim)) ∧
    Real.sin (radians (b + d + 360 * k - (azim + d))) = Real.sin (radians (b - azim)) ∧
    Real.cos (2 * radians (b + d + 360 * k - (azim + d))) = Real.cos (2 * radians (b - azim)) ∧
    Real.sin (2 * radians (b + d + 360 * k - (azim + d))) = Real.sin (2 * radians (b - azim)) := by
  rw [radians_turn]
  have h2 : 2 * (radians (b - azim) + k * (2 * Real.pi)) = 2 * radians (b - azim) + ((2 * k : ℤ) : ℝ) * (2 * Real.pi) := by
    push_cast; ring
  refine ⟨Real.cos_add_int_mul_two_pi _ _, Real.sin_add_int_mul_two_pi _ _, ?_, ?_⟩
  · rw [h2]; exact Real.cos_add_int_mul_two_pi _ _
  · rw [h2]; exact Real.sin_add_int_mul_two_pi _ _

theorem any_congr_mem {α : Type} (l : List α) (p q : α → Bool) (h : ∀ a ∈ l, p a = q a) : l.any p = l.any q := by
  induction l with
  | nil => rfl
  | cons a l ih =>
    rw [List.any_cons, List.any_cons, h a List.mem_cons_self, ih fun b hb => h b (List.mem_cons_of_mem _ hb)]

theorem sortByTime_congr (h h' : Heap ℝ) (l : List ℕ)
    (ht : ∀ r ∈ l, (h' r).ext.get "event_time" = (h r).ext.get "event_time") : sortByTime h' l = sortByTime h l := by
  have hb := byTime_congr h h' l fun r hr => by unfold Trace.getTime; rw [ht r hr]
  unfold byTime at hb
  unfold sortByTime
  have e1 : (l.any fun r => !(h' r).ext.has "event_time") = l.any fun r => !(h r).ext.has "event_time" :=
    any_congr_mem _ _ _ fun r hr => by unfold Dict.has; rw [ht r hr]
  have e2 : (l.any fun r => ((h' r).getTime "event_time").isNone) = l.any fun r => ((h r).getTime "event_time").isNone :=
    any_congr_mem _ _ _ fun r hr => by unfold Trace.getTime; rw [ht r hr]
  rw [e1, e2, hb]

theorem dataMatrix_congr (h h' : Heap ℝ) (l : List ℕ) (hd : ∀ r ∈ l, (h' r).data = (h r).data) :
    dataMatrix h' l = dataMatrix h l := by
  have e1 : (l.map fun r => (h' r).data) = l.map fun r => (h r).data := List.map_congr_left hd
  have e2 : (l.head?.map fun q => (h' q).data.length) = l.head?.map fun q => (h q).data.length := by
    cases l with
    | nil => rfl
    | cons q l => simp [hd q List.mem_cons_self]
  have e3 : (l.all fun r => decide ((h' r).data.length = (l.head?.map fun q => (h' q).data.length).getD 0)) =
      l.all fun r => decide ((h r).data.length = (l.head?.map fun q => (h q).data.length).getD 0) := by
    rw [e2, Bool.eq_iff_iff, List.all_eq_true, List.all_eq_true]
    exact forall₂_congr fun r hr => by rw [hd r hr]
  unfold dataMatrix
  rw [e3, e1]

theorem backAzimuths_turned (h h' : Heap ℝ) (d : ℝ) (l : List ℕ) (ht : ∀ r ∈ l, TurnedBy d (h r) (h' r)) :
    (∃ e, backAzimuths h l = .error e ∧ backAzimuths h' l = .error e) ∨
    ∃ baz baz', backAzimuths h l = .ok baz ∧ backAzimuths h' l = .ok baz' ∧
      List.Forall₂ (fun x y : ℝ => ∃ k : ℤ, y = x + d + 360 * k) baz baz' := by
  induction l with
  | nil => exact Or.inr ⟨[], [], rfl, rfl, .nil⟩
  | cons r l ih =>
    have hr := ht r List.mem_cons_self
    have ih := ih fun q hq => ht q (List.mem_cons_of_mem _ hq)
    unfold backAzimuths at ih ⊢
    rw [List.mapM_cons, List.mapM_cons]
    unfold TurnedBy at hr
    cases hg : (h r).ext.get "back_azimuth" with
    | none =>
      rw [hg] at hr
      simp only at hr
      rw [hr, hg]
      exact Or.inl ⟨_, rfl, rfl⟩
    | some val =>
      rw [hg] at hr
      cases val with
      | num x =>
        simp only at hr
        obtain ⟨k, hk⟩ := hr
        have hg' : (h' r).ext.get "back_azimuth" = some (.num (x + d + 360 * k)) := by
          rw [hk]
          exact Dict.get_set_self _ _ _
        rw [hg']
        rcases ih with ⟨e, h1, h2⟩ | ⟨baz, baz', h1, h2, h3⟩
        · rw [h1, h2]
          exact Or.inl ⟨e, rfl, rfl⟩
        · rw [h1, h2]
          exact Or.inr ⟨x :: baz, _ :: baz', rfl, rfl, .cons ⟨k, rfl⟩ h3⟩
      | _ =>
        simp only at hr
        rw [hr, hg]
        exact Or.inl ⟨_, rfl, rfl⟩

theorem jacobian_turned (a : HArgs) (d : ℝ) (two : Bool) (baz baz' : List ℝ)
    (hb : List.Forall₂ (fun x y : ℝ => ∃ k : ℤ, y = x + d + 360 * k) baz baz') :
    jacobian { a with azim := a.azim + d } two baz' = jacobian a two baz := by
  have key : ∀ row : ℝ → ℝ → List ℝ, (∀ (x : ℝ) (k : ℤ), row (a.azim + d) (x + d + 360 * k) = row a.azim x) →
      baz'.map (row (a.azim + d)) = baz.map (row a.azim) := by
    intro row hrow
    induction hb with
    | nil => rfl
    | cons hxy _ ih =>
      obtain ⟨k, rfl⟩ := hxy
      rw [List.map_cons, List.map_cons, hrow, ih]
  have k1 := key rowOne fun x k => by
    obtain ⟨t1, t2, t3, t4⟩ := trig_turn x a.azim d k
    unfold rowOne
    rw [t1, t2, t3, t4]
  have k2 := fun s0 : ℝ => key (rowR s0) fun x k => by
    obtain ⟨t1, t2, t3, t4⟩ := trig_turn x a.azim d k
    unfold rowR
    rw [t1, t2, t3, t4]
  have k3 := fun s1 : ℝ => key (rowT s1) fun x k => by
    obtain ⟨t1, t2, t3, t4⟩ := trig_turn x a.azim d k
    unfold rowT
    rw [t1, t2, t3, t4]
  unfold jacobian
  simp only
  rw [k1, k2, k3]

/-- C152.  Back azimuths matter only up to full turns, and only relative to the azimuth of the decomposition: if the
azimuth `azim` and all back azimuths are increased by the same angle and the back azimuths by any numbers of full
turns, `harmonics` returns the same traces or raises the same exception. -/
theorem C152_turns (E : LstsqEnv) (info : Str) (a : HArgs) (d : ℝ) (h h' : Heap ℝ) (s : List ℕ)
    (ht : ∀ r ∈ s, TurnedBy d (h r) (h' r)) :
    harmonics E info { a with azim := a.azim + d } h' s = harmonics E info a h s := by
  have hsel : ∀ c, selectLast h' s c = selectLast h s c := fun c =>
    List.filter_congr fun r hr => by rw [(ht r hr).fields.2.2.2.1]
  have hcheck : check h' s { a with azim := a.azim + d } = check h s a := by
    unfold check
    simp only [hsel]
  have hsort : ∀ c, sortByTime h' (selectLast h s c) = sortByTime h (selectLast h s c) := fun c =>
    sortByTime_congr h h' _ fun r hr => (ht r (List.mem_filter.1 hr).1).get _ (by decide)
  have hmem : ∀ c l, sortByTime h (selectLast h s c) = .ok l → ∀ r ∈ l, r ∈ s := fun c l hl r hr =>
    (List.mem_filter.1 ((sortByTime_perm h _ l hl).mem_iff.1 hr)).1
  have hdat : ∀ l : List ℕ, (∀ r ∈ l, r ∈ s) → dataMatrix h' l = dataMatrix h l := fun l hl =>
    dataMatrix_congr h h' l fun r hr => (ht r (hl r hr)).fields.2.2.2.2.2.2
  have htr : transverse h' s (decide (a.components.length = 2)) = transverse h s (decide (a.components.length = 2)) := by
    unfold transverse
    rw [hsel, hsort]
  have hbody : harmonicsBody E { a with azim := a.azim + d } h' s = harmonicsBody E a h s := by
    unfold harmonicsBody
    rw [hcheck]
    cases check h s a with
    | some e => rfl
    | none =>
      simp only [bind, Except.bind]
      rw [hsel, hsort, htr]
      cases hlr : sortByTime h (selectLast h s (a.components.headD ' ')) with
      | error e => rfl
      | ok lr =>
        simp only
        rcases backAzimuths_turned h h' d lr fun r hr => ht r (hmem _ lr hlr r hr) with
          ⟨e, h1, h2⟩ | ⟨baz, baz', h1, h2, h3⟩
        · rw [h1, h2]
        · rw [h1, h2]
          simp only
          rw [hdat lr (hmem _ lr hlr)]
          cases dataMatrix h lr with
          | error e => rfl
          | ok rowsR =>
            simp only
            cases hlt : transverse h s (decide (a.components.length = 2)) with
            | error e => rfl
            | ok lt =>
              simp only
              have hlts : ∀ r ∈ lt, r ∈ s := by
                unfold transverse at hlt
                split at hlt
                · exact hmem _ lt hlt
                · injection hlt with hlt
                  rw [← hlt]
                  simp
              rw [hdat lt hlts]
              cases dataMatrix h lt with
              | error e => rfl
              | ok rowsT =>
                simp only
                rw [jacobian_turned a d _ baz baz' h3]
                split
                · rfl
                · cases jacobian a (decide (a.components.length = 2)) baz with
                  | error e => rfl
                  | ok jac =>
                    simp only
                    cases hf : s.head? with
                    | none => rfl
                    | some f =>
                      simp only
                      have htf := ht f (List.mem_of_head? hf)
                      have hn : (h' f).npts = (h f).npts := by
                        unfold Trace.npts
                        rw [htf.fields.2.2.2.2.2.2]
                      have ho : ∀ hd, harmOut (h' f) a.components (decide (a.components.length = 2)) hd =
                          harmOut (h f) a.components (decide (a.components.length = 2)) hd := fun hd => by
                        unfold harmOut
                        rw [htf.clean]
                      rw [hn]
                      cases decompose E (decide (a.method = "freq".toList)) jac rowsR rowsT (h f).npts
                        (5 * a.components.length) with
                      | error e => rfl
                      | ok hd => exact congrArg Except.ok (ho hd)
  unfold harmonics
  rw [hbody]

/-! ### Order of the traces -/

theorem byTime_order (h : Heap ℝ) (l l' : List ℕ) (hp : l'.Perm l)
    (ht : ∀ r ∈ l, ∃ t, (h r).getTime "event_time" = some t)
    (hd : l.Pairwise fun r q => (h r).getTime "event_time" ≠ (h q).getTime "event_time") : byTime h l' = byTime h l := by
  have hn := keys_nodup h l ht hd
  have hperm : (byTime h l').Perm (byTime h l) := (byTime_perm h l').trans (hp.trans (byTime_perm h l).symm)
  have h1 := byTime_sorted h l
  have h2 := byTime_sorted h l'
  rw [List.pairwise_map] at h1 h2
  refine List.Perm.eq_of_pairwise (le := fun a b => timeKey h a ≤ timeKey h b) ?_ h2 h1 hperm
  intro a b ha hb hab hba
  exact List.inj_on_of_nodup_map hn ((byTime_mem h l a).1 (hperm.mem_iff.1 ha)) ((byTime_mem h l b).1 hb)
    (le_antisymm hab hba)

theorem sortByTime_order (h : Heap ℝ) (l l' : List ℕ) (hp : l'.Perm l)
    (hd : l.Pairwise fun r q => (h r).getTime "event_time" ≠ (h q).getTime "event_time") :
    sortByTime h l' = sortByTime h l := by
  unfold sortByTime
  have hany : ∀ p : ℕ → Bool, l'.any p = l.any p := fun p => hp.any_eq
  rw [hany, hany]
  split
  · rfl
  · split
    · rfl
    · rename_i h2
      have ht : ∀ r ∈ l, ∃ t, (h r).getTime "event_time" = some t := by
        intro r hr
        rw [Bool.not_eq_true, List.any_eq_false] at h2
        have := h2 r hr
        rw [Option.isNone_iff_eq_none] at this
        exact Option.ne_none_iff_exists'.1 this
      exact congrArg Except.ok (byTime_order h l l' hp ht hd)

theorem selectLast_perm (h : Heap ℝ) (s s' : List ℕ) (hp : s'.Perm s) (c : Char) :
    (selectLast h s' c).Perm (selectLast h s c) := hp.filter _

theorem body_order (E : LstsqEnv) (a : HArgs) (h : Heap ℝ) (s s' : List ℕ) (hp : s'.Perm s)
    (hdist : ∀ c ∈ a.components,
      (ofComponent h s c).Pairwise fun r q => (h r).getTime "event_time" ≠ (h q).getTime "event_time")
    (hn : ∀ f f', s.head? = some f → s'.head? = some f' → (h f').npts = (h f).npts) :
    (∃ e, harmonicsBody E a h s = .error e ∧ harmonicsBody E a h s' = .error e) ∨
    ∃ f f' two hd, s.head? = some f ∧ s'.head? = some f' ∧
      harmonicsBody E a h s = .ok (harmOut (h f) a.components two hd) ∧
      harmonicsBody E a h s' = .ok (harmOut (h f') a.components two hd) := by
  have hemp : ∀ c, (selectLast h s' c).isEmpty = (selectLast h s c).isEmpty := fun c =>
    (selectLast_perm h s s' hp c).isEmpty_eq
  have hcheck : check h s' a = check h s a := by
    unfold check
    simp only [hemp]
  unfold harmonicsBody
  rw [hcheck]
  cases hc : check h s a with
  | some e => exact Or.inl ⟨e, rfl, rfl⟩
  | none =>
    have hsup : a.components ∈ supported := by
      by_contra hx
      unfold check at hc
      rw [if_pos hx] at hc
      cases hc
    have hT : a.components.headD ' ' ∈ a.components ∧ (a.components.length = 2 → 'T' ∈ a.components) := by
      unfold supported at hsup
      simp only [List.mem_cons, List.not_mem_nil, or_false] at hsup
      rcases hsup with hs | hs | hs | hs | hs <;> rw [hs] <;> decide
    have hsort : ∀ c ∈ a.components, sortByTime h (selectLast h s' c) = sortByTime h (selectLast h s c) := fun c hcm =>
      sortByTime_order h _ _ (selectLast_perm h s s' hp c) (hdist c hcm)
    have htr : transverse h s' (decide (a.components.length = 2)) =
        transverse h s (decide (a.components.length = 2)) := by
      unfold transverse
      split
      · rename_i h2
        exact hsort _ (hT.2 (of_decide_eq_true h2))
      · rfl
    simp only [bind, Except.bind]
    rw [hsort _ hT.1, htr]
    cases sortByTime h (selectLast h s (a.components.headD ' ')) with
    | error e => exact Or.inl ⟨e, rfl, rfl⟩
    | ok lr =>
      simp only
      cases backAzimuths h lr with
      | error e => exact Or.inl ⟨e, rfl, rfl⟩
      | ok baz =>
        simp only
        cases dataMatrix h lr with
        | error e => exact Or.inl ⟨e, rfl, rfl⟩
        | ok rowsR =>
          simp only
          cases transverse h s (decide (a.components.length = 2)) with
          | error e => exact Or.inl ⟨e, rfl, rfl⟩
          | ok lt =>
            simp only
            cases dataMatrix h lt with
            | error e => exact Or.inl ⟨e, rfl, rfl⟩
            | ok rowsT =>
              simp only
              split
              · exact Or.inl ⟨_, rfl, rfl⟩
              · cases jacobian a (decide (a.components.length = 2)) baz with
                | error e => exact Or.inl ⟨e, rfl, rfl⟩
                | ok jac =>
                  simp only
                  cases hf : s.head? with
                  | none =>
                    have : s' = [] := by
                      rw [List.head?_eq_none_iff] at hf
                      rw [hf] at hp
                      exact hp.eq_nil
                    rw [this]
                    exact Or.inl ⟨_, rfl, rfl⟩
                  | some f =>
                    cases hf' : s'.head? with
                    | none =>
                      rw [List.head?_eq_none_iff] at hf'
                      rw [hf'] at hp
                      rw [hp.symm.eq_nil] at hf
                      cases hf
                    | some f' =>
                      simp only
                      rw [hn f f' hf hf']
                      cases decompose E (decide (a.method = "freq".toList)) jac rowsR rowsT (h f).npts
                        (5 * a.components.length) with
                      | error e => exact Or.inl ⟨e, rfl, rfl⟩
                      | ok hd => exact Or.inr ⟨f, f', _, hd, rfl, rfl, rfl, rfl⟩

/-- C152.  The order of the traces in the stream does not matter: with distinct event times within each component the
samples (or the exception) are the same for every order with a first trace of the same length. -/
theorem C152_order (E : LstsqEnv) (info : Str) (a : HArgs) (h : Heap ℝ) (s s' : List ℕ) (hp : s'.Perm s)
    (hdist : ∀ c ∈ a.components,
      (ofComponent h s c).Pairwise fun r q => (h r).getTime "event_time" ≠ (h q).getTime "event_time")
    (hn : ∀ f f', s.head? = some f → s'.head? = some f' → (h f').npts = (h f).npts) :
    (harmonics E info a h s').map (List.map fun t => t.data) = (harmonics E info a h s).map (List.map fun t => t.data) ∧
    (s'.head? = s.head? → harmonics E info a h s' = harmonics E info a h s) := by
  rcases body_order E a h s s' hp hdist hn with ⟨e, h1, h2⟩ | ⟨f, f', two, hd, hf, hf', h1, h2⟩
  · have : harmonics E info a h s' = harmonics E info a h s := by
      unfold harmonics
      rw [h1, h2]
    exact ⟨by rw [this], fun _ => this⟩
  · refine ⟨?_, fun he => ?_⟩
    · obtain ⟨o1, ho1, hd1⟩ := harmonics_data E info a h s _ _ _ _ h1
      obtain ⟨o2, ho2, hd2⟩ := harmonics_data E info a h s' _ _ _ _ h2
      rw [ho1, ho2]
      exact congrArg Except.ok (hd2.trans hd1.symm)
    · rw [hf, hf'] at he
      injection he with he
      subst he
      unfold harmonics
      rw [h1, h2]

theorem sum_map_range_getD (L : List ℕ) (f : ℕ → ℝ) : ∑ i ∈ range L.length, f (L.getD i 0) = (L.map f).sum := by
  induction L with
  | nil => rfl
  | cons r L ih =>
    rw [List.length_cons, Finset.sum_range_succ', List.map_cons, List.sum_cons, ← ih, add_comm]
    rfl

/-- The residual as a sum over the traces. -/
theorem residual_list (L : List ℕ) (row : ℕ → List ℝ) (val : ℕ → ℝ) (n : ℕ) (y : ℕ → ℝ) :
    sumSq (L.map row).length (fun i => mulVec n (entry (L.map row)) y i - (L.map val).getD i 0) =
      (L.map fun r => ‖(∑ j ∈ range n, (row r).getD j 0 * y j) - val r‖ ^ 2).sum := by
  unfold sumSq
  rw [List.length_map, ← sum_map_range_getD L]
  refine sum_congr rfl fun i hi => ?_
  have hi := mem_range.1 hi
  beta_reduce
  rw [mulVec_of_row n (entry (L.map row)) (row (L.getD i 0)) i (fun j => entry_map _ _ i j 0 hi) y,
    List.getD_eq_getElem (L.map val) _ (by simpa using hi), List.getElem_map, List.getD_eq_getElem L _ hi]

theorem minNorm_perm (L L' : List ℕ) (hp : L'.Perm L) (row : ℕ → List ℝ) (val : ℕ → ℝ) (n : ℕ) (x : ℕ → ℝ)
    (hx : MinNormLS (L.map row).length n (entry (L.map row)) ((L.map val).getD · 0) x) :
    MinNormLS (L'.map row).length n (entry (L'.map row)) ((L'.map val).getD · 0) x := by
  have key : ∀ y : ℕ → ℝ, sumSq (L'.map row).length (fun i => mulVec n (entry (L'.map row)) y i - (L'.map val).getD i 0) =
      sumSq (L.map row).length (fun i => mulVec n (entry (L.map row)) y i - (L.map val).getD i 0) := fun y => by
    rw [residual_list, residual_list]
    exact (hp.map _).sum_eq
  refine ⟨fun y => ?_, fun y hy => hx.minimal y ?_⟩
  · rw [key, key]
    exact hx.least y
  · rwa [key, key] at hy

/-- C152, one component: here the event times need not be distinct. -/
theorem C152_order_one (E : LstsqEnv) (hE : LstsqOk E) (info : Str) (a : HArgs) (h : Heap ℝ) (s s' : List ℕ)
    (c : Char) (B : ℕ → ℝ) (N : ℕ) (hp : s'.Perm s)
    (hcomp : a.components = [c]) (hc : c = 'R' ∨ c = 'Q' ∨ c = 'T') (hsc : a.scalars = none)
    (hm : a.method = "time".toList ∨ a.method = "freq".toList ∧ 0 < N)
    (hu : Usable h s (ofComponent h s c) B N) (hn : ∀ f, s'.head? = some f → (h f).npts = N) :
    ∃ out out', harmonics E info a h s = .ok out ∧ harmonics E info a h s' = .ok out' ∧
      out'.map (fun t => t.data) = out.map fun t => t.data := by
  have hpc : (ofComponent h s' c).Perm (ofComponent h s c) := hp.filter _
  have hu' : Usable h s' (ofComponent h s' c) B N := by
    refine ⟨fun he => ?_, fun r hr => hu.time r (hpc.mem_iff.1 hr), fun r hr => hu.baz r (hpc.mem_iff.1 hr),
      fun r hr => hu.npts r (hpc.mem_iff.1 hr), ?_⟩
    · rw [he] at hpc
      exact hu.nonempty hpc.symm.eq_nil
    · cases hf' : s'.head? with
      | none =>
        obtain ⟨f, hf, -⟩ := hu.first
        rw [List.head?_eq_none_iff] at hf'
        rw [hf'] at hp
        rw [hp.symm.eq_nil] at hf
        cases hf
      | some f' => exact ⟨f', rfl, hn f' hf'⟩
  obtain ⟨f, -, hb⟩ := body_one E hE a h s c B N hcomp hc hsc hm hu
  obtain ⟨f', -, hb'⟩ := body_one E hE a h s' c B N hcomp hc hsc hm hu'
  obtain ⟨out, ho, hd⟩ := harmonics_data E info a h s _ _ _ _ hb
  obtain ⟨out', ho', hd'⟩ := harmonics_data E info a h s' _ _ _ _ hb'
  refine ⟨out, out', ho, ho', ?_⟩
  rw [hd, hd']
  refine List.map_congr_left fun k hk => List.map_congr_left fun i _ => ?_
  rw [List.mem_range] at hk
  have hpt : (byTime h (ofComponent h s' c)).Perm (byTime h (ofComponent h s c)) :=
    (byTime_perm h _).trans (hpc.trans (byTime_perm h _).symm)
  have hne : ∀ l : List ℕ, l ≠ [] → byTime h l ≠ [] := fun l hl he => by
    have := (byTime_perm h l).length_eq
    rw [he] at this
    exact hl (List.length_eq_zero_iff.1 this.symm)
  have hrow : ∀ l : List ℕ, ∀ r ∈ l.map fun r => rowOne a.azim (B r), r.length = 5 := by
    intro l r hr
    obtain ⟨q, -, rfl⟩ := List.mem_map.1 hr
    rfl
  have h1 := (hE.real 5 ((byTime h (ofComponent h s c)).map fun r => rowOne a.azim (B r))
    ((byTime h (ofComponent h s c)).map fun r => (h r).data.getD i 0) (by simpa using hne _ hu.nonempty) (hrow _)
    (by simp)).2
  have h2 := (hE.real 5 ((byTime h (ofComponent h s' c)).map fun r => rowOne a.azim (B r))
    ((byTime h (ofComponent h s' c)).map fun r => (h r).data.getD i 0) (by simpa using hne _ hu'.nonempty) (hrow _)
    (by simp)).2
  exact minNorm_unique h2 (minNorm_perm _ _ hpt _ _ 5 _ h1) k hk

/-! ### Examples -/

/-- Three times the samples of `hqHeap`, as `1 x + 2 x`. -/
noncomputable def hqTriple : Heap ℝ := fun r =>
  { hqHeap r with data := List.zipWith (fun p q => 1 * p + 2 * q) (hqHeap r).data (hqHeap r).data }

example : Superposed 1 2 hqHeap hqHeap hqTriple hqStream :=
  ⟨fun _ _ => ⟨rfl, rfl⟩, fun _ _ => ⟨rfl, rfl⟩, fun _ _ => rfl, fun _ _ => rfl⟩

example : ∃ ox oz : List (Trace ℝ), harmonics someLstsq [] hpArgs hqHeap hqStream = .ok ox ∧
    harmonics someLstsq [] hpArgs hqTriple hqStream = .ok oz ∧ oz.map (fun t => t.data) =
      List.zipWith (List.zipWith fun p q => 1 * p + 2 * q) (ox.map fun t => t.data) (ox.map fun t => t.data) := by
  obtain ⟨ox, oy, oz, h1, h2, h3, -, -, h4⟩ := C151_two_components someLstsq someLstsq_ok [] hpArgs 1 2 hqHeap hqHeap
    hqTriple hqStream 'R' _ _ 2 rfl (Or.inl rfl) (Or.inl rfl) (hqUsable _ (by rw [hqR]; simp))
    (hqUsable _ (by rw [hqT]; simp)) (by rw [hqR, hqT]; rfl)
    ⟨fun _ _ => ⟨rfl, rfl⟩, fun _ _ => ⟨rfl, rfl⟩, fun _ _ => rfl, fun _ _ => rfl⟩
  rw [h1] at h2
  injection h2 with h2
  subst h2
  exact ⟨ox, oz, h1, h3, h4⟩

/-- Back azimuths of the transverse traces one turn later, all rotated by 30 degrees. -/
noncomputable def hqTurned : Heap ℝ := fun r =>
  (hqHeap r).put "back_azimuth" (.num (hpBaz (hqEvent r) + 30 + 360 * ((if r ≤ 5 then 0 else 1 : ℤ) : ℝ)))

example : harmonics someLstsq [] { hpArgs with azim := hpArgs.azim + 30 } hqTurned hqStream =
    harmonics someLstsq [] hpArgs hqHeap hqStream :=
  C152_turns someLstsq [] hpArgs 30 hqHeap hqTurned hqStream fun _ _ => ⟨_, rfl⟩

example : harmonics someLstsq [] hpArgs hqHeap [10, 1, 2, 3, 4, 5, 9, 8, 7, 6] =
    harmonics someLstsq [] hpArgs hqHeap hqStream := by
  refine (C152_order someLstsq [] hpArgs hqHeap hqStream [10, 1, 2, 3, 4, 5, 9, 8, 7, 6] (by decide) ?_
    (fun _ _ _ _ => rfl)).2 rfl
  intro c hc
  have hc : c ∈ ['R', 'T'] := hc
  simp only [List.mem_cons, List.not_mem_nil, or_false] at hc
  rcases hc with rfl | rfl
  · exact hqPaired.distinct
  · exact hqPaired.distinctT

end Verif.Props
