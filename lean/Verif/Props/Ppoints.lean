import Verif.Model.Ppoints
import Verif.Props.Ppoint
import Verif.Props.StreamOps
import Verif.Props.IterativeProps
import Verif.Props.MoveoutStream

/-!
# Piercing points of streams (C112, C113, C114)
-/

set_option linter.unusedSimpArgs false
set_option linter.unusedSectionVars false

namespace Verif.Props
open Verif.Py Verif.Model Verif.Model.Ppoints Verif.Spec

section pp
variable {K : Type} [Field K] [LinearOrder K] [FloorRing K] (sqrt : K → K)

/-- The header entries written by `ppoints`. -/
def ppEntries : List String := ["pp_depth", "pp_latitude", "pp_longitude"]

/-- Two states of a trace differ at most in the entries for the piercing point. -/
def SameButPp (t t' : Trace K) : Prop :=
  t'.net = t.net ∧ t'.sta = t.sta ∧ t'.loc = t.loc ∧ t'.cha = t.cha ∧ t'.start = t.start ∧ t'.sr = t.sr ∧
    t'.data = t.data ∧ ∀ k ∉ ppEntries, t'.ext.get k = t.ext.get k

theorem SameButPp.refl (t : Trace K) : SameButPp t t := ⟨rfl, rfl, rfl, rfl, rfl, rfl, rfl, fun _ _ => rfl⟩

theorem SameButPp.trans {t u v : Trace K} (h : SameButPp t u) (h' : SameButPp u v) : SameButPp t v := by
  obtain ⟨a1, a2, a3, a4, a5, a6, a7, a8⟩ := h
  obtain ⟨b1, b2, b3, b4, b5, b6, b7, b8⟩ := h'
  exact ⟨b1.trans a1, b2.trans a2, b3.trans a3, b4.trans a4, b5.trans a5, b6.trans a6, b7.trans a7,
    fun k hk => (b8 k hk).trans (a8 k hk)⟩

theorem keyNum_congr (d d' : Dict (Val K)) (k : String) (h : d'.get k = d.get k) : keyNum d' k = keyNum d k := by
  unfold keyNum; rw [h]

theorem coords_congr (geo : Geodesic K) (m : Simple.SimpleModel K) (depth : K) (p : Str) {t t' : Trace K}
    (h : SameButPp t t') : ppointCoords sqrt geo m depth p t'.ext = ppointCoords sqrt geo m depth p t.ext := by
  obtain ⟨-, -, -, -, -, -, -, hk⟩ := h
  unfold ppointCoords
  rw [keyNum_congr _ _ "slowness" (hk _ (by decide)), keyNum_congr _ _ "station_latitude" (hk _ (by decide)),
    keyNum_congr _ _ "station_longitude" (hk _ (by decide)), keyNum_congr _ _ "back_azimuth" (hk _ (by decide))]

/-- The trace carries the piercing point `q` at the depth. -/
def HasPp (t : Trace K) (depth : K) (q : K × K) : Prop :=
  t.ext.get "pp_depth" = some (.num depth) ∧ t.ext.get "pp_latitude" = some (.num q.1) ∧
    t.ext.get "pp_longitude" = some (.num q.2)

theorem ppoint_ok (geo : Geodesic K) (m : Simple.SimpleModel K) (depth : K) (p : Str) (t t' : Trace K)
    (h : ppoint sqrt geo m depth p t = .ok t') :
    ∃ q, ppointCoords sqrt geo m depth p t.ext = .ok q ∧ SameButPp t t' ∧ HasPp t' depth q := by
  unfold ppoint at h
  cases hc : ppointCoords sqrt geo m depth p t.ext with
  | error e => rw [hc] at h; simp at h
  | ok q =>
    rw [hc] at h
    simp only [Except.ok.injEq] at h
    subst h
    refine ⟨q, rfl, ⟨rfl, rfl, rfl, rfl, rfl, rfl, rfl, fun k hk => ?_⟩, ?_, ?_, ?_⟩
    · simp only [ppEntries, List.mem_cons, List.not_mem_nil, or_false, not_or] at hk
      simp only [Trace.put]
      rw [Dict.get_set_ne _ _ hk.2.2, Dict.get_set_ne _ _ hk.2.1, Dict.get_set_ne _ _ hk.1]
    · simp only [Trace.put]
      rw [Dict.get_set_ne _ _ (by decide), Dict.get_set_ne _ _ (by decide), Dict.get_set_self]
    · simp only [Trace.put]
      rw [Dict.get_set_ne _ _ (by decide), Dict.get_set_self]
    · simp only [Trace.put]
      rw [Dict.get_set_self]

/-- The loop over the traces: on success every trace has its point, on failure the traces before the failing
one. -/
theorem ppLoop (geo : Geodesic K) (m : Simple.SimpleModel K) (depth : K) (p : Str) (h : Heap K) (s : List Nat) :
    (∀ r, SameButPp (h r) ((Heap.forEachE (ppoint sqrt geo m depth p) h s).1 r)) ∧
    (∀ r ∉ s, (Heap.forEachE (ppoint sqrt geo m depth p) h s).1 r = h r) ∧
    ((Heap.forEachE (ppoint sqrt geo m depth p) h s).2 = none → ∀ r ∈ s, ∃ q,
      ppointCoords sqrt geo m depth p (h r).ext = .ok q ∧
      HasPp ((Heap.forEachE (ppoint sqrt geo m depth p) h s).1 r) depth q) ∧
    (∀ e, (Heap.forEachE (ppoint sqrt geo m depth p) h s).2 = some e → ∃ s1 r s2, s = s1 ++ r :: s2 ∧
      ppointCoords sqrt geo m depth p (h r).ext = .error e ∧
      (∀ x ∈ s1, ∃ q, ppointCoords sqrt geo m depth p (h x).ext = .ok q ∧
        HasPp ((Heap.forEachE (ppoint sqrt geo m depth p) h s).1 x) depth q) ∧
      ∀ x ∉ s1, (Heap.forEachE (ppoint sqrt geo m depth p) h s).1 x = h x) := by
  induction s generalizing h with
  | nil =>
    refine ⟨fun r => SameButPp.refl _, fun r _ => rfl, fun _ r hr => by simp at hr, fun e he => ?_⟩
    simp [Heap.forEachE] at he
  | cons a s ih =>
    cases ha : ppoint sqrt geo m depth p (h a) with
    | error e =>
      simp only [Heap.forEachE, ha]
      have hce : ppointCoords sqrt geo m depth p (h a).ext = .error e := by
        unfold ppoint at ha
        cases hc : ppointCoords sqrt geo m depth p (h a).ext with
        | error e' => rw [hc] at ha; simpa using ha
        | ok q => rw [hc] at ha; simp at ha
      refine ⟨fun r => SameButPp.refl _, fun r _ => trivial, fun hh => by simp at hh, fun e' he' => ?_⟩
      simp only [Option.some.injEq] at he'
      subst he'
      exact ⟨[], a, s, rfl, hce, fun x hx => by simp at hx, fun x _ => trivial⟩
    | ok t1 =>
      obtain ⟨q, hq, hsame, hpp⟩ := ppoint_ok sqrt geo m depth p _ _ ha
      obtain ⟨i1, i2, i3, i4⟩ := ih (Heap.set h a t1)
      simp only [Heap.forEachE, ha]
      have hstep : ∀ r, SameButPp (h r) (Heap.set h a t1 r) := by
        intro r
        by_cases hr : r = a
        · subst hr; rw [Heap.set_self]; exact hsame
        · rw [Heap.set_ne _ _ hr]; exact SameButPp.refl _
      refine ⟨fun r => (hstep r).trans (i1 r), fun r hr => ?_, fun hnone r hr => ?_, fun e he => ?_⟩
      · simp only [List.mem_cons, not_or] at hr
        rw [i2 r hr.2, Heap.set_ne _ _ hr.1]
      · by_cases hrs : r ∈ s
        · obtain ⟨q', hq', hp'⟩ := i3 hnone r hrs
          exact ⟨q', by rw [← hq', coords_congr sqrt geo m depth p (hstep r)], hp'⟩
        · have : r = a := (List.mem_cons.1 hr).resolve_right hrs
          subst this
          exact ⟨q, hq, by rw [i2 r hrs, Heap.set_self]; exact hpp⟩
      · obtain ⟨s1, r, s2, hs, hr, hx, hx'⟩ := i4 e he
        refine ⟨a :: s1, r, s2, by rw [hs]; rfl, ?_, fun x hxm => ?_, fun x hxm => ?_⟩
        · rw [← hr, coords_congr sqrt geo m depth p (hstep r)]
        · by_cases hxs : x ∈ s1
          · obtain ⟨q', hq', hp'⟩ := hx x hxs
            exact ⟨q', by rw [← hq', coords_congr sqrt geo m depth p (hstep x)], hp'⟩
          · have : x = a := (List.mem_cons.1 hxm).resolve_right hxs
            subst this
            exact ⟨q, hq, by rw [hx' x hxs, Heap.set_self]; exact hpp⟩
        · simp only [List.mem_cons, not_or] at hxm
          rw [hx' x hxm.2, Heap.set_ne _ _ hxm.1]

/-- The piercing point of a trace, from its header entries: the point `dr` km away from the station in the
direction of the back azimuth, `dr` being the horizontal distance for the slowness of the trace. -/
def PiercingPoint (geo : Geodesic K) (dist : K → Res (Option K)) (t : Trace K) (q : K × K) : Prop :=
  ∃ slow lat lon baz dr, t.ext.get "slowness" = some (.num slow) ∧
    t.ext.get "station_latitude" = some (.num lat) ∧ t.ext.get "station_longitude" = some (.num lon) ∧
    t.ext.get "back_azimuth" = some (.num baz) ∧ dist slow = .ok (some dr) ∧ q = geo lat lon baz (1000 * dr)

theorem keyNum_ok (d : Dict (Val K)) (k : String) (x : K) : keyNum d k = .ok x ↔ d.get k = some (.num x) := by
  unfold keyNum
  cases h : d.get k with
  | none => simp
  | some v => cases v <;> simp

theorem coords_ok (geo : Geodesic K) (m : Simple.SimpleModel K) (depth : K) (p : Str) (t : Trace K) (q : K × K) :
    ppointCoords sqrt geo m depth p t.ext = .ok q ↔
      PiercingPoint geo (fun s => Simple.ppointDistance sqrt m depth s p) t q := by
  constructor
  · intro h
    unfold ppointCoords at h
    cases h1 : keyNum t.ext "slowness" with
    | error e => simp [h1] at h
    | ok slow =>
      simp only [h1] at h
      cases h2 : Simple.ppointDistance sqrt m depth slow p with
      | error e => simp [h2] at h
      | ok o =>
        cases o with
        | none => simp [h2] at h
        | some dr =>
          simp only [h2] at h
          cases h3 : keyNum t.ext "station_latitude" with
          | error e => simp [h3] at h
          | ok lat =>
            simp only [h3] at h
            cases h4 : keyNum t.ext "station_longitude" with
            | error e => simp [h4] at h
            | ok lon =>
              simp only [h4] at h
              cases h5 : keyNum t.ext "back_azimuth" with
              | error e => simp [h5] at h
              | ok baz =>
                simp only [h5, Except.ok.injEq] at h
                exact ⟨slow, lat, lon, baz, dr, (keyNum_ok _ _ _).1 h1, (keyNum_ok _ _ _).1 h3,
                  (keyNum_ok _ _ _).1 h4, (keyNum_ok _ _ _).1 h5, h2, by
                    rw [← h, directGeodetic, mul_comm]⟩
  · rintro ⟨slow, lat, lon, baz, dr, h1, h2, h3, h4, h5, rfl⟩
    unfold ppointCoords
    simp only [(keyNum_ok _ _ _).2 h1, h5, (keyNum_ok _ _ _).2 h2, (keyNum_ok _ _ _).2 h3, (keyNum_ok _ _ _).2 h4,
      directGeodetic, mul_comm]

/-- **C112 (partial).** A successful call returns, in the order of the stream, for every trace the point at the
piercing distance from the station in the direction of the back azimuth; it is stored in `pp_latitude` and
`pp_longitude` together with the depth in `pp_depth`, nothing else is changed.  Traces may occur several times.
(The documentation names the entries `plat` and `plon`, see `C112_counterexample`.) -/
theorem C112_points_partial (geo : Geodesic K) (pkg : Str) (loadtxt : Str → Res (Table K)) (depth : K)
    (phase : Option Str) (model : Str) (c c' : Models K) (st : SState K) (h' : Heap K) (pts : List (K × K))
    (hok : ppoints sqrt geo pkg loadtxt depth phase model c st = (c', h', .ok pts)) :
    ∃ p m, ppPhase st.1 st.2 phase = .ok p ∧ loadModel pkg loadtxt c model = (c', .ok m) ∧
      pts.length = st.2.length ∧
      (∀ (i : Nat) (r : Nat), st.2[i]? = some r → ∃ q, pts[i]? = some q ∧
        PiercingPoint geo (fun s => Simple.ppointDistance sqrt m depth s p) (st.1 r) q ∧ HasPp (h' r) depth q) ∧
      (∀ r, SameButPp (st.1 r) (h' r)) ∧ ∀ r ∉ st.2, h' r = st.1 r := by
  unfold ppoints at hok
  cases hp : ppPhase st.1 st.2 phase with
  | error e => simp [hp] at hok
  | ok p =>
    simp only [hp] at hok
    cases hm : loadModel pkg loadtxt c model with
    | mk c1 res =>
      cases res with
      | error e => simp [hm] at hok
      | ok m =>
        simp only [hm] at hok
        obtain ⟨l1, l2, l3, -⟩ := ppLoop sqrt geo m depth p st.1 st.2
        cases hl : Heap.forEachE (ppoint sqrt geo m depth p) st.1 st.2 with
        | mk h1 e1 =>
          rw [hl] at hok l1 l2 l3
          cases e1 with
          | some e => simp at hok
          | none =>
            simp only [Prod.mk.injEq] at hok
            obtain ⟨rfl, rfl, hpts⟩ := hok
            obtain ⟨n1, n2⟩ := mapM_ok _ _ _ hpts
            refine ⟨p, m, rfl, rfl, n1, fun i r hr => ?_, l1, l2⟩
            obtain ⟨q, hq, hpp⟩ := l3 rfl r (List.mem_of_getElem? hr)
            obtain ⟨y, hy, hyi⟩ := n2 i r hr
            refine ⟨y, hyi, ?_⟩
            have : y = q := by
              obtain ⟨-, a2, a3⟩ := hpp
              simp only [ppPair, Trace.getNum, a2, a3, Except.ok.injEq] at hy
              exact hy.symm
            subst this
            exact ⟨(coords_ok sqrt geo m depth p _ _).1 hq, hpp⟩

/-- **C112, default phase.** S for P receiver functions, P for S receiver functions (according to the last letter
of the phase all traces have in common); otherwise `KeyError`. -/
theorem C112_default_phase (h : Heap K) (s : List Nat) :
    (∀ (p : Str) (c : Char), CommonEntry h s "phase" (.str (p ++ [c])) →
      (c.toUpper = 'P' → ppPhase h s none = .ok "S".toList) ∧
      (c.toUpper = 'S' → ppPhase h s none = .ok "P".toList) ∧
      (c.toUpper ≠ 'P' → c.toUpper ≠ 'S' → ppPhase h s none = .error .keyError)) ∧
    ((¬ ∃ v, CommonEntry h s "phase" v) → ppPhase h s none = .error .keyError) ∧
    (∀ p, ppPhase h s (some p) = .ok p) := by
  refine ⟨fun p c hc => ?_, fun hno => ?_, fun p => rfl⟩
  · have hm : streamMethod h s = .ok (some [c.toUpper]) := by
      unfold streamMethod
      rw [(uniqueHeader_eq_some h s "phase" _).2 hc]
      simp [upper]
    unfold ppPhase
    simp only [hm]
    refine ⟨fun e => ?_, fun e => ?_, fun e1 e2 => ?_⟩
    · rw [e]; rfl
    · rw [e]; rfl
    · rw [if_neg, if_neg]
      · intro hh
        have : [c.toUpper] = ['S'] := hh
        simp only [List.cons.injEq, and_true] at this
        exact e2 this
      · intro hh
        have : [c.toUpper] = ['P'] := hh
        simp only [List.cons.injEq, and_true] at this
        exact e1 this
  · unfold ppPhase streamMethod
    simp only [(uniqueHeader_eq_none h s "phase").2 hno]

/-- **C113 (partial).** What a failing call leaves behind: the traces before the first one whose point cannot be
calculated have their points, all others are as before. -/
theorem C113_failure_partial (geo : Geodesic K) (pkg : Str) (loadtxt : Str → Res (Table K)) (depth : K)
    (phase : Option Str) (model : Str) (c c' : Models K) (st : SState K) (h' : Heap K) (e : PyErr)
    (p : Str) (m : Simple.SimpleModel K) (hp : ppPhase st.1 st.2 phase = .ok p)
    (hm : (loadModel pkg loadtxt c model).2 = .ok m)
    (herr : ppoints sqrt geo pkg loadtxt depth phase model c st = (c', h', .error e)) :
    ∃ s1 r s2, st.2 = s1 ++ r :: s2 ∧
      (∀ q, ¬ PiercingPoint geo (fun s => Simple.ppointDistance sqrt m depth s p) (st.1 r) q) ∧
      (∀ x ∈ s1, ∃ q, PiercingPoint geo (fun s => Simple.ppointDistance sqrt m depth s p) (st.1 x) q ∧
        HasPp (h' x) depth q ∧ SameButPp (st.1 x) (h' x)) ∧
      ∀ x ∉ s1, h' x = st.1 x := by
  unfold ppoints at herr
  simp only [hp] at herr
  cases hl0 : loadModel pkg loadtxt c model with
  | mk c1 res =>
    rw [hl0] at hm herr
    simp only at hm
    subst hm
    simp only at herr
    obtain ⟨l1, l2, l3, l4⟩ := ppLoop sqrt geo m depth p st.1 st.2
    cases hl : Heap.forEachE (ppoint sqrt geo m depth p) st.1 st.2 with
    | mk h1 e1 =>
      rw [hl] at herr l1 l2 l3 l4
      cases e1 with
      | some e' =>
        simp only [Prod.mk.injEq, Except.error.injEq] at herr
        obtain ⟨rfl, rfl, rfl⟩ := herr
        obtain ⟨s1, r, s2, hs, hr, hx, hx'⟩ := l4 _ rfl
        refine ⟨s1, r, s2, hs, fun q hq => ?_, fun x hxm => ?_, hx'⟩
        · rw [(coords_ok sqrt geo m depth p _ _).2 hq] at hr; simp at hr
        · obtain ⟨q, hq, hpp⟩ := hx x hxm
          exact ⟨q, (coords_ok sqrt geo m depth p _ _).1 hq, hpp, l1 x⟩
      | none =>
        exfalso
        simp only [Prod.mk.injEq] at herr
        obtain ⟨y, hy⟩ := mapM_total (fun r => ppPair (h1 r)) st.2 (fun r hr => by
          obtain ⟨q, -, -, a2, a3⟩ := l3 rfl r hr
          exact ⟨q, by simp only [ppPair, Trace.getNum, a2, a3]⟩)
        rw [hy] at herr
        simp at herr

variable [IsStrictOrderedRing K]

/-- **C113, success.** With the four header entries in all traces, a depth inside the model and rays that are not
evanescent in any layer the call succeeds. -/
theorem C113_success (hs : SqrtStrict sqrt) (geo : Geodesic K) (pkg : Str) (loadtxt : Str → Res (Table K))
    (depth : K) (phase : Option Str) (model : Str) (c : Models K) (st : SState K) (p : Str)
    (m : Simple.SimpleModel K) (layers : List (Layer K)) (hp : ppPhase st.1 st.2 phase = .ok p)
    (hm : (loadModel pkg loadtxt c model).2 = .ok m)
    (hvp : m.vp = layers.map Layer.vp) (hvs : m.vs = layers.map Layer.vs) (hdz : m.dz = layers.map Layer.dz)
    (hz : m.z.length = layers.length) (hzs : m.z.Pairwise (· ≤ ·)) (hodd : p.length % 2 = 1)
    (hletters : 'P' ∈ upper p ∨ 'S' ∈ upper p) (h0 : m.z.getD 0 0 ≤ depth)
    (h1 : depth < m.z.getD (m.z.length - 1) 0)
    (hhead : ∀ r ∈ st.2, ∃ slow lat lon baz, (st.1 r).ext.get "slowness" = some (.num slow) ∧
      (st.1 r).ext.get "station_latitude" = some (.num lat) ∧
      (st.1 r).ext.get "station_longitude" = some (.num lon) ∧
      (st.1 r).ext.get "back_azimuth" = some (.num baz) ∧ PropagatesStrictly layers slow) :
    ∃ c' h' pts, ppoints sqrt geo pkg loadtxt depth phase model c st = (c', h', .ok pts) := by
  have hne : m.z ≠ [] := by
    intro h
    rw [h] at h0 h1
    simp only [List.getD_nil] at h0 h1
    linarith
  obtain ⟨i, hi, hi0, hi1⟩ := exists_layer m.z depth hne h0 h1
  have hpp : ∀ r ∈ st.2, ∃ q, PiercingPoint geo (fun s => Simple.ppointDistance sqrt m depth s p) (st.1 r) q := by
    intro r hr
    obtain ⟨slow, lat, lon, baz, a1, a2, a3, a4, a5⟩ := hhead r hr
    exact ⟨_, slow, lat, lon, baz, _, a1, a2, a3, a4, C37_value_partial sqrt hs m layers hvp hvs hdz hz hzs slow p
      hodd hletters a5 depth i (by omega) hi0 hi1 _ rfl, rfl⟩
  cases hcall : ppoints sqrt geo pkg loadtxt depth phase model c st with
  | mk c' rest =>
    obtain ⟨h', res⟩ := rest
    cases res with
    | ok pts => exact ⟨_, _, _, rfl⟩
    | error e =>
      obtain ⟨s1, r, s2, e1, e2, -⟩ := C113_failure_partial sqrt geo pkg loadtxt depth phase model c c' st h' e p m
        hp hm hcall
      obtain ⟨q, hq⟩ := hpp r (by rw [e1]; simp)
      exact absurd hq (e2 q)

end pp

/-! ## Piercing points after move out correction -/

section moveout
variable {K : Type} [Field K] [LinearOrder K] [FloorRing K]
  (sqrt : K → K) (find : List K → K → Nat) (nanCase : Trace K → Res (List K))

/-- **C114 (partial).** After a move out correction the piercing points are those of a ray with the reference
slowness for all traces; they are the points of the trace itself if its slowness is the reference slowness. -/
theorem C114_after_moveout_partial (info : Str) (mphase : Option Str) (ref : K) (mm mm' : Simple.SimpleModel K)
    (st st1 : SState K) (hn : st.2.Nodup)
    (hmo : streamMoveout sqrt find nanCase info mphase ref mm st = (mm', st1, none))
    (geo : Geodesic K) (pkg : Str) (loadtxt : Str → Res (Table K)) (depth : K) (phase : Option Str) (model : Str)
    (c c' : Models K) (h' : Heap K) (pts : List (K × K))
    (hok : ppoints sqrt geo pkg loadtxt depth phase model c st1 = (c', h', .ok pts)) :
    ∃ p m dr, ppPhase st.1 st.2 phase = .ok p ∧ loadModel pkg loadtxt c model = (c', .ok m) ∧
      (st.2 ≠ [] → Simple.ppointDistance sqrt m depth ref p = .ok (some dr)) ∧
      ∀ (i r : Nat), st.2[i]? = some r → ∃ q slow lat lon baz, pts[i]? = some q ∧
        (st.1 r).ext.get "slowness" = some (.num slow) ∧
        (st.1 r).ext.get "station_latitude" = some (.num lat) ∧
        (st.1 r).ext.get "station_longitude" = some (.num lon) ∧
        (st.1 r).ext.get "back_azimuth" = some (.num baz) ∧ q = geo lat lon baz (1000 * dr) ∧
        (slow = ref → PiercingPoint geo (fun s => Simple.ppointDistance sqrt m depth s p) (st.1 r) q) := by
  obtain ⟨e0, mp, -, hb⟩ := C40_bookkeeping sqrt find nanCase info mphase ref mm mm' st st1 hn hmo
  obtain ⟨p, m, hp, hm, hlen, hpts, -, -⟩ := C112_points_partial sqrt geo pkg loadtxt depth phase model c c' st1 h'
    pts hok
  rw [e0] at hpts hlen
  have hphase : ppPhase st1.1 st1.2 phase = ppPhase st.1 st.2 phase := by
    unfold ppPhase streamMethod uniqueHeader
    rw [e0]
    have : st.2.filterMap (fun r => (st1.1 r).ext.get "phase") = st.2.filterMap fun r => (st.1 r).ext.get "phase" := by
      apply List.filterMap_congr
      intro r hr
      exact (hb r hr).2.2.2.2 "phase" (by decide)
    rw [this]
  have key : ∀ (r : Nat) (q : K × K), r ∈ st.2 →
      PiercingPoint geo (fun s => Simple.ppointDistance sqrt m depth s p) (st1.1 r) q →
      ∃ slow lat lon baz dr, (st.1 r).ext.get "slowness" = some (.num slow) ∧
        (st.1 r).ext.get "station_latitude" = some (.num lat) ∧
        (st.1 r).ext.get "station_longitude" = some (.num lon) ∧
        (st.1 r).ext.get "back_azimuth" = some (.num baz) ∧
        Simple.ppointDistance sqrt m depth ref p = .ok (some dr) ∧ q = geo lat lon baz (1000 * dr) := by
    intro r q hr ⟨s', lat, lon, baz, dr, a1, a2, a3, a4, a5, a6⟩
    obtain ⟨b1, b2, b3, ⟨slow, b4⟩, b5⟩ := hb r hr
    rw [b2] at a1
    simp only [Option.some.injEq, Val.num.injEq] at a1
    subst a1
    rw [b5 _ (by decide)] at a2 a3 a4
    exact ⟨slow, lat, lon, baz, dr, b4, a2, a3, a4, a5, a6⟩
  cases hs2 : st.2 with
  | nil => exact ⟨p, m, 0, by rw [← hs2, ← hphase]; exact hp, hm, fun h => absurd rfl h, fun i r hr => by simp at hr⟩
  | cons a s =>
    obtain ⟨q0, -, hq0, -⟩ := hpts 0 a (by rw [hs2]; rfl)
    obtain ⟨-, -, -, -, dr, -, -, -, -, hdr, -⟩ := key a q0 (by rw [hs2]; simp) hq0
    refine ⟨p, m, dr, by rw [← hs2, ← hphase]; exact hp, hm, fun _ => hdr, fun i r hr => ?_⟩
    rw [← hs2] at hr
    obtain ⟨q, hqi, hq, -⟩ := hpts i r hr
    obtain ⟨slow, lat, lon, baz, dr', k1, k2, k3, k4, k5, k6⟩ := key r q (List.mem_of_getElem? hr) hq
    have : dr' = dr := by
      have := k5.symm.trans hdr
      simpa using this
    subst this
    exact ⟨q, slow, lat, lon, baz, hqi, k1, k2, k3, k4, k6, fun hsl => ⟨slow, lat, lon, baz, dr', k1, k2, k3, k4,
      by rw [hsl]; exact k5, k6⟩⟩

end moveout

/-! ## Examples and counterexamples -/

section ex

/-- Square root for the slownesses occurring below (vp = 6, vs = 3.9; see `ratSqrt_sq`). -/
def ratSqrt (x : ℚ) : ℚ :=
  if x = 25 / 6084 then 5 / 78 else if x = 256 / 6084 then 16 / 78 else if x = 169 / 6084 then 13 / 78
  else if x = 400 / 6084 then 20 / 78 else 0

theorem ratSqrt_sq : ∀ x ∈ [25 / 6084, 256 / 6084, 169 / 6084, 400 / 6084], 0 ≤ ratSqrt x ∧ ratSqrt x * ratSqrt x = x := by
  decide +kernel

/-- Model file with three columns: two layers of 78 km after an empty layer. -/
def ratFile (f : Str) : Res (Table ℚ) :=
  if f = "model.dat".toList then
    .ok (.columns [[0, 0, 78, 156], [6, 6, 6, 6], [39 / 10, 39 / 10, 39 / 10, 39 / 10]])
  else .error .other

/-- Distances in degrees at the equator, good enough for an example. -/
def flatGeo : Geodesic ℚ := fun lat lon azi d =>
  if azi = 0 then (lat + d / 111200, lon) else (lat, lon + d / 111200)

/-- Slowness in s/deg for 12/78 s/km. -/
def ratSlow : ℚ := 12 / 78 * (1112 / 10)

/-- A P receiver function of 30 samples. -/
def ratTrace (slow baz : ℚ) : Trace ℚ :=
  ⟨[], [], [], ['Q'], 0, 1, (List.range 30).map (fun (k : Nat) => (k : ℚ)),
    [("onset", .time 0), ("slowness", .num slow), ("station_latitude", .num 10), ("station_longitude", .num 20),
      ("back_azimuth", .num baz), ("phase", .str "P".toList)]⟩

/-- Two receiver functions and a third one without back azimuth. -/
def ratHeap : Heap ℚ := fun r =>
  if r = 0 then ratTrace ratSlow 0 else if r = 1 then ratTrace 0 90
  else { ratTrace 0 0 with ext := (ratTrace 0 0).ext.erase "back_azimuth" }

/-- The call for a depth of 39 km. -/
def ratPoints (s : List Nat) : Models ℚ × Heap ℚ × Res (List (ℚ × ℚ)) :=
  ppoints ratSqrt flatGeo [] ratFile 39 none "model.dat".toList [] (ratHeap, s)

/-- C112 applies: two traces, the first one twice. -/
example : (ratPoints [0, 1, 0]).2.2 = .ok [(10 + (351 / 4) / (1112 / 10), 20), (10, 20),
    (10 + (351 / 4) / (1112 / 10), 20)] := by decide +kernel

/-- **C112 is false of the code** regarding the documented attributes `plat` and `plon`. -/
theorem C112_counterexample : (ratPoints [0]).2.2 = .ok [(10 + (351 / 4) / (1112 / 10), 20)] ∧
    ((ratPoints [0]).2.1 0).ext.get "plat" = none ∧ ((ratPoints [0]).2.1 0).ext.get "plon" = none ∧
    ((ratPoints [0]).2.1 0).ext.get "pp_longitude" = some (.num 20) := by decide +kernel

/-- C112 applies to the default phase. -/
example : CommonEntry ratHeap [0, 1] "phase" (.str ([] ++ ['P'])) :=
  (uniqueHeader_eq_some ratHeap [0, 1] "phase" _).1 (by decide +kernel)

/-- **C113 is false of the code**: `KeyError` because of the second trace, but the first one has been changed. -/
theorem C113_counterexample : (ratPoints [0, 2, 1]).2.2 = .error .keyError ∧
    (ratHeap 0).ext.get "pp_depth" = none ∧
    ((ratPoints [0, 2, 1]).2.1 0).ext.get "pp_depth" = some (.num 39) ∧
    ((ratPoints [0, 2, 1]).2.1 1).ext.get "pp_depth" = none := by decide +kernel

/-- Two complete traces. -/
noncomputable def realHeap : Heap ℝ := fun _ => ⟨[], [], [], ['Q'], 0, 1, [], [("slowness", .num pySlow),
  ("station_latitude", .num 10), ("station_longitude", .num 20), ("back_azimuth", .num 30)]⟩

/-- `C113_success` applies. -/
example (geo : Geodesic ℝ) (loadtxt : Str → Res (Table ℝ)) : ∃ c' h' pts, ppoints Real.sqrt geo [] loadtxt 39
    (some ['S']) ['m'] [(['m'], pyModel)] (realHeap, [0, 1]) = (c', h', .ok pts) :=
  C113_success Real.sqrt sqrtStrict_real geo [] loadtxt 39 (some ['S']) ['m'] [(['m'], pyModel)] (realHeap, [0, 1])
    ['S'] pyModel pyLayers rfl rfl rfl rfl rfl rfl (by simp [pyModel]) (by decide) (by right; decide)
    (by simp [pyModel]) (by simp [pyModel]; norm_num)
    (fun r _ => ⟨pySlow, 10, 20, 30, rfl, rfl, rfl, rfl, pyLayers_strict⟩)

/-- Move out correction to vertical incidence, then piercing points. -/
def ratMoved : Models ℚ × SRes ℚ :=
  moveoutCall ratSqrt npFind (fun _ => .error .other) [] [] ratFile none 0 "model.dat".toList [] (ratHeap, [0])

/-- **C114 is false of the code**: after the move out correction the piercing point is below the station. -/
theorem C114_counterexample : ratMoved.2.2 = none ∧
    (ppoints ratSqrt flatGeo [] ratFile 39 none "model.dat".toList ratMoved.1 ratMoved.2.1).2.2 = .ok [(10, 20)] ∧
    (ratPoints [0]).2.2 = .ok [(10 + (351 / 4) / (1112 / 10), 20)] := by decide +kernel

/-- C114 applies. -/
example : (streamMoveout ratSqrt npFind (fun _ => .error .other) [] none 0
    ⟨[0, 0, 78], [0, 78, 78], [6, 6, 6], [39 / 10, 39 / 10, 39 / 10], []⟩ (ratHeap, [0])).2.2 = none := by
  decide +kernel

end ex

end Verif.Props
