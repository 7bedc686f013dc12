import Verif.Props.KeptHeaders
import Verif.Props.IndependentRf
import Verif.Props.HarmonicsLayout
import Verif.Model.Profile
import Verif.Model.Ppoints

/-!
# Which header entries matter for piercing points, profiles and harmonics (C193)
-/

set_option linter.unusedSimpArgs false
set_option linter.unusedSectionVars false

namespace Verif.Props
open Verif.Py Verif.Model Verif.Spec

section ppoints
open Ppoints
variable {K : Type} [Field K] [LinearOrder K] [FloorRing K] {ks : String → Prop}

theorem kept_ppoint (sqrt : K → K) (geo : Geodesic K) (m : Simple.SimpleModel K) (depth : K) (phase : Str)
    (h1 : ks "slowness") (h2 : ks "station_latitude") (h3 : ks "station_longitude") (h4 : ks "back_azimuth") :
    KeepsRelE ks (ppoint sqrt geo m depth phase) := by
  intro t t' ht
  have e : ppointCoords sqrt geo m depth phase t.ext = ppointCoords sqrt geo m depth phase t'.ext := by
    unfold ppointCoords keyNum
    rw [ht.ext _ h1, ht.ext _ h2, ht.ext _ h3, ht.ext _ h4]
  unfold ppoint
  rw [e]
  cases ppointCoords sqrt geo m depth phase t'.ext with
  | error e => exact .error e
  | ok p => exact .ok _ _ (((ht.put _ _).put _ _).put _ _)

/-- C193, piercing points: slowness, station coordinates, back azimuth and, without the argument, the phase are needed. -/
theorem C193_ppoints (sqrt : K → K) (geo : Geodesic K) (pkg : Str) (loadtxt : Str → Res (Table K)) (depth : K)
    (phase : Option Str) (model : Str) (c : Models K) (hph : ks "phase") (h1 : ks "slowness")
    (h2 : ks "station_latitude") (h3 : ks "station_longitude") (h4 : ks "back_azimuth") (h5 : ks "pp_latitude")
    (h6 : ks "pp_longitude") (h h' : Heap K) (hr : KeptH ks h h') (s : List Nat) :
    (ppoints sqrt geo pkg loadtxt depth phase model c (h, s)).1
      = (ppoints sqrt geo pkg loadtxt depth phase model c (h', s)).1 ∧
    KeptH ks (ppoints sqrt geo pkg loadtxt depth phase model c (h, s)).2.1
      (ppoints sqrt geo pkg loadtxt depth phase model c (h', s)).2.1 ∧
    (ppoints sqrt geo pkg loadtxt depth phase model c (h, s)).2.2
      = (ppoints sqrt geo pkg loadtxt depth phase model c (h', s)).2.2 := by
  unfold ppoints
  have hp : ppPhase h s phase = ppPhase h' s phase := by
    unfold ppPhase; rw [kept_streamMethod hr s hph]
  simp only
  rw [← hp]
  cases ppPhase h s phase with
  | error e => exact ⟨rfl, hr, rfl⟩
  | ok p =>
    simp only
    cases loadModel pkg loadtxt c model with
    | mk c1 r =>
      cases r with
      | error e => exact ⟨rfl, hr, rfl⟩
      | ok m =>
        simp only
        have := kept_forEachE (kept_ppoint sqrt geo m depth p h1 h2 h3 h4) hr s
        revert this
        cases Heap.forEachE (ppoint sqrt geo m depth p) h s with
        | mk a e =>
          cases Heap.forEachE (ppoint sqrt geo m depth p) h' s with
          | mk b e' =>
            rintro ⟨g1, g2⟩
            simp only at g1 g2
            subst g2
            cases e with
            | some e => exact ⟨rfl, g1, rfl⟩
            | none =>
              refine ⟨rfl, g1, ?_⟩
              have : (fun r => ppPair (a r)) = fun r => ppPair (b r) := by
                funext r; unfold ppPair; rw [(g1 r).getNum h5, (g1 r).getNum h6]
              simp only [this]

end ppoints

section profile
open Profile
variable {K : Type} [Field K] [LinearOrder K] {ks : String → Prop}

/-- All entries but the list of processing steps. -/
def butProcessing : String → Prop := fun k => k ≠ "processing"

theorem SameKept_mono {ks' : String → Prop} {t t' : Trace K} (h : SameKept ks t t') (hk : ∀ k, ks' k → ks k) :
    SameKept ks' t t' := ⟨h.net, h.sta, h.loc, h.cha, h.start, h.sr, h.data, fun k hk' => h.ext k (hk k hk')⟩

theorem get_append_dict (a b : Dict (Val K)) (k : String) :
    Dict.get (a ++ b) k = (Dict.get a k).or (Dict.get b k) := by
  induction a with
  | nil => rfl
  | cons p a ih =>
    show Dict.get (p :: (a ++ b)) k = _
    by_cases e : p.1 = k
    · simp [Dict.get, e]
    · have h1 : Dict.get (p :: (a ++ b)) k = Dict.get (a ++ b) k := by simp [Dict.get, e]
      have h2 : Dict.get (p :: a) k = Dict.get a k := by simp [Dict.get, e]
      rw [h1, h2, ih]

/-- A new trace of the profile is, but for the list of processing steps, determined by the entries `ks`. -/
theorem kept_newTrace (ho : ks "onset") (h1 : ks "slowness") (h2 : ks "phase") (h3 : ks "moveout") (boxes : List (Box K))
    (box : Box K) (comp : Char) {t t' : Trace K} (ht : SameKept ks t t') :
    KeptR butProcessing (newTrace boxes box comp t) (newTrace boxes box comp t') := by
  unfold newTrace
  cases boxes with
  | nil => exact .error _
  | cons b0 bs =>
    simp only
    cases b0.profile with
    | none => exact .error _
    | some pr =>
      simp only
      rw [← ht.ext _ ho, ← ht.start, ← ht.sr, ← ht.data]
      have hb : SameKept butProcessing
          ({ net := [], sta := [], loc := [], cha := ['?', '?', comp], start := 0, sr := t.sr, data := t.data,
             ext := [("box_pos", .num box.pos), ("box_length", .num box.length),
         ("box_latitude", .num box.latlon.1), ("box_longitude", .num box.latlon.2),
         ("profile_latitude", .num pr.latlon.1), ("profile_longitude", .num pr.latlon.2),
         ("profile_azimuth", .num pr.azimuth), ("profile_length", .num pr.length), ("num", .num 1)]
        ++ copiedEntries.filterMap fun k => (t.ext.get k).map fun v => (k, v) } : Trace K)
          ({ net := [], sta := [], loc := [], cha := ['?', '?', comp], start := 0, sr := t.sr, data := t.data,
             ext := [("box_pos", .num box.pos), ("box_length", .num box.length),
         ("box_latitude", .num box.latlon.1), ("box_longitude", .num box.latlon.2),
         ("profile_latitude", .num pr.latlon.1), ("profile_longitude", .num pr.latlon.2),
         ("profile_azimuth", .num pr.azimuth), ("profile_length", .num pr.length), ("num", .num 1)]
        ++ copiedEntries.filterMap fun k => (t'.ext.get k).map fun v => (k, v) } : Trace K) := by
        refine ⟨rfl, rfl, rfl, rfl, rfl, rfl, rfl, fun k hk => ?_⟩
        show Dict.get (_ ++ _) k = Dict.get (_ ++ _) k
        rw [get_append_dict, get_append_dict, kept_copied_get, kept_copied_get]
        congr 1
        by_cases hc : k ∈ copiedEntries
        · rw [if_pos hc, if_pos hc]
          simp only [copiedEntries, List.mem_cons, List.not_mem_nil, or_false] at hc
          rcases hc with rfl | rfl | rfl | rfl
          · exact ht.ext _ h1
          · exact ht.ext _ h2
          · exact ht.ext _ h3
          · exact absurd rfl hk
        · rw [if_neg hc, if_neg hc]
      cases t.ext.get "onset" with
      | none => exact .ok _ _ hb
      | some v =>
        cases v with
        | time o => exact .ok _ _ (hb.put _ _)
        | _ => exact .error _

theorem kept_addTrace {ks' : String → Prop} {t2 t2' t t' : Trace K} (h2 : SameKept butProcessing t2 t2')
    (ht : SameKept ks' t t') : KeptR butProcessing (addTrace t2 t) (addTrace t2' t') := by
  unfold addTrace
  rw [h2.data, ht.data, h2.getNum (k := "num") (by unfold butProcessing; decide)]
  cases npAdd t2'.data t'.data with
  | error e => exact .error e
  | ok d =>
    cases t2'.getNum "num" with
    | none => exact .error _
    | some n => exact .ok _ _ ((h2.setData d).put _ _)

/-- Agreement of the local variables: the new traces agree in all entries but the list of processing steps. -/
structure KeptP (ks : String → Prop) (p p' : PState K) : Prop where
  heap : KeptH ks p.heap p'.heap
  stack : p.stack = p'.stack
  next : p.next = p'.next
  new : ∀ e ∈ p.stack, SameKept butProcessing (p.heap e.2) (p'.heap e.2)

inductive KeptPR (ks : String → Prop) : Res (PState K) → Res (PState K) → Prop
  | error (e : PyErr) : KeptPR ks (.error e) (.error e)
  | ok (p p' : PState K) (h : KeptP ks p p') : KeptPR ks (.ok p) (.ok p')

theorem lookup_mem (st : List (Key K × Nat)) (k : Key K) (q : Nat) (h : lookup st k = some q) : ∃ e ∈ st, e.2 = q := by
  unfold lookup at h
  cases hf : st.find? (fun e => decide (e.1 = k)) with
  | none => rw [hf] at h; cases h
  | some e =>
    rw [hf] at h
    exact ⟨e, List.mem_of_find?_eq_some hf, by simpa using h⟩

theorem kept_step (hp : ¬ ks "processing") (ho : ks "onset") (h1 : ks "slowness") (h2 : ks "phase") (h3 : ks "moveout")
    (h4 : ks "pp_latitude") (h5 : ks "pp_longitude") (within : K × K → List (K × K) → Bool) (boxes : List (Box K))
    (crs : Bool) {p p' : PState K} (hP : KeptP ks p p') (r : Nat) :
    KeptPR ks (step within boxes crs p r) (step within boxes crs p' r) := by
  have hsub : ∀ k, ks k → butProcessing k := fun k hk e => hp (by rw [← e]; exact hk)
  have ht := hP.heap r
  have hpp : piercingPoint (p.heap r) = piercingPoint (p'.heap r) := by
    unfold piercingPoint; rw [ht.getNum h4, ht.getNum h5]
  unfold step
  simp only
  rw [← hpp, ← ht.comp, ← hP.stack, ← hP.next]
  cases piercingPoint (p.heap r) with
  | error e => exact .error e
  | ok x =>
    simp only
    cases findBox within boxes crs x with
    | error e => exact .error e
    | ok b =>
      cases b with
      | none => exact .ok _ _ hP
      | some box =>
        simp only
        cases (p.heap r).comp with
        | none => exact .error _
        | some c =>
          simp only
          cases hl : lookup p.stack (box.pos, c) with
          | none =>
            simp only
            have hn := kept_newTrace ho h1 h2 h3 boxes box c ht
            generalize newTrace boxes box c (p.heap r) = y at hn
            generalize newTrace boxes box c (p'.heap r) = y' at hn
            cases hn with
            | error e => exact .error e
            | ok t t' htt =>
              refine .ok _ _ ⟨hP.heap.set _ (SameKept_mono htt hsub), rfl, rfl, fun e he => ?_⟩
              by_cases en : e.2 = p.next
              · simp only [en, Heap.set_self]; exact htt
              · simp only [Heap.set_ne _ _ en]
                rcases List.mem_append.1 he with he | he
                · exact hP.new e he
                · rw [List.mem_singleton] at he
                  exact absurd (by rw [he]) en
          | some q =>
            simp only
            obtain ⟨e0, he0, rfl⟩ := lookup_mem _ _ _ hl
            have hn := kept_addTrace (hP.new e0 he0) ht
            generalize addTrace (p.heap e0.2) (p.heap r) = y at hn
            generalize addTrace (p'.heap e0.2) (p'.heap r) = y' at hn
            cases hn with
            | error e => exact .error e
            | ok t t' htt =>
              refine .ok _ _ ⟨hP.heap.set _ (SameKept_mono htt hsub), rfl, rfl, fun e he => ?_⟩
              by_cases en : e.2 = e0.2
              · simp only [en, Heap.set_self]; exact htt
              · simp only [Heap.set_ne _ _ en]; exact hP.new e he

theorem kept_loop (hp : ¬ ks "processing") (ho : ks "onset") (h1 : ks "slowness") (h2 : ks "phase") (h3 : ks "moveout")
    (h4 : ks "pp_latitude") (h5 : ks "pp_longitude") (within : K × K → List (K × K) → Bool) (boxes : List (Box K))
    (crs : Bool) {p p' : PState K} (hP : KeptP ks p p') (s : List Nat) :
    KeptPR ks (loop within boxes crs p s) (loop within boxes crs p' s) := by
  induction s generalizing p p' with
  | nil => exact .ok _ _ hP
  | cons r s ih =>
    unfold loop
    have hn := kept_step hp ho h1 h2 h3 h4 h5 within boxes crs hP r
    generalize step within boxes crs p r = y at hn
    generalize step within boxes crs p' r = y' at hn
    cases hn with
    | error e => exact .error e
    | ok q q' hq => exact ih hq

/-- The traces of the profile: the same exception, or the same references with traces that agree in everything but the
list of processing steps. -/
inductive KeptProf : Res (Heap K × List Nat) → Res (Heap K × List Nat) → Prop
  | error (e : PyErr) : KeptProf (.error e) (.error e)
  | ok (h h' : Heap K) (l : List Nat) (hl : ∀ r ∈ l, SameKept butProcessing (h r) (h' r)) :
      KeptProf (.ok (h, l)) (.ok (h', l))

theorem kept_forEach_on {f : Trace K → Trace K} (hf : KeepsRel ks f) {h h' : Heap K} (s l : List Nat)
    (hs : ∀ r ∈ s, r ∈ l) (hr : ∀ r ∈ l, SameKept ks (h r) (h' r)) :
    ∀ r ∈ l, SameKept ks (Heap.forEach f h s r) (Heap.forEach f h' s r) := by
  induction s generalizing h h' with
  | nil => exact hr
  | cons a s ih =>
    refine ih (h := h.set a (f (h a))) (h' := h'.set a (f (h' a))) (fun r hr => hs r (List.mem_cons_of_mem _ hr))
      (fun r hr' => ?_)
    by_cases e : r = a
    · subst e; rw [Heap.set_self, Heap.set_self]; exact hf _ _ (hr r hr')
    · rw [Heap.set_ne _ _ e, Heap.set_ne _ _ e]; exact hr r hr'

theorem kept_divide : KeepsRel (K := K) butProcessing divide := by
  intro t t' ht
  have e : t.getNum "num" = t'.getNum "num" := ht.getNum (by unfold butProcessing; decide)
  unfold divide
  rw [e, ht.data]
  exact ht.setData _

theorem insertionSort_eq_on (le le' : Nat → Nat → Prop) [DecidableRel le] [DecidableRel le'] (l : List Nat)
    (h : ∀ a ∈ l, ∀ b ∈ l, (le a b ↔ le' a b)) : l.insertionSort le = l.insertionSort le' := by
  induction l with
  | nil => rfl
  | cons a l ih =>
    have hi := ih fun x hx y hy => h x (List.mem_cons_of_mem _ hx) y (List.mem_cons_of_mem _ hy)
    rw [List.insertionSort_cons, List.insertionSort_cons, hi]
    have hm : ∀ b ∈ l.insertionSort le', (le a b ↔ le' a b) := fun b hb =>
      h a List.mem_cons_self b (List.mem_cons_of_mem _ ((List.perm_insertionSort le' l).mem_iff.1 hb))
    generalize l.insertionSort le' = m at hm
    induction m with
    | nil => rfl
    | cons b m ihm =>
      have hb := hm b List.mem_cons_self
      by_cases c : le a b
      · rw [List.orderedInsert, List.orderedInsert, if_pos c, if_pos (hb.1 c)]
      · rw [List.orderedInsert, List.orderedInsert, if_neg c, if_neg (fun x => c (hb.2 x)),
          ihm fun x hx => hm x (List.mem_cons_of_mem _ hx)]

theorem kept_sortProfile {h h' : Heap K} (l : List Nat) (hl : ∀ r ∈ l, SameKept butProcessing (h r) (h' r)) :
    sortProfile h l = sortProfile h' l := by
  unfold sortProfile
  have e1 : (l.insertionSort fun a b => ((h a).getNum "box_pos").getD 0 ≤ ((h b).getNum "box_pos").getD 0)
      = l.insertionSort fun a b => ((h' a).getNum "box_pos").getD 0 ≤ ((h' b).getNum "box_pos").getD 0 := by
    refine insertionSort_eq_on _ _ l fun a ha b hb => ?_
    rw [(hl a ha).getNum (k := "box_pos") (by unfold butProcessing; decide),
      (hl b hb).getNum (k := "box_pos") (by unfold butProcessing; decide)]
  rw [e1]
  refine insertionSort_eq_on _ _ _ fun a ha b hb => ?_
  have hm := fun x => (List.perm_insertionSort
    (fun a b => ((h' a).getNum "box_pos").getD 0 ≤ ((h' b).getNum "box_pos").getD 0) l).mem_iff (a := x)
  rw [(hl a ((hm a).1 ha)).cha, (hl b ((hm b).1 hb)).cha]

/-- C193, profile: the coordinates of the piercing points, onset, slowness, phase and moveout are needed. -/
theorem C193_profile (hp : ¬ ks "processing") (ho : ks "onset") (h1 : ks "slowness") (h2 : ks "phase") (h3 : ks "moveout")
    (h4 : ks "pp_latitude") (h5 : ks "pp_longitude") (within : K × K → List (K × K) → Bool) (boxes : List (Box K))
    (crs : Bool) (h h' : Heap K) (hr : KeptH ks h h') (s : List Nat) (next : Nat) :
    KeptProf (profile within boxes crs h s next) (profile within boxes crs h' s next) := by
  unfold profile
  have hl := kept_loop hp ho h1 h2 h3 h4 h5 within boxes crs (p := ⟨h, [], next⟩) (p' := ⟨h', [], next⟩)
    ⟨hr, rfl, rfl, fun e he => absurd he List.not_mem_nil⟩ s
  generalize loop within boxes crs ⟨h, [], next⟩ s = y at hl
  generalize loop within boxes crs ⟨h', [], next⟩ s = y' at hl
  cases hl with
  | error e => exact .error e
  | ok p p' hP =>
    simp only
    rw [← hP.stack]
    generalize hrefs : p.stack.map Prod.snd = refs
    have hnew : ∀ r ∈ refs, SameKept butProcessing (p.heap r) (p'.heap r) := by
      intro r hr
      rw [← hrefs] at hr
      obtain ⟨e, he, rfl⟩ := List.mem_map.1 hr
      exact hP.new e he
    have hd := kept_forEach_on kept_divide refs refs (fun r hr => hr) hnew
    rw [← kept_sortProfile refs hd]
    have hmem : ∀ r, r ∈ sortProfile (Heap.forEach divide p.heap refs) refs → r ∈ refs := by
      intro r hr
      unfold sortProfile at hr
      exact (List.perm_insertionSort _ _).mem_iff.1 ((List.perm_insertionSort _ _).mem_iff.1 hr)
    exact .ok _ _ _ fun r hr => kept_forEach_on (f := fun t : Trace K => t.put "type" (.str "profile".toList))
      (fun t t' ht => ht.put _ _) _ refs hmem hd r (hmem r hr)

end profile

section harmonics
open Harmonics
variable {ks : String → Prop}

theorem kept_harmTrace {t t' : Trace ℝ} (ht : SameKept ks t t') (c : Str) (two : Bool) (i : Nat) (d : List ℝ) :
    SameKept ks (harmTrace t c two i d) (harmTrace t' c two i d) := by
  have hd := ht.setData d
  have hc : ∀ a b : Str, SameKept ks ({ ({ t with data := d } : Trace ℝ) with cha := a, loc := b } : Trace ℝ)
      ({ ({ t' with data := d } : Trace ℝ) with cha := a, loc := b } : Trace ℝ) := fun a b =>
    ⟨ht.net, ht.sta, rfl, rfl, ht.start, ht.sr, rfl, ht.ext⟩
  unfold harmTrace
  simp only
  split
  · exact ((hc _ _).put _ _).put _ _
  · split
    · split
      · exact ((hc _ _).put _ _).put _ _
      · exact (hc _ _).put _ _
    · exact hd

theorem kept_cleanTrace {t t' : Trace ℝ} (ht : SameKept ks t t') : SameKept ks (cleanTrace t) (cleanTrace t') := by
  have key : SameKept ks ({ t with ext := poppedKeys.foldl (fun d k => d.erase k) t.ext } : Trace ℝ)
      ({ t' with ext := poppedKeys.foldl (fun d k => d.erase k) t'.ext } : Trace ℝ) := by
    refine ⟨ht.net, ht.sta, ht.loc, ht.cha, ht.start, ht.sr, ht.data, fun k hk => ?_⟩
    show Dict.get (poppedKeys.foldl (fun d k => d.erase k) t.ext) k
      = Dict.get (poppedKeys.foldl (fun d k => d.erase k) t'.ext) k
    rw [get_erases, get_erases, ht.ext k hk]
  exact key.put _ _

theorem kept_addInfo_one (hp : ¬ ks "processing") (info : Str) (t : Trace ℝ) :
    SameKept ks (match addInfo info t with | .ok t' => t' | .error _ => t) t := by
  unfold addInfo
  cases t.ext.get "processing" with
  | none => exact (SameKept.refl _).put_out _ hp _
  | some v =>
    cases v with
    | list l =>
      simp only
      split
      · exact (SameKept.refl _).put_out _ hp _
      · exact SameKept.refl _
    | _ => exact SameKept.refl _

/-- C193, harmonics: event time and back azimuth are needed. -/
theorem C193_harmonics (hp : ¬ ks "processing") (h1 : ks "event_time") (h2 : ks "back_azimuth") (E : LstsqEnv) (info : Str)
    (a : HArgs) (h h' : Heap ℝ) (hr : KeptH ks h h') (s : List Nat) :
    KeptL ks (harmonics E info a h s) (harmonics E info a h' s) := by
  have e1 : ∀ c, selectLast h s c = selectLast h' s c := fun c => by
    unfold selectLast
    exact List.filter_congr fun r _ => by rw [(hr r).cha]
  have e2 : ∀ l, sortByTime h l = sortByTime h' l := fun l => by
    have k1 : timeKey h = timeKey h' := funext fun r => by unfold timeKey; rw [(hr r).getTime h1]
    have k2 : (fun r => !(h r).ext.has "event_time") = fun r => !(h' r).ext.has "event_time" :=
      funext fun r => by unfold Dict.has; rw [(hr r).ext _ h1]
    have k3 : (fun r => ((h r).getTime "event_time").isNone) = fun r => ((h' r).getTime "event_time").isNone :=
      funext fun r => by rw [(hr r).getTime h1]
    unfold sortByTime
    rw [k1, k2, k3]
  have e3 : ∀ l, backAzimuths h l = backAzimuths h' l := fun l => by
    unfold backAzimuths
    congr 1
    funext r
    rw [(hr r).ext _ h2]
  have e4 : ∀ l, dataMatrix h l = dataMatrix h' l := fun l => by
    have : (fun r => (h r).data) = fun r => (h' r).data := funext fun r => (hr r).data
    have k : (fun r => (h r).data.length) = fun r => (h' r).data.length := funext fun r => by rw [(hr r).data]
    unfold dataMatrix
    rw [this, k]
    have : (fun r => decide ((h r).data.length = ((l.head?.map fun q => (h' q).data.length).getD 0)))
        = fun r => decide ((h' r).data.length = ((l.head?.map fun q => (h' q).data.length).getD 0)) :=
      funext fun r => by rw [(hr r).data]
    rw [this]
  have e5 : check h s a = check h' s a := by
    unfold check
    simp only [e1]
  have e6 : ∀ two, transverse h s two = transverse h' s two := fun two => by
    unfold transverse
    rw [e1, e2]
  have hbody : KeptL ks (harmonicsBody E a h s) (harmonicsBody E a h' s) := by
    unfold harmonicsBody
    rw [← e5]
    cases check h s a with
    | some e => exact .error e
    | none =>
      simp only [bind, Except.bind, ← e1, ← e2, ← e3, ← e4, ← e6]
      cases sortByTime h (selectLast h s (a.components.headD ' ')) with
      | error e => exact .error e
      | ok lr =>
        simp only
        cases backAzimuths h lr with
        | error e => exact .error e
        | ok baz =>
          simp only
          cases dataMatrix h lr with
          | error e => exact .error e
          | ok rowsR =>
            simp only
            cases transverse h s (decide (a.components.length = 2)) with
            | error e => exact .error e
            | ok lt =>
              simp only
              cases dataMatrix h lt with
              | error e => exact .error e
              | ok rowsT =>
                simp only
                split
                · exact .error _
                · cases jacobian a (decide (a.components.length = 2)) baz with
                  | error e => exact .error e
                  | ok jac =>
                    simp only
                    cases s.head? with
                    | none => exact .error _
                    | some f =>
                      simp only
                      rw [← (hr f).npts]
                      generalize decompose E _ jac rowsR rowsT (h f).npts (5 * a.components.length) = y
                      cases y with
                      | error e => exact .error e
                      | ok hd =>
                        refine .ok _ _ ?_
                        unfold harmOut
                        rw [List.forall₂_map_left_iff, List.forall₂_map_right_iff, List.forall₂_same]
                        exact fun p _ => kept_harmTrace (kept_cleanTrace (hr f)) _ _ _ _
  unfold harmonics
  generalize harmonicsBody E a h s = y at hbody
  generalize harmonicsBody E a h' s = y' at hbody
  cases hbody with
  | error e => exact .error e
  | ok l l' hl =>
    refine .ok _ _ ?_
    rw [List.forall₂_map_left_iff, List.forall₂_map_right_iff]
    exact hl.imp fun t t' ht => ((kept_addInfo_one hp info t).trans ht).trans (kept_addInfo_one hp info t').symm

end harmonics

section examples

/-- The records with further header entries which are not kept in files. -/
def twoRecordsMemory : Heap ℚ := fun r =>
  ((twoRecords r).put "processing" (.list ["a".toList])).put "event_id" (.str "x".toList)

theorem iEnv_kept : KeptEnv (K := ℚ) (· ∈ Headers.headers) iEnv where
  filter t t' h := .ok _ _ h
  trim _ _ t t' h := .ok _ _ h
  decimate n t t' h := .ok _ _ ⟨h.net, h.sta, h.loc, h.cha, h.start, by
    show t.sr / n = t'.sr / n
    rw [h.sr], h.data, h.ext⟩
  rotate _ _ _ _ h := ⟨h, rfl⟩
  dec := by
    refine ⟨fun a b t t' h => ?_, fun l t t' h => h, fun _ _ _ _ _ _ => rfl, fun _ _ _ _ _ _ _ h _ => ⟨h, rfl⟩⟩
    have e : (fun p : ℚ × ℕ => decide (a ≤ t.start + p.2 / t.sr ∧ t.start + p.2 / t.sr ≤ b))
        = fun p : ℚ × ℕ => decide (a ≤ t'.start + p.2 / t'.sr ∧ t'.start + p.2 / t'.sr ≤ b) := by rw [h.start, h.sr]
    refine ⟨h.net, h.sta, h.loc, h.cha, ?_, h.sr, ?_, h.ext⟩
    · show max a t.start = max a t'.start
      rw [h.start]
    · show ((t.data.zipIdx).filter _).map Prod.fst = ((t'.data.zipIdx).filter _).map Prod.fst
      rw [e, h.data]

/-- C193: streams that agree in the headers written to SAC and SH files, as a stream and what is read back from its
files (C154), give receiver functions that agree in the same way. -/
theorem C193_files {K : Type} [Field K] [LinearOrder K] [IsStrictOrderedRing K] [FloorRing K] (env : RfEnv K)
    (a : RfArgs K) (hk : KeptEnv (· ∈ Headers.headers) env) (h h' : Heap K) (hr : KeptH (· ∈ Headers.headers) h h')
    (s : List Nat) : KeptS (· ∈ Headers.headers) (rf env a (h, s)) (rf env a (h', s)) :=
  C193_rf env a hk (by decide) (by decide) (by decide) h h' s hr

example : KeptH (· ∈ Headers.headers) twoRecordsMemory twoRecords ∧
    (rf iEnv { method := some "S".toList, srcComps := some "LZ".toList } (twoRecordsMemory, [0, 3, 1, 4, 2, 5])).2 = none ∧
    twoRecordsMemory 4 ≠ twoRecords 4 := by
  refine ⟨fun r => ?_, by decide +kernel, by decide +kernel⟩
  exact ((SameKept.refl _).put_out _ (by decide) _).put_out _ (by decide) _

end examples

end Verif.Props
