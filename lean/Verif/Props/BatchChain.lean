import Verif.Model.BatchLazy
import Verif.Props.KeptHeadersMore
import Verif.Props.BatchNames
import Verif.Props.BatchRun

/-!
# C195: several commands in one call of the program or one after another with files in between
-/

set_option linter.unusedSimpArgs false
set_option linter.unusedSectionVars false

namespace Verif.Props
open Verif.Py Verif.Spec Verif.Model Verif.Model.Batch

section loops
variable {M S : Type}

/-- What the loop does with the file of each pair. -/
def chainFinal (src : M → Option S) (step : S → Res S) (saved : S → S) (name : M → Str) (w : Files S) (ms : List M) :
    Files S :=
  ms.foldl (fun w m => match src m with
    | none => w
    | some s => match step s with
      | .error _ => w
      | .ok x => w.put (name m) (saved x)) w

theorem put_other (w : Files S) (n m : Str) (s : S) (h : m ≠ n) : w.put n s m = w m := by
  unfold Files.put; rw [if_neg h]

theorem put_same (w : Files S) (n : Str) (s : S) : w.put n s n = some s := by
  unfold Files.put; rw [if_pos rfl]

/-- The loop in closed form: it ends without exception if and only if every stream can be processed, and then the files
of the pairs are replaced. -/
theorem lazyLoop_spec (source : M → Files S → Option S) (src : M → Option S) (step : S → Res S) (F : OneFile S)
    (name : M → Str) (ms : List M) :
    ∀ w : Files S, (∀ m ∈ ms, source m w = src m) →
      ms.Pairwise (fun m m' => ∀ (w : Files S) s, source m' (w.put (name m) s) = source m' w) →
      (∀ m ∈ ms, ∀ s x, src m = some s → step s = .ok x → F.empty x = false ∧ F.name x = .ok (name m)) →
      ((lazyLoop source step F.write w ms).2 = none ↔ ∀ m ∈ ms, ∀ s, src m = some s → ∃ x, step s = .ok x) ∧
      ((lazyLoop source step F.write w ms).2 = none →
        (lazyLoop source step F.write w ms).1 = chainFinal src step F.saved name w ms) := by
  induction ms with
  | nil => intro w _ _ _; exact ⟨⟨fun _ m hm => absurd hm List.not_mem_nil, fun _ => rfl⟩, fun _ => rfl⟩
  | cons m ms ih =>
    intro w hsrc hpw hgood
    rw [List.pairwise_cons] at hpw
    have hm := hsrc m List.mem_cons_self
    have hgood' : ∀ m ∈ ms, ∀ s x, src m = some s → step s = .ok x → F.empty x = false ∧ F.name x = .ok (name m) :=
      fun m' h' => hgood m' (List.mem_cons_of_mem _ h')
    unfold lazyLoop chainFinal
    rw [hm, List.foldl_cons]
    cases hs : src m with
    | none =>
      simp only
      have := ih w (fun m' h' => hsrc m' (List.mem_cons_of_mem _ h')) hpw.2 hgood'
      refine ⟨this.1.trans ⟨fun h m' h' => ?_, fun h m' h' => h m' (List.mem_cons_of_mem _ h')⟩, this.2⟩
      rcases List.mem_cons.1 h' with rfl | h'
      · intro s h1; rw [hs] at h1; cases h1
      · exact h m' h'
    | some s =>
      simp only
      cases hx : step s with
      | error e =>
        simp only
        refine ⟨⟨fun h => (by cases h), fun h => ?_⟩, fun h => (by cases h)⟩
        obtain ⟨x, h1⟩ := h m List.mem_cons_self s hs
        rw [hx] at h1; cases h1
      | ok x =>
        obtain ⟨g1, g2⟩ := hgood m List.mem_cons_self s x hs hx
        have hw : F.write x w = (w.put (name m) (F.saved x), none) := by
          unfold OneFile.write
          rw [g1, g2]; rfl
        simp only [hw]
        have := ih (w.put (name m) (F.saved x))
          (fun m' h' => by rw [hpw.1 m' h']; exact hsrc m' (List.mem_cons_of_mem _ h')) hpw.2 hgood'
        refine ⟨this.1.trans ⟨fun h m' h' => ?_, fun h m' h' => h m' (List.mem_cons_of_mem _ h')⟩, this.2⟩
        rcases List.mem_cons.1 h' with rfl | h'
        · intro s' h1
          rw [hs] at h1; cases h1
          exact ⟨x, hx⟩
        · exact h m' h'

theorem chainFinal_other (src : M → Option S) (step : S → Res S) (saved : S → S) (name : M → Str) (n : Str) (ms : List M) :
    ∀ w : Files S, (∀ m ∈ ms, n ≠ name m ∨ src m = none) → chainFinal src step saved name w ms n = w n := by
  induction ms with
  | nil => intro w _; rfl
  | cons m ms ih =>
    intro w h
    unfold chainFinal
    rw [List.foldl_cons]
    refine (ih _ fun m' h' => h m' (List.mem_cons_of_mem _ h')).trans ?_
    cases hs : src m with
    | none => rfl
    | some s =>
      simp only
      cases step s with
      | error e => rfl
      | ok x =>
        rcases h m List.mem_cons_self with h | h
        · exact put_other _ _ _ _ h
        · rw [hs] at h; cases h

theorem chainFinal_mem (src : M → Option S) (step : S → Res S) (saved : S → S) (name : M → Str) (ms : List M) :
    ∀ w : Files S, ms.Pairwise (fun m m' => name m ≠ name m') → ∀ m ∈ ms, ∀ s x, src m = some s → step s = .ok x →
      chainFinal src step saved name w ms (name m) = some (saved x) := by
  induction ms with
  | nil => intro w _ m hm; exact absurd hm List.not_mem_nil
  | cons m0 ms ih =>
    intro w hpw m hm s x hs hx
    rw [List.pairwise_cons] at hpw
    unfold chainFinal
    rw [List.foldl_cons]
    rcases List.mem_cons.1 hm with rfl | hm
    · rw [hs]
      simp only [hx]
      exact (chainFinal_other src step saved name (name m) ms _ fun m' h' => .inl (hpw.1 m' h')).trans (put_same _ _ _)
    · exact ih _ hpw.2 m hm s x hs hx

/-- Two streams which cannot be told apart by the files, in respect of a step. -/
def StepRespects (R : S → S → Prop) (step : S → Res S) : Prop :=
  ∀ s s', R s s' → (∃ e, step s = .error e ∧ step s' = .error e) ∨ ∃ x x', step s = .ok x ∧ step s' = .ok x' ∧ R x x'

variable {K W : Type}

theorem applyCommands_append (O : Ops K S W) (kw : Dict (Value K)) (c1 c2 : List Str) (s : S) :
    applyCommands O kw (c1 ++ c2) s = (applyCommands O kw c1 s).bind (applyCommands O kw c2) := by
  unfold applyCommands
  rw [List.foldlM_append]
  rfl

/-- **C195** If what the loop writes has no influence on the streams that follow, the loop is that over the list of all
streams (`processLoop`). -/
theorem C195_loop (O : Ops K S W) (kw : Dict (Value K)) (commands : List Str) (source : M → W → Option S)
    (src : M → Option S) (ms : List M) : ∀ w : W, (∀ m ∈ ms, ∀ w, source m w = src m) →
      lazyLoop source (applyCommands O kw commands) O.out w ms = processLoop O kw commands none w (ms.filterMap src) := by
  induction ms with
  | nil => intro w _; rfl
  | cons m ms ih =>
    intro w h
    have ih := fun w => ih w fun m' h' => h m' (List.mem_cons_of_mem _ h')
    unfold lazyLoop
    rw [h m List.mem_cons_self w, List.filterMap_cons]
    cases src m with
    | none => exact ih w
    | some s =>
      simp only [processLoop]
      cases applyCommands O kw commands s with
      | error e => rfl
      | ok x =>
        simp only
        cases O.out x w with
        | mk w' e =>
          cases e with
          | some e => rfl
          | none => exact ih w'

/-- **C195** Commands in one call of the program or in two calls with files in between: the same calls succeed, and the
files of the last call are the same. -/
theorem C195_chain (O : Ops K S W) (kw : Dict (Value K)) (R : S → S → Prop) (c1 c2 : List Str) (data : M → Option S)
    (F1 F2 : OneFile S) (n1 n2 : M → Str) (w : Files S) (ms : List M)
    (hR : StepRespects R (applyCommands O kw c2)) (hsave : ∀ s, R s (F1.saved s))
    (heq : ∀ s s', R s s' → F2.saved s = F2.saved s' ∧ F2.empty s = F2.empty s' ∧ F2.name s = F2.name s')
    (h1 : ∀ m ∈ ms, ∀ s x, data m = some s → applyCommands O kw c1 s = .ok x → F1.empty x = false ∧ F1.name x = .ok (n1 m))
    (h2 : ∀ m ∈ ms, ∀ s x, data m = some s → applyCommands O kw (c1 ++ c2) s = .ok x →
      F2.empty x = false ∧ F2.name x = .ok (n2 m))
    (d1 : ms.Pairwise fun m m' => n1 m ≠ n1 m') (d2 : ms.Pairwise fun m m' => n2 m ≠ n2 m')
    (d3 : ms.Pairwise fun m m' => n2 m ≠ n1 m') (hclean : ∀ m ∈ ms, data m = none → w (n1 m) = none) :
    ((runData O kw data F2 (c1 ++ c2) w ms).2 = none ↔
      (runData O kw data F1 c1 w ms).2 = none ∧
        (runFiles O kw n1 F2 c2 (runData O kw data F1 c1 w ms).1 ms).2 = none) ∧
    ((runData O kw data F2 (c1 ++ c2) w ms).2 = none →
      ∀ n, (∃ m ∈ ms, n = n2 m ∧ n1 m = n2 m) ∨ (∀ m ∈ ms, n ≠ n1 m) →
        (runFiles O kw n1 F2 c2 (runData O kw data F1 c1 w ms).1 ms).1 n = (runData O kw data F2 (c1 ++ c2) w ms).1 n) := by
  have hone := lazyLoop_spec (fun m _ => data m) data (applyCommands O kw (c1 ++ c2)) F2 n2 ms w (fun _ _ => rfl)
    (List.Pairwise.imp (fun _ _ _ => rfl) d2) h2
  have htwo := lazyLoop_spec (fun m _ => data m) data (applyCommands O kw c1) F1 n1 ms w (fun _ _ => rfl)
    (List.Pairwise.imp (fun _ _ _ => rfl) d1) h1
  unfold runData runFiles
  -- the files found by the second call
  have hfound : (lazyLoop (fun m (_ : Files S) => data m) (applyCommands O kw c1) F1.write w ms).2 = none →
      ∀ m ∈ ms, (data m = none ∧
          (lazyLoop (fun m (_ : Files S) => data m) (applyCommands O kw c1) F1.write w ms).1 (n1 m) = none) ∨
        ∃ s x, data m = some s ∧ applyCommands O kw c1 s = .ok x ∧
          (lazyLoop (fun m (_ : Files S) => data m) (applyCommands O kw c1) F1.write w ms).1 (n1 m) = some (F1.saved x) := by
    intro h m hm
    rw [htwo.2 h]
    cases hd : data m with
    | none =>
      refine .inl ⟨rfl, ?_⟩
      rw [chainFinal_other, hclean m hm hd]
      intro m' hm'
      by_cases e : m' = m
      · exact .inr (e ▸ hd)
      · left
        intro e'
        rcases List.pairwise_iff_getElem.1 d1 with hp
        obtain ⟨i, hi, rfl⟩ := List.getElem_of_mem hm
        obtain ⟨j, hj, rfl⟩ := List.getElem_of_mem hm'
        rcases Nat.lt_trichotomy i j with hij | hij | hij
        · exact hp i j hi hj hij e'
        · subst hij; exact e rfl
        · exact hp j i hj hi hij e'.symm
    | some s =>
      obtain ⟨x, hx⟩ := htwo.1.1 h m hm s hd
      exact .inr ⟨s, x, rfl, hx, chainFinal_mem _ _ _ _ ms w d1 m hm s x hd hx⟩
  generalize hw1 : lazyLoop (fun m (_ : Files S) => data m) (applyCommands O kw c1) F1.write w ms = r1 at hfound htwo ⊢
  obtain ⟨w1, e1⟩ := r1
  simp only at hfound htwo ⊢
  -- the second call
  have hstep : ∀ x, (∃ e, applyCommands O kw c2 x = .error e ∧ applyCommands O kw c2 (F1.saved x) = .error e) ∨
      ∃ y y', applyCommands O kw c2 x = .ok y ∧ applyCommands O kw c2 (F1.saved x) = .ok y' ∧ R y y' :=
    fun x => hR x _ (hsave x)
  have hcomb : ∀ s x, applyCommands O kw c1 s = .ok x →
      applyCommands O kw (c1 ++ c2) s = applyCommands O kw c2 x := by
    intro s x h
    rw [applyCommands_append, h]; rfl
  have hgood3 : e1 = none → ∀ m ∈ ms, ∀ s x, w1 (n1 m) = some s → applyCommands O kw c2 s = .ok x →
      F2.empty x = false ∧ F2.name x = .ok (n2 m) := by
    intro h m hm s x hs hx
    rcases hfound h m hm with ⟨-, hn⟩ | ⟨s0, x0, hd, hx0, hn⟩
    · rw [hn] at hs; cases hs
    · rw [hn] at hs; cases hs
      rcases hstep x0 with ⟨e, -, k⟩ | ⟨y, y', k1, k2, k3⟩
      · rw [k] at hx; cases hx
      · rw [k2] at hx; cases hx
        have := h2 m hm s0 y hd ((hcomb s0 x0 hx0).trans k1)
        have q := heq _ _ k3
        exact ⟨q.2.1 ▸ this.1, q.2.2 ▸ this.2⟩
  have hthree : e1 = none → _ := fun h =>
    lazyLoop_spec (fun m (w : Files S) => w (n1 m)) (fun m => w1 (n1 m)) (applyCommands O kw c2) F2 n2 ms w1
      (fun _ _ => rfl) (List.Pairwise.imp (fun hne w s => put_other _ _ _ _ (Ne.symm hne)) d3) (hgood3 h)
  have hiff : (lazyLoop (fun m (_ : Files S) => data m) (applyCommands O kw (c1 ++ c2)) F2.write w ms).2 = none ↔
      e1 = none ∧ (lazyLoop (fun m (w : Files S) => w (n1 m)) (applyCommands O kw c2) F2.write w1 ms).2 = none := by
    constructor
    · intro h
      have a1 : e1 = none := by
        rw [htwo.1]
        intro m hm s hs
        obtain ⟨x, hx⟩ := hone.1.1 h m hm s hs
        rw [applyCommands_append] at hx
        cases hq : applyCommands O kw c1 s with
        | error e => rw [hq] at hx; cases hx
        | ok y => exact ⟨y, rfl⟩
      refine ⟨a1, ?_⟩
      rw [(hthree a1).1]
      intro m hm s hs
      rcases hfound a1 m hm with ⟨-, hn⟩ | ⟨s0, x0, hd, hx0, hn⟩
      · rw [hn] at hs; cases hs
      · rw [hn] at hs; cases hs
        obtain ⟨x, hx⟩ := hone.1.1 h m hm s0 hd
        rw [hcomb s0 x0 hx0] at hx
        rcases hstep x0 with ⟨e, k, -⟩ | ⟨y, y', -, k2, -⟩
        · rw [k] at hx; cases hx
        · exact ⟨y', k2⟩
    · rintro ⟨a1, a2⟩
      rw [hone.1]
      intro m hm s hs
      rcases hfound a1 m hm with ⟨hn, -⟩ | ⟨s0, x0, hd, hx0, hn⟩
      · rw [hn] at hs; cases hs
      · rw [hd] at hs; cases hs
        obtain ⟨x, hx⟩ := (hthree a1).1.1 a2 m hm _ hn
        rcases hstep x0 with ⟨e, -, k⟩ | ⟨y, y', k1, -, -⟩
        · rw [k] at hx; cases hx
        · exact ⟨y, (hcomb _ x0 hx0).trans k1⟩
  refine ⟨hiff, fun h n hn => ?_⟩
  obtain ⟨a1, a2⟩ := hiff.1 h
  rw [(hthree a1).2 a2, hone.2 h]
  by_cases hex : ∃ m ∈ ms, n = n2 m ∧ data m ≠ none
  · obtain ⟨m, hm, rfl, hd⟩ := hex
    rcases hfound a1 m hm with ⟨hn, -⟩ | ⟨s0, x0, hd, hx0, hn⟩
    · exact absurd hn hd
    · rcases hstep x0 with ⟨e, k, -⟩ | ⟨y, y', k1, k2, k3⟩
      · obtain ⟨x, hx⟩ := hone.1.1 h m hm s0 hd
        rw [hcomb s0 x0 hx0, k] at hx; cases hx
      · rw [chainFinal_mem _ _ _ _ ms w1 d2 m hm _ y' hn k2,
          chainFinal_mem _ _ _ _ ms w d2 m hm s0 y hd ((hcomb s0 x0 hx0).trans k1), (heq _ _ k3).1]
  · have hno : ∀ m ∈ ms, n ≠ n2 m ∨ data m = none := by
      intro m hm
      by_contra hc
      simp only [not_or, not_not] at hc
      exact hex ⟨m, hm, hc⟩
    have hno' : ∀ m ∈ ms, n ≠ n2 m ∨ w1 (n1 m) = none := by
      intro m hm
      rcases hno m hm with h' | h'
      · exact .inl h'
      · rcases hfound a1 m hm with ⟨-, hn⟩ | ⟨s0, x0, hd, -, -⟩
        · exact .inr hn
        · rw [h'] at hd; cases hd
    rw [chainFinal_other _ _ _ _ n ms w1 hno', chainFinal_other _ _ _ _ n ms w hno, htwo.2 a1]
    apply chainFinal_other
    intro m hm
    rcases hn with ⟨m0, hm0, rfl, e0⟩ | hn
    · rcases hno m0 hm0 with h' | h'
      · exact absurd rfl h'
      · by_cases e : m = m0
        · exact .inr (e ▸ h')
        · left
          intro e'
          rcases List.pairwise_iff_getElem.1 d1 with hp
          obtain ⟨i, hi, rfl⟩ := List.getElem_of_mem hm
          obtain ⟨j, hj, rfl⟩ := List.getElem_of_mem hm0
          rcases Nat.lt_trichotomy i j with hij | hij | hij
          · exact hp i j hi hj hij (by rw [← e', e0])
          · subst hij; exact e rfl
          · exact hp j i hj hi hij (by rw [← e', e0])
    · exact .inl (hn m hm)

end loops

section files
variable {K : Type} [Field K] [LinearOrder K] [IsStrictOrderedRing K] [FloorRing K]
open Verif.Model.EventIter Verif.Model.Headers

/-- Streams which agree in what is kept in files. -/
def SameFile (x y : Heap K × List Nat) : Prop := KeptH (· ∈ Headers.headers) x.1 y.1 ∧ x.2 = y.2

theorem getPairs (d : Dict (Val K)) (ks : List String) (k : String) :
    Dict.get (ks.filterMap fun k => (d.get k).map fun v => (k, v)) k = if k ∈ ks then d.get k else none := by
  induction ks with
  | nil => rfl
  | cons j ks ih =>
    rw [List.filterMap_cons]
    by_cases hj : j = k
    · subst hj
      rw [if_pos List.mem_cons_self]
      cases hd : d.get j with
      | none =>
        simp only [Option.map_none]
        rw [ih, hd]; simp
      | some v =>
        simp only [Option.map_some]
        simp [Dict.get]
    · have hm : (k ∈ j :: ks) = (k ∈ ks) := by simp [Ne.symm hj]
      rw [if_congr (Iff.of_eq hm) rfl rfl, ← ih]
      cases d.get j with
      | none => rfl
      | some v =>
        simp only [Option.map_some]
        simp [Dict.get, hj]

theorem keptTrace_same (t : Trace K) : SameKept (· ∈ Headers.headers) t (keptTrace t) :=
  ⟨rfl, rfl, rfl, rfl, rfl, rfl, rfl, fun k hk => by
    unfold keptTrace
    simp only
    rw [getPairs, if_pos hk]⟩

theorem keptTrace_eq {t t' : Trace K} (h : SameKept (· ∈ Headers.headers) t t') : keptTrace t = keptTrace t' := by
  have e : (Headers.headers.filterMap fun k => (t.ext.get k).map fun v => (k, v))
      = Headers.headers.filterMap fun k => (t'.ext.get k).map fun v => (k, v) :=
    List.filterMap_congr fun k hk => by rw [h.ext k hk]
  unfold keptTrace
  rw [e]
  obtain ⟨h1, h2, h3, h4, h5, h6, h7, -⟩ := h
  cases t; cases t'
  simp only at h1 h2 h3 h4 h5 h6 h7
  subst h1 h2 h3 h4 h5 h6 h7
  rfl

/-- The stream belongs to the pair of event and station: its first trace has the codes and the event time. -/
def Belongs (cal : K → DateTime) (m : Meta K) (st : Heap K × List Nat) : Prop :=
  ∃ r rest u t, st.2 = r :: rest ∧ (st.1 r).net = m.network ∧ (st.1 r).sta = m.station ∧ (st.1 r).loc = m.location ∧
    (st.1 r).getTime "event_time" = some u ∧ m.eventTime = some t ∧ cal u = cal t

/-- The file of a pair in format `Q`. -/
def pairFile (cal : K → DateTime) (root : Str) (m : Meta K) : Str :=
  match readCall cal root "Q".toList m with
  | .ok c => c.fname
  | .error _ => []

/-- Codes without separators and a time to the second. -/
def Regular (cal : K → DateTime) (m : Meta K) : Prop :=
  CleanCode m.network ∧ CleanCode m.station ∧ CleanCode m.location ∧ ∃ t, m.eventTime = some t ∧ DateTime.Valid (cal t)

theorem pairFile_eq (cal : K → DateTime) (root : Str) (m : Meta K) (t : K) (ht : m.eventTime = some t) :
    pairFile cal root m = root ++ '/' :: ((m.network ++ '.' :: (m.station ++ '.' :: m.location)) ++ '/' ::
      ((m.network ++ '.' :: (m.station ++ '.' :: m.location)) ++ '_' :: (timeText (cal t) ++ ".QHD".toList))) := by
  have hk : formatKey "Q".toList = some .q := by decide
  have := q_name root (metaFields cal m "Q".toList) (cal t) (by unfold metaFields; rw [ht])
  unfold pairFile readCall
  rw [hk]
  simp only [this]
  rfl

theorem belongs_name (cal : K → DateTime) (root : Str) (m : Meta K) (st : Heap K × List Nat) (h : Belongs cal m st) :
    (qFiles cal root).empty st = false ∧ (qFiles cal root).name st = .ok (pairFile cal root m) := by
  obtain ⟨r, rest, u, t, h1, h2, h3, h4, h5, h6, h7⟩ := h
  refine ⟨by show st.2.isEmpty = false; rw [h1]; rfl, ?_⟩
  have := q_name root (traceFields cal (st.1 r)) (cal u) (by unfold traceFields; rw [h5]; rfl)
  show (match st.2 with | [] => _ | r :: _ => _) = _
  rw [h1]
  simp only
  rw [this]
  simp only [pairFile_eq cal root m t h6, idText, traceFields, h2, h3, h4, h7]

theorem rsep_inj (a b x y : Str) (hx : '/' ∉ x) (hy : '/' ∉ y) (h : a ++ '/' :: x = b ++ '/' :: y) : a = b ∧ x = y := by
  have h' : x.reverse ++ '/' :: a.reverse = y.reverse ++ '/' :: b.reverse := by
    have := congrArg List.reverse h
    simpa using this
  obtain ⟨h1, h2⟩ := sep_inj '/' _ _ _ _ (by simpa using hx) (by simpa using hy) h'
  exact ⟨List.reverse_inj.1 h2, List.reverse_inj.1 h1⟩

/-- Files of different pairs differ, also below different roots. -/
theorem pairFile_inj (cal : K → DateTime) (p q : Str) (m m' : Meta K) (hm : Regular cal m) (hm' : Regular cal m')
    (h : pairFile cal p m = pairFile cal q m') : p = q ∧ m.network = m'.network ∧ m.station = m'.station ∧
      m.location = m'.location ∧ m.eventTime.map cal = m'.eventTime.map cal := by
  obtain ⟨c1, c2, c3, t, ht, vt⟩ := hm
  obtain ⟨c1', c2', c3', t', ht', vt'⟩ := hm'
  rw [pairFile_eq cal p m t ht, pairFile_eq cal q m' t' ht'] at h
  have hid : ∀ a b c : Str, CleanCode a → CleanCode b → CleanCode c → '/' ∉ a ++ '.' :: (b ++ '.' :: c) := by
    intro a b c ha hb hc
    simp only [List.mem_append, List.mem_cons, not_or]
    exact ⟨ha.2.1, by decide, hb.2.1, by decide, hc.2.1⟩
  have hrest : ∀ (a b c : Str) (u : DateTime), CleanCode a → CleanCode b → CleanCode c →
      '/' ∉ (a ++ '.' :: (b ++ '.' :: c)) ++ '_' :: (timeText u ++ ".QHD".toList) := by
    intro a b c u ha hb hc hmem
    rcases List.mem_append.1 hmem with h | hmem
    rotate_left
    rcases List.mem_cons.1 hmem with h | hmem
    rotate_left
    rcases List.mem_append.1 hmem with h | h
    rotate_right 2
    · exact hid a b c ha hb hc h
    · exact absurd h (by decide)
    · exact timeText_not_mem u '/' (by decide) h
    · exact absurd h (by decide)
  have hassoc : ∀ a b c : Str, a ++ '/' :: (b ++ '/' :: c) = (a ++ '/' :: b) ++ '/' :: c := fun a b c => by simp
  rw [hassoc, hassoc] at h
  obtain ⟨h1, h2⟩ := rsep_inj _ _ _ _ (hrest _ _ _ _ c1 c2 c3) (hrest _ _ _ _ c1' c2' c3') h
  obtain ⟨h3, h4⟩ := rsep_inj _ _ _ _ (hid _ _ _ c1 c2 c3) (hid _ _ _ c1' c2' c3') h1
  obtain ⟨g1, g2⟩ := sep_inj '.' _ _ _ _ c1.1 c1'.1 h4
  obtain ⟨g3, g4⟩ := sep_inj '.' _ _ _ _ c2.1 c2'.1 g2
  rw [h4, List.append_cancel_left_eq] at h2
  simp only [List.cons.injEq, true_and] at h2
  refine ⟨h3, g1, g3, g4, ?_⟩
  rw [ht, ht']
  simp only [Option.map_some, timeText_inj _ _ vt vt' (List.append_inj_left' h2 rfl)]

/-- Operations of the program made of `rf` and `moveout`. -/
def rfOps {W : Type} (rfOf moveoutOf : Dict (Leaf K) → Heap K × List Nat → (Heap K × List Nat) × Option PyErr)
    (out : Heap K × List Nat → W → W × Option PyErr) : Ops K (Heap K × List Nat) W :=
  ⟨fun d => asOp (rfOf d), fun d => asOp (moveoutOf d), out⟩

theorem asOp_respects (f : Heap K × List Nat → (Heap K × List Nat) × Option PyErr)
    (hf : KeptStep (· ∈ Headers.headers) f) : StepRespects SameFile (asOp f) := by
  rintro ⟨h, s⟩ ⟨h', s'⟩ ⟨hr, hs⟩
  simp only at hr hs
  subst hs
  obtain ⟨k1, k2, k3⟩ := hf h h' s hr
  unfold asOp
  generalize f (h, s) = y at k1 k2 k3
  generalize f (h', s) = y' at k1 k2 k3
  obtain ⟨y, e⟩ := y
  obtain ⟨y', e'⟩ := y'
  simp only at k1 k2 k3
  subst k3
  cases e with
  | some e => exact .inl ⟨e, rfl, rfl⟩
  | none => exact .inr ⟨y, y', rfl, rfl, k1, k2⟩

theorem commands_respect {S W : Type} (R : S → S → Prop) (O : Ops K S W) (kw : Dict (Value K))
    (h1 : ∀ d, StepRespects R (O.rf d)) (h2 : ∀ d, StepRespects R (O.moveout d)) (cs : List Str) :
    StepRespects R (applyCommands O kw cs) := by
  induction cs with
  | nil => intro s s' h; exact .inr ⟨s, s', rfl, rfl, h⟩
  | cons c cs ih =>
    intro s s' h
    have hc : StepRespects R (fun s => applyCommand O kw s c) := by
      intro s s' h
      simp only [applyCommand]
      split
      · exact .inr ⟨s, s', rfl, rfl, h⟩
      · split
        · cases optionDict kw "rf" with
          | error e => exact .inl ⟨e, rfl, rfl⟩
          | ok d => exact h1 d s s' h
        · split
          · cases optionDict kw "moveout" with
            | error e => exact .inl ⟨e, rfl, rfl⟩
            | ok d => exact h2 d s s' h
          · exact .inl ⟨_, rfl, rfl⟩
    have e : ∀ s, applyCommands O kw (c :: cs) s = (applyCommand O kw s c).bind (applyCommands O kw cs) := fun s => by
      unfold applyCommands; rw [List.foldlM_cons]; rfl
    rw [e, e]
    rcases hc s s' h with ⟨e, k1, k2⟩ | ⟨x, x', k1, k2, k3⟩
    · simp only at k1 k2
      rw [k1, k2]
      exact .inl ⟨e, rfl, rfl⟩
    · simp only at k1 k2
      rw [k1, k2]
      exact ih x x' k3

/-- **C195** Receiver functions and move out correction in one call of the program or in two calls with files of format
`Q` in between: one call succeeds if and only if both of the two calls do, and then all files except those in between
are the same; if the second call replaces the files of the first one, all files are the same. -/
theorem C195_files {W : Type} (rfOf moveoutOf : Dict (Leaf K) → Heap K × List Nat → (Heap K × List Nat) × Option PyErr)
    (out : Heap K × List Nat → W → W × Option PyErr) (hrf : ∀ d, KeptStep (· ∈ Headers.headers) (rfOf d))
    (hmo : ∀ d, KeptStep (· ∈ Headers.headers) (moveoutOf d)) (kw : Dict (Value K)) (c1 c2 : List Str) (cal : K → DateTime)
    (p1 p2 : Str) (data : Meta K → Option (Heap K × List Nat)) (w : Files (Heap K × List Nat)) (ms : List (Meta K))
    (hreg : ∀ m ∈ ms, Regular cal m)
    (hdist : ms.Pairwise fun m m' => ¬ (m.network = m'.network ∧ m.station = m'.station ∧ m.location = m'.location ∧
      m.eventTime.map cal = m'.eventTime.map cal))
    (h1 : ∀ m ∈ ms, ∀ s x, data m = some s → applyCommands (rfOps rfOf moveoutOf out) kw c1 s = .ok x → Belongs cal m x)
    (h2 : ∀ m ∈ ms, ∀ s x, data m = some s → applyCommands (rfOps rfOf moveoutOf out) kw (c1 ++ c2) s = .ok x →
      Belongs cal m x)
    (hclean : ∀ m ∈ ms, data m = none → w (pairFile cal p1 m) = none) :
    ((runData (rfOps rfOf moveoutOf out) kw data (qFiles cal p2) (c1 ++ c2) w ms).2 = none ↔
      (runData (rfOps rfOf moveoutOf out) kw data (qFiles cal p1) c1 w ms).2 = none ∧
      (runFiles (rfOps rfOf moveoutOf out) kw (pairFile cal p1) (qFiles cal p2) c2
        (runData (rfOps rfOf moveoutOf out) kw data (qFiles cal p1) c1 w ms).1 ms).2 = none) ∧
    ((runData (rfOps rfOf moveoutOf out) kw data (qFiles cal p2) (c1 ++ c2) w ms).2 = none →
      ∀ n, p1 = p2 ∨ (∀ m ∈ ms, n ≠ pairFile cal p1 m) →
        (runFiles (rfOps rfOf moveoutOf out) kw (pairFile cal p1) (qFiles cal p2) c2
          (runData (rfOps rfOf moveoutOf out) kw data (qFiles cal p1) c1 w ms).1 ms).1 n
          = (runData (rfOps rfOf moveoutOf out) kw data (qFiles cal p2) (c1 ++ c2) w ms).1 n) := by
  have hpw : ∀ p q, ms.Pairwise fun m m' => pairFile cal p m ≠ pairFile cal q m' := by
    intro p q
    refine List.Pairwise.imp_of_mem (fun {m m'} hm hm' hne e => ?_) hdist
    exact hne (pairFile_inj cal p q m m' (hreg m hm) (hreg m' hm') e).2
  have hsame : ∀ (x y : Heap K × List Nat), SameFile x y → ∀ p, (qFiles cal p).saved x = (qFiles cal p).saved y ∧
      (qFiles cal p).empty x = (qFiles cal p).empty y ∧ (qFiles cal p).name x = (qFiles cal p).name y := by
    rintro ⟨h, s⟩ ⟨h', s'⟩ ⟨hr, hs⟩ p
    simp only at hr hs
    subst hs
    refine ⟨?_, rfl, ?_⟩
    · show (_, _) = (_, _)
      rw [show (fun r => keptTrace ((h, s).1 r)) = fun r => keptTrace ((h', s).1 r) from funext fun r => keptTrace_eq (hr r)]
    · cases s with
      | nil => rfl
      | cons r s =>
        show fmtPattern p (traceFields cal (h r)) _ = fmtPattern p (traceFields cal (h' r)) _
        have : traceFields cal (h r) = traceFields cal (h' r) := by
          unfold traceFields
          rw [(hr r).net, (hr r).sta, (hr r).loc, (hr r).cha, (hr r).getTime (k := "event_time") (by decide)]
        rw [this]
  have main := C195_chain (rfOps rfOf moveoutOf out) kw SameFile c1 c2 data (qFiles cal p1) (qFiles cal p2)
    (pairFile cal p1) (pairFile cal p2) w ms
    (commands_respect _ _ kw (fun d => asOp_respects _ (hrf d)) (fun d => asOp_respects _ (hmo d)) c2)
    (fun s => ⟨fun r => keptTrace_same _, rfl⟩) (fun s s' h => hsame s s' h p2)
    (fun m hm s x hs hx => belongs_name cal p1 m x (h1 m hm s x hs hx))
    (fun m hm s x hs hx => belongs_name cal p2 m x (h2 m hm s x hs hx))
    (hpw p1 p1) (hpw p2 p2) (hpw p2 p1) hclean
  refine ⟨main.1, fun h n hn => main.2 h n ?_⟩
  rcases hn with rfl | hn
  · by_cases hex : ∃ m ∈ ms, n = pairFile cal p1 m
    · obtain ⟨m, hm, e⟩ := hex
      exact .inl ⟨m, hm, e, rfl⟩
    · right
      intro m hm e
      exact hex ⟨m, hm, e⟩
  · exact .inr hn

/-- **C195** A pair for which nothing is left to be written (no traces) is passed over without an error: the files are as if it
had not been among the pairs, and an existing file is kept. -/
theorem C195_empty {M S W : Type} (O : Ops K S W) (kw : Dict (Value K)) (commands : List Str) (data : M → Option S) (F : OneFile S)
    (w : Files S) (m : M) (ms : List M) (s x : S) (hs : data m = some s) (hx : applyCommands O kw commands s = .ok x)
    (he : F.empty x = true) :
    runData O kw data F commands w (m :: ms) = runData O kw data F commands w ms := by
  simp only [runData, lazyLoop, hs, hx, OneFile.write, he, if_true]

/-- **C195** The steps of the models meet the condition: `rf` with external functions that respect the kept entries and
`moveout`. -/
theorem C195_steps (env : RfEnv K) (hk : KeptEnv (· ∈ Headers.headers) env) (a : RfArgs K) (sqrt : K → K)
    (find : List K → K → Nat) (nanCase : Trace K → Res (List K))
    (hn : ∀ t t', SameKept (· ∈ Headers.headers) t t' → nanCase t = nanCase t') (info : Str) (phase : Option Str) (ref : K)
    (m : Simple.SimpleModel K) :
    KeptStep (· ∈ Headers.headers) (rf env a) ∧
    KeptStep (· ∈ Headers.headers) fun st => (streamMoveout sqrt find nanCase info phase ref m st).2 :=
  ⟨C193_rf env a hk (by decide) (by decide) (by decide), fun h h' s hr =>
    (C193_moveout sqrt find nanCase hn (by decide) (by decide) (by decide) (by decide) info phase ref m h h' hr s).2⟩

end files

section examples
open Verif.Model.EventIter

/-- Streams as lists of the commands applied to them; files are named by the first entry. -/
def logFile : OneFile (List Str) where
  name s := match s with
    | [] => .error .indexError
    | n :: _ => .ok n
  saved s := s
  empty s := s.isEmpty

def logKw : Dict (Value ℚ) := [("rf", .obj []), ("moveout", .obj [])]

/-- The case of `C195_empty`. -/
example : (runData logOps logKw (fun (c : Char) => if c = 'B' then some [] else some [[c]]) logFile ["data".toList]
    (fun n => if n = ['B'] then some [['b']] else none) ['B', 'H']).2 = none ∧
    ∀ n ∈ [['B'], ['H']], ((runData logOps logKw (fun (c : Char) => if c = 'B' then some [] else some [[c]]) logFile ["data".toList]
    (fun n => if n = ['B'] then some [['b']] else none) ['B', 'H']).1 n).isSome = true := by
  decide +kernel

/-- The condition on files left over is needed: a pair without data in the first call whose file is there from before is
processed by the second call, and not by a single call. -/
theorem C195_leftover :
    (runData logOps logKw (fun (_ : Str) => none) logFile ["data".toList, "calc".toList]
      (fun n => if n = ['a'] then some [['a']] else none) [['a']]).1 ['a'] = some [['a']] ∧
    (runFiles logOps logKw id logFile ["calc".toList] (runData logOps logKw (fun (_ : Str) => none) logFile ["data".toList]
      (fun n => if n = ['a'] then some [['a']] else none) [['a']]).1 [['a']]).1 ['a'] = some [['a'], "calc".toList] := by
  decide +kernel

/-- The condition that pairs have different files is needed: format `Q` has no channel in its names, so that two
instruments at one location share a file; the second call with `path_in` equal to `path_out` then processes it twice. -/
theorem C195_twice :
    (runData logOps logKw (fun (_ : Char) => some [['a']]) logFile ["data".toList, "calc".toList] (fun _ => none)
      ['B', 'H']).1 ['a'] = some [['a'], "calc".toList] ∧
    (runFiles logOps logKw (fun _ => ['a']) logFile ["calc".toList]
      (runData logOps logKw (fun (_ : Char) => some [['a']]) logFile ["data".toList] (fun _ => none) ['B', 'H']).1
      ['B', 'H']).1 ['a'] = some [['a'], "calc".toList, "calc".toList] := by
  decide +kernel

/-- The calendar of the examples: the minute is the time. -/
def exCal (x : ℚ) : DateTime := ⟨2000, 1, 1, 0, x.floor.toNat % 100, 0⟩

/-- The record of a station with an event time. -/
def exData (m : Meta ℚ) : Option (Heap ℚ × List Nat) :=
  if m.station = "C".toList then none
  else some (fun r => { dHeap r with net := m.network, sta := m.station, loc := m.location }.put "phase" (.str "P".toList)
    |>.put "event_time" (.time (m.eventTime.getD 0)) |>.put "event_id" (.str "x".toList), [0, 1, 2])

def exMetas : List (Meta ℚ) :=
  [⟨"N".toList, "A".toList, [], "BH?".toList, some 1⟩, ⟨"N".toList, "C".toList, [], "BH?".toList, some 1⟩,
   ⟨"N".toList, "A".toList, [], "BH?".toList, some 2⟩]

def exOps : Ops ℚ (Heap ℚ × List Nat) Unit :=
  rfOps (fun _ => rf iEnv { method := some "S".toList, srcComps := some "LZ".toList }) (fun _ st => (st, none))
    (fun _ w => (w, none))

/-- Data are fetched in one call and receiver functions calculated in a second one, or both at once, for two of three
pairs. -/
example : (runData exOps logKw exData (qFiles exCal "rf".toList) ["data".toList, "calc".toList] (fun _ => none) exMetas).2
      = none ∧
    (((runFiles exOps logKw (pairFile exCal "data".toList) (qFiles exCal "rf".toList) ["calc".toList]
      (runData exOps logKw exData (qFiles exCal "data".toList) ["data".toList] (fun _ => none) exMetas).1 exMetas).1
        "rf/N.A./N.A._2000-01-01T00:02:00.QHD".toList).map fun st => st.2.map st.1)
      = (((runData exOps logKw exData (qFiles exCal "rf".toList) ["data".toList, "calc".toList] (fun _ => none) exMetas).1
        "rf/N.A./N.A._2000-01-01T00:02:00.QHD".toList).map fun st => st.2.map st.1) ∧
    ((runData exOps logKw exData (qFiles exCal "rf".toList) ["data".toList, "calc".toList] (fun _ => none) exMetas).1
        "rf/N.A./N.A._2000-01-01T00:02:00.QHD".toList).isSome = true := by
  decide +kernel

end examples

end Verif.Props
