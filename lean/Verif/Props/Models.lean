import Verif.Props.Ppoints

/-!
# Loading of models and histories of move out corrections (C115, C116, C117, C118)
-/

set_option linter.unusedSimpArgs false
set_option linter.unusedSectionVars false

namespace Verif.Props
open Verif.Py Verif.Model Verif.Model.Ppoints Verif.Spec

/-! ## The cache of models -/

section cache
variable {K : Type}

theorem models_get_put (c : Models K) (a b : Str) (m : Simple.SimpleModel K) :
    (c.put a m).get b = if b = a then some m else c.get b := by
  unfold Models.put Models.get
  by_cases h : b = a
  · subst h; simp
  · rw [if_neg h, List.find?_cons_of_neg (by simpa using fun e => h e.symm)]
    congr 1
    rw [List.find?_filter]
    congr 1
    funext p
    by_cases hp : p.1 = b
    · simp [hp, h]
    · simp [hp]

variable [Field K] [LinearOrder K] [FloorRing K]

theorem init_fresh (z vp vs : List K) (n : Option (List Int)) (m : Simple.SimpleModel K)
    (h : Simple.SimpleModel.init z vp vs n = .ok m) : m.tRef = [] := by
  unfold Simple.SimpleModel.init at h
  by_cases hl : z.length = vp.length ∧ vp.length = vs.length
  · rw [if_neg (not_not.2 hl)] at h
    cases n with
    | none =>
      simp only [bind, Except.bind, pure, Except.pure, Except.ok.injEq] at h
      rw [← h]
    | some n =>
      simp only [bind, Except.bind, pure, Except.pure] at h
      cases h1 : Simple.interpolateN z n with
      | error e => simp [h1] at h
      | ok z' =>
        cases h2 : Simple.interpolateN vp n with
        | error e => simp [h1, h2] at h
        | ok p' =>
          cases h3 : Simple.interpolateN vs n with
          | error e => simp [h1, h2, h3] at h
          | ok s' =>
            simp only [h1, h2, h3, Except.ok.injEq] at h
            rw [← h]
  · rw [if_pos hl] at h
    simp [bind, Except.bind, throw, throwThe, MonadExceptOf.throw] at h

theorem fromTable_fresh (t : Table K) (m : Simple.SimpleModel K) (h : fromTable t = .ok m) : m.tRef = [] := by
  unfold fromTable at h
  split at h
  · exact init_fresh _ _ _ _ _ h
  · exact init_fresh _ _ _ _ _ h
  · simp at h
  · split at h <;> simp at h

theorem load_new (pkg : Str) (loadtxt : Str → Res (Table K)) (c : Models K) (fname : Str)
    (hnew : c.get fname = none) :
    (loadModel pkg loadtxt c fname).2 = (loadtxt (modelFile pkg fname)).bind fromTable ∧
    (loadModel pkg loadtxt c fname).1 = match (loadtxt (modelFile pkg fname)).bind fromTable with
      | .ok m => c.put fname m
      | .error _ => c := by
  unfold loadModel
  simp only [hnew]
  cases loadtxt (modelFile pkg fname) with
  | error e => exact ⟨rfl, rfl⟩
  | ok t =>
    simp only [Except.bind]
    cases fromTable t <;> exact ⟨rfl, rfl⟩

/-- **C115, first call.** A name that has not been loaded yet: the file (for `iasp91` the file of the package) with
four columns gives the refined model, with three columns the model without refinement, other files raise; only
models that could be created are kept. -/
theorem C115_first_call (pkg : Str) (loadtxt : Str → Res (Table K)) (c : Models K) (fname : Str)
    (hnew : c.get fname = none) (file : Str) (hfile : file = if fname = "iasp91".toList then pkg else fname) :
    (∀ z vp vs n, loadtxt file = .ok (.columns [z, vp, vs, n]) →
      (loadModel pkg loadtxt c fname).2 = Simple.SimpleModel.init z vp vs (some (n.map toInt))) ∧
    (∀ z vp vs, loadtxt file = .ok (.columns [z, vp, vs]) →
      (loadModel pkg loadtxt c fname).2 = Simple.SimpleModel.init z vp vs none) ∧
    (∀ cols, cols.length ≠ 3 → cols.length ≠ 4 → loadtxt file = .ok (.columns cols) →
      (loadModel pkg loadtxt c fname).2 = .error .valueError) ∧
    (∀ row : List K, loadtxt file = .ok (.flat row) → ∃ e, (loadModel pkg loadtxt c fname).2 = .error e) ∧
    (∀ e, loadtxt file = .error e → (loadModel pkg loadtxt c fname).2 = .error e) ∧
    (∀ e, (loadModel pkg loadtxt c fname).2 = .error e → (loadModel pkg loadtxt c fname).1 = c) ∧
    ∀ m, (loadModel pkg loadtxt c fname).2 = .ok m →
      ∀ name, (loadModel pkg loadtxt c fname).1.get name = if name = fname then some m else c.get name := by
  obtain ⟨k1, k2⟩ := load_new pkg loadtxt c fname hnew
  rw [show modelFile pkg fname = file from hfile.symm] at k1 k2
  refine ⟨fun z vp vs n h => ?_, fun z vp vs h => ?_, fun cols h3 h4 h => ?_, fun row h => ?_, fun e h => ?_,
    fun e h => ?_, fun m h name => ?_⟩
  · rw [k1, h]; rfl
  · rw [k1, h]; rfl
  · have : fromTable (Table.columns cols) = .error .valueError := by
      match cols with
      | [] => rfl
      | [_] => rfl
      | [_, _] => rfl
      | [_, _, _] => simp at h3
      | [_, _, _, _] => simp at h4
      | _ :: _ :: _ :: _ :: _ :: _ => rfl
    rw [k1, h]
    exact this
  · have : ∃ e, fromTable (Table.flat row) = .error e := by
      unfold fromTable
      simp only []
      split
      · exact ⟨_, rfl⟩
      · exact ⟨_, rfl⟩
    rw [k1, h]
    exact this
  · rw [k1, h]; rfl
  · rw [k1] at h
    rw [k2, h]
  · rw [k1] at h
    rw [k2, h]
    exact models_get_put c fname name m

/-- **C115, later calls.** A name that has been loaded before always gives the same object, whatever the file
contains now. -/
theorem C115_cached (pkg : Str) (loadtxt loadtxt' : Str → Res (Table K)) (c : Models K) (fname : Str)
    (m : Simple.SimpleModel K) (h : (loadModel pkg loadtxt c fname).2 = .ok m) :
    loadModel pkg loadtxt' (loadModel pkg loadtxt c fname).1 fname = ((loadModel pkg loadtxt c fname).1, .ok m) := by
  have hget : (loadModel pkg loadtxt c fname).1.get fname = some m := by
    cases hc : c.get fname with
    | some m' =>
      unfold loadModel at h ⊢
      simp only [hc, Except.ok.injEq] at h ⊢
      rw [h]
    | none =>
      have := (C115_first_call pkg loadtxt c fname hc _ rfl).2.2.2.2.2.2 m h fname
      simpa using this
  generalize (loadModel pkg loadtxt c fname).1 = c1 at hget
  unfold loadModel
  simp only [hget]

end cache

/-! ## Lists as arguments -/

section seq
variable {K : Type} [Field K] [LinearOrder K] (sqrt : K → K)

/-- The argument is an array. -/
def Seq.IsArray (v : Seq K) : Prop := ∃ l, v = .array l

theorem vertSlowSeq_array (c : Char) (v : Seq K) (s : K) (phase : Str) (h : Seq.IsArray v) :
    ∃ q, vertSlowSeq sqrt c v s phase = .ok q := by
  obtain ⟨l, rfl⟩ := h
  unfold vertSlowSeq
  split <;> exact ⟨_, rfl⟩

/-- **C116 (partial).** Lists are as good as arrays if the number of support points is given; without, the delay
times (and everything that depends on them) raise `TypeError` if the velocities needed are lists. -/
theorem C116_lists_partial (z vp vs : Seq K) (s : K) (phase : Str) :
    (∀ n, delayTimesOf sqrt z vp vs (some n) s phase
      = delayTimesOf sqrt (.array z.items) (.array vp.items) (.array vs.items) (some n) s phase) ∧
    (Seq.IsArray vp → Seq.IsArray vs → ∀ n, delayTimesOf sqrt z vp vs n s phase =
      (Simple.SimpleModel.init z.items vp.items vs.items n).bind fun m => Simple.delayTimes sqrt m s phase) ∧
    (z.items.length = vp.items.length → vp.items.length = vs.items.length →
      ('P' ∈ upper phase ∧ ¬ Seq.IsArray vp) ∨ ('S' ∈ upper phase ∧ ¬ Seq.IsArray vs) →
      delayTimesOf sqrt z vp vs none s phase = .error .typeError) := by
  refine ⟨fun n => rfl, fun hp hs n => ?_, fun h1 h2 h => ?_⟩
  · unfold delayTimesOf
    cases hi : Simple.SimpleModel.init z.items vp.items vs.items n with
    | error e => rfl
    | ok m =>
      obtain ⟨lp, rfl⟩ := hp
      obtain ⟨ls, rfl⟩ := hs
      simp only [bind, Except.bind]
      cases n with
      | none =>
        simp only [velAttr, Seq.dropLast]
        obtain ⟨q, hq⟩ := vertSlowSeq_array sqrt 'P' (Seq.array lp.dropLast) s phase ⟨_, rfl⟩
        obtain ⟨q', hq'⟩ := vertSlowSeq_array sqrt 'S' (Seq.array ls.dropLast) s phase ⟨_, rfl⟩
        simp only [hq, hq']
      | some n =>
        rw [show (Seq.array lp).items = lp from rfl, show (Seq.array ls).items = ls from rfl] at hi
        simp only [velAttr]
        rw [show (Seq.array lp).items = lp from rfl, show (Seq.array ls).items = ls from rfl]
        unfold Simple.SimpleModel.init at hi
        by_cases hl : z.items.length = lp.length ∧ lp.length = ls.length
        swap
        · rw [if_pos hl] at hi
          simp [bind, Except.bind, throw, throwThe, MonadExceptOf.throw] at hi
        · rw [if_neg (not_not.2 hl)] at hi
          simp only [bind, Except.bind, pure, Except.pure] at hi
          cases hz : Simple.interpolateN z.items n with
          | error e => simp [hz] at hi
          | ok z' =>
            cases hp : Simple.interpolateN lp n with
            | error e => simp [hz, hp] at hi
            | ok p' =>
              cases hs : Simple.interpolateN ls n with
              | error e => simp [hz, hp, hs] at hi
              | ok s' =>
                simp only [hp, hs]
                obtain ⟨q, hq⟩ := vertSlowSeq_array sqrt 'P' (Seq.array p'.dropLast) s phase ⟨_, rfl⟩
                obtain ⟨q', hq'⟩ := vertSlowSeq_array sqrt 'S' (Seq.array s'.dropLast) s phase ⟨_, rfl⟩
                simp only [hq, hq']
  · have hi : ∃ m, Simple.SimpleModel.init z.items vp.items vs.items none = .ok m := by
      unfold Simple.SimpleModel.init
      simp only [h1, h2, and_self, not_true_eq_false, if_false, bind, Except.bind, pure, Except.pure]
      exact ⟨_, rfl⟩
    obtain ⟨m, hm⟩ := hi
    unfold delayTimesOf
    simp only [hm, bind, Except.bind, velAttr]
    have hlist : ∀ v : Seq K, ¬ Seq.IsArray v → ∃ l, v = .list l := by
      intro v hv
      cases v with
      | array l => exact absurd ⟨l, rfl⟩ hv
      | list l => exact ⟨l, rfl⟩
    have herr : ∀ (c : Char) (v : Seq K), c ∈ upper phase → ¬ Seq.IsArray v →
        vertSlowSeq sqrt c v.dropLast s phase = .error .typeError := by
      intro c v hc hv
      obtain ⟨l, rfl⟩ := hlist v hv
      unfold vertSlowSeq
      rw [if_pos (by simpa using hc)]
      rfl
    rcases h with ⟨hc, hv⟩ | ⟨hc, hv⟩
    · simp only [herr 'P' vp hc hv]
    · cases hq : vertSlowSeq sqrt 'P' vp.dropLast s phase with
      | ok q => simp only [herr 'S' vs hc hv]
      | error e =>
        have : e = .typeError := by
          unfold vertSlowSeq at hq
          split at hq
          · split at hq
            · simp at hq
            · simpa using hq.symm
          · simp at hq
        rw [this]

end seq

/-- **C116 is false of the code**: lists of velocities without `n`. -/
theorem C116_counterexample : delayTimesOf ratSqrt (.list [0, 78, 156]) (.list [6, 6, 6])
      (.list [39 / 10, 39 / 10, 39 / 10]) none 0 "Ps".toList = .error .typeError ∧
    delayTimesOf ratSqrt (.array [0, 78, 156]) (.array [6, 6, 6]) (.array [39 / 10, 39 / 10, 39 / 10]) none 0
      "Ps".toList = .ok [some 7, some 14] ∧
    delayTimesOf ratSqrt (.list [0, 78, 156]) (.list [6, 6, 6]) (.list [39 / 10, 39 / 10, 39 / 10])
      (some [0, 0, 0]) 0 "Ps".toList = .ok [some 7, some 14] := by decide +kernel

/-- C115 applies. -/
example : (loadModel [] ratFile [] "model.dat".toList).2
    = .ok ⟨[0, 0, 78], [0, 78, 78], [6, 6, 6], [39 / 10, 39 / 10, 39 / 10], []⟩ ∧
    (loadModel [] ratFile [] "x.dat".toList).2 = .error .other := by decide +kernel

/-! ## Histories -/

section history
variable {K : Type} [Field K] [LinearOrder K] [FloorRing K]
  (sqrt : K → K) (find : List K → K → Nat) (nanCase : Trace K → Res (List K))
open Simple

/-- With a cache in a state reached by calls with the same reference, the tables are those of the fresh model. -/
theorem stretch_of_inv (m0 m : SimpleModel K) (hfresh : m0.tRef = []) (phase : Str) (ref : K)
    (inv : CacheInv sqrt m0 m phase ref) (s : K) :
    (stretch sqrt m s phase ref).2 = (stretch sqrt m0 s phase ref).2 := by
  unfold stretch
  split
  · rfl
  · simp only [hfresh, lookupRef, List.find?_nil, Option.map_none]
    have hd : ∀ x, delayTimes sqrt m x (upper phase) = delayTimes sqrt m0 x (upper phase) := by
      intro x; rw [inv.layers]; rfl
    simp only [hd]
    cases hl : lookupRef m.tRef (upper phase) with
    | none =>
      unfold lookupRef at hl
      simp only [hl]
      cases delayTimes sqrt m0 ref (upper phase) with
      | error e => rfl
      | ok t => cases delayTimes sqrt m0 s (upper phase) <;> rfl
    | some t =>
      have := inv.cache t hl
      unfold lookupRef at hl
      simp only [hl, this]
      cases delayTimes sqrt m0 s (upper phase) <;> rfl

theorem step_of_inv (m0 m : SimpleModel K) (hfresh : m0.tRef = []) (phase : Str) (ref : K)
    (inv : CacheInv sqrt m0 m phase ref) (t : Trace K) :
    (moveoutStep sqrt find nanCase phase ref m t).2 = (moveoutStep sqrt find nanCase phase ref m0 t).2 := by
  unfold moveoutStep
  cases t.getTime "onset" with
  | none => rfl
  | some onset =>
    simp only []
    split
    · rfl
    · cases t.getNum "slowness" with
      | none => rfl
      | some s =>
        simp only []
        have := stretch_of_inv sqrt m0 m hfresh phase ref inv s
        rcases h1 : stretch sqrt m s phase ref with ⟨a, r⟩
        rcases h2 : stretch sqrt m0 s phase ref with ⟨b, r'⟩
        rw [h1, h2] at this
        simp only at this
        subst this
        cases r with
        | error e => rfl
        | ok p =>
          simp only []
          split <;> rfl

/-- The model after one trace. -/
theorem step_model (m : SimpleModel K) (phase : Str) (ref : K) (t : Trace K) :
    (moveoutStep sqrt find nanCase phase ref m t).1 = m ∨
      ∃ s, (moveoutStep sqrt find nanCase phase ref m t).1 = (stretch sqrt m s phase ref).1 := by
  unfold moveoutStep
  cases t.getTime "onset" with
  | none => exact Or.inl rfl
  | some onset =>
    simp only []
    split
    · exact Or.inl rfl
    · cases t.getNum "slowness" with
      | none => exact Or.inl rfl
      | some s =>
        right
        refine ⟨s, ?_⟩
        simp only []
        rcases h1 : stretch sqrt m s phase ref with ⟨a, r⟩
        cases r with
        | error e => rfl
        | ok p =>
          simp only []
          split <;> rfl

/-- The invariant for `(phase, ref)` is kept by the correction of a stream for another phase or for the same
reference. -/
theorem moveout_inv (m0 m : SimpleModel K) (phase : Str) (ref : K) (p : Str) (ref' : K)
    (hc : upper p = upper phase → ref' = ref) (inv : CacheInv sqrt m0 m phase ref) (h : Heap K) (s : List Nat) :
    CacheInv sqrt m0 (moveout sqrt find nanCase p ref' m h s).1 phase ref := by
  induction s generalizing m h with
  | nil => exact inv
  | cons a s ih =>
    have inv' : CacheInv sqrt m0 (moveoutStep sqrt find nanCase p ref' m (h a)).1 phase ref := by
      rcases step_model sqrt find nanCase m p ref' (h a) with e | ⟨x, e⟩
      · rw [e]; exact inv
      · rw [e]; exact cacheInv_step sqrt m0 m phase ref inv (x, p, ref') hc
    simp only [moveout]
    rcases hs : moveoutStep sqrt find nanCase p ref' m (h a) with ⟨m', res⟩
    rw [hs] at inv'
    cases res with
    | error e => exact inv'
    | ok t => exact ih m' inv' _

/-- Heap and outcome do not depend on the state of the cache. -/
theorem moveout_of_inv (m0 m1 m2 : SimpleModel K) (hfresh : m0.tRef = []) (phase : Str) (ref : K)
    (i1 : CacheInv sqrt m0 m1 phase ref) (i2 : CacheInv sqrt m0 m2 phase ref) (h : Heap K) (s : List Nat) :
    (moveout sqrt find nanCase phase ref m1 h s).2 = (moveout sqrt find nanCase phase ref m2 h s).2 := by
  induction s generalizing m1 m2 h with
  | nil => rfl
  | cons a s ih =>
    have e := (step_of_inv sqrt find nanCase m0 m1 hfresh phase ref i1 (h a)).trans
      (step_of_inv sqrt find nanCase m0 m2 hfresh phase ref i2 (h a)).symm
    have j1 := moveout_inv sqrt find nanCase m0 m1 phase ref phase ref (fun _ => rfl) i1 h [a]
    have j2 := moveout_inv sqrt find nanCase m0 m2 phase ref phase ref (fun _ => rfl) i2 h [a]
    simp only [moveout] at j1 j2 ⊢
    rcases h1 : moveoutStep sqrt find nanCase phase ref m1 (h a) with ⟨a1, r1⟩
    rcases h2 : moveoutStep sqrt find nanCase phase ref m2 (h a) with ⟨a2, r2⟩
    rw [h1, h2] at e
    rw [h1] at j1
    rw [h2] at j2
    simp only at e
    subst e
    cases r1 with
    | error e => rfl
    | ok t => exact ih a1 a2 j1 j2 _

/-- Every trace is corrected as if it were alone. -/
theorem moveout_each (m0 m : SimpleModel K) (hfresh : m0.tRef = []) (phase : Str) (ref : K)
    (inv : CacheInv sqrt m0 m phase ref) (h : Heap K) (s : List Nat) (hn : s.Nodup)
    (hok : (moveout sqrt find nanCase phase ref m h s).2.2 = none) :
    ∀ r ∈ s, (moveoutStep sqrt find nanCase phase ref m0 (h r)).2
      = .ok ((moveout sqrt find nanCase phase ref m h s).2.1 r) := by
  induction s generalizing m h with
  | nil => simp
  | cons a s ih =>
    obtain ⟨ha, hn'⟩ := List.nodup_cons.1 hn
    have e := step_of_inv sqrt find nanCase m0 m hfresh phase ref inv (h a)
    have j := moveout_inv sqrt find nanCase m0 m phase ref phase ref (fun _ => rfl) inv h [a]
    simp only [moveout] at j hok ⊢
    rcases h1 : moveoutStep sqrt find nanCase phase ref m (h a) with ⟨a1, r1⟩
    rw [h1] at e j hok
    cases r1 with
    | error e' => simp at hok
    | ok t =>
      simp only at e j hok ⊢
      intro r hr
      rcases List.mem_cons.1 hr with rfl | hr'
      · rw [moveout_frame sqrt find nanCase phase ref a1 _ s r ha, Heap.set_self]
        exact e.symm
      · have := ih a1 j (Heap.set h a t) hn' hok r hr'
        rw [Heap.set_ne _ _ (by rintro rfl; exact ha hr')] at this
        exact this

/-- A move out correction in a history: phase argument, reference, model name, stream. -/
structure MoveoutCall (K : Type) where
  phase : Option Str
  ref : K
  model : Str
  st : SState K

/-- The models after a history of corrections, starting with a new interpreter. -/
def cacheAfter (info pkg : Str) (loadtxt : Str → Res (Table K)) (calls : List (MoveoutCall K)) : Models K :=
  calls.foldl (fun c x => (moveoutCall sqrt find nanCase info pkg loadtxt x.phase x.ref x.model c x.st).1) []

/-- The object cached under `name`, if any, was loaded from the file and has only seen calls with the reference. -/
def ModelsInv (pkg : Str) (loadtxt : Str → Res (Table K)) (name phase : Str) (ref : K) (c : Models K) : Prop :=
  ∀ m, c.get name = some m → ∃ m0, (loadModel pkg loadtxt [] name).2 = .ok m0 ∧ CacheInv sqrt m0 m phase ref

theorem load_nil_fresh (pkg : Str) (loadtxt : Str → Res (Table K)) (name : Str) (m0 : SimpleModel K)
    (h : (loadModel pkg loadtxt [] name).2 = .ok m0) : m0.tRef = [] := by
  unfold loadModel at h
  simp only [show Models.get ([] : Models K) name = none from rfl] at h
  cases ht : loadtxt (modelFile pkg name) with
  | error e => simp [ht] at h
  | ok t =>
    simp only [ht] at h
    cases hm : fromTable t with
    | error e => simp [hm] at h
    | ok m =>
      simp only [hm, Except.ok.injEq] at h
      subst h
      exact fromTable_fresh t m hm

/-- Loading keeps the invariant and gives a model in the invariant state, or fails like in a new interpreter. -/
theorem load_inv (pkg : Str) (loadtxt : Str → Res (Table K)) (name phase : Str) (ref : K) (c : Models K)
    (inv : ModelsInv sqrt pkg loadtxt name phase ref c) (fname : Str) :
    ModelsInv sqrt pkg loadtxt name phase ref (loadModel pkg loadtxt c fname).1 ∧
    (fname = name → match (loadModel pkg loadtxt [] name).2 with
      | .error e => (loadModel pkg loadtxt c fname).2 = .error e
      | .ok m0 => ∃ m, (loadModel pkg loadtxt c fname).2 = .ok m ∧ CacheInv sqrt m0 m phase ref) := by
  have refl : ∀ m0, (loadModel pkg loadtxt [] name).2 = .ok m0 → CacheInv sqrt m0 m0 phase ref := by
    intro m0 h
    exact ⟨rfl, fun t ht => by rw [load_nil_fresh pkg loadtxt name m0 h] at ht; simp [lookupRef] at ht⟩
  cases hc : c.get fname with
  | some m =>
    have hl : loadModel pkg loadtxt c fname = (c, .ok m) := by unfold loadModel; simp only [hc]
    rw [hl]
    refine ⟨inv, ?_⟩
    rintro rfl
    obtain ⟨m0, h0, h1⟩ := inv m hc
    rw [h0]
    exact ⟨m, rfl, h1⟩
  | none =>
    have heq : (loadModel pkg loadtxt c fname).2 = (loadModel pkg loadtxt [] fname).2 := by
      rw [(load_new pkg loadtxt c fname hc).1, (load_new pkg loadtxt [] fname rfl).1]
    obtain ⟨-, -, -, -, -, k1, k2⟩ := C115_first_call pkg loadtxt c fname hc _ rfl
    constructor
    · cases hr : (loadModel pkg loadtxt c fname).2 with
      | error e => rw [k1 e hr]; exact inv
      | ok m =>
        intro m' hm'
        rw [k2 m hr] at hm'
        split at hm'
        · rename_i hn
          subst hn
          simp only [Option.some.injEq] at hm'
          subst hm'
          rw [heq] at hr
          exact ⟨m, hr, refl m hr⟩
        · exact inv m' hm'
    · rintro rfl
      rw [heq]
      cases hr : (loadModel pkg loadtxt [] fname).2 with
      | error e => rfl
      | ok m0 => exact ⟨m0, rfl, refl m0 hr⟩

theorem call_inv (info pkg : Str) (loadtxt : Str → Res (Table K)) (name phase : Str) (ref : K) (c : Models K)
    (inv : ModelsInv sqrt pkg loadtxt name phase ref c) (x : MoveoutCall K)
    (hx : x.model = name → ∀ p, moveoutPhase x.st.1 x.st.2 x.phase = .ok p → upper p = upper phase → x.ref = ref) :
    ModelsInv sqrt pkg loadtxt name phase ref
      (moveoutCall sqrt find nanCase info pkg loadtxt x.phase x.ref x.model c x.st).1 := by
  unfold moveoutCall
  cases hp : moveoutPhase x.st.1 x.st.2 x.phase with
  | error e => exact inv
  | ok p =>
    simp only []
    obtain ⟨i1, -⟩ := load_inv sqrt pkg loadtxt name phase ref c inv x.model
    rcases hl : loadModel pkg loadtxt c x.model with ⟨c1, r⟩
    rw [hl] at i1
    cases r with
    | error e => exact i1
    | ok m =>
      simp only []
      intro m' hm'
      rw [models_get_put] at hm'
      split at hm'
      · rename_i hn
        simp only [Option.some.injEq] at hm'
        subst hm'
        have hget : c1.get name = some m := by
          have := C115_cached pkg loadtxt loadtxt c x.model m (by rw [hl])
          rw [hl] at this
          simp only at this
          unfold loadModel at this
          rw [hn]
          cases hg : c1.get x.model with
          | some m2 =>
            simp only [hg] at this
            injection this with _ e
            injection e with e
            rw [e]
          | none =>
            exfalso
            cases hc : c.get x.model with
            | some m2 =>
              unfold loadModel at hl
              simp only [hc, Prod.mk.injEq, Except.ok.injEq] at hl
              rw [← hl.1, hc] at hg
              simp at hg
            | none =>
              have := (C115_first_call pkg loadtxt c x.model hc _ rfl).2.2.2.2.2.2 m (by rw [hl]) x.model
              rw [hl] at this
              simp [hg] at this
        obtain ⟨m0, h0, h1⟩ := i1 m hget
        refine ⟨m0, h0, ?_⟩
        have hmv := moveout_inv sqrt find nanCase m0 m phase ref p x.ref (hx hn.symm p hp) h1 x.st.1 x.st.2
        unfold streamMoveout
        simp only [hp]
        rcases hmo : Simple.moveout sqrt find nanCase p x.ref m x.st.1 x.st.2 with ⟨a, b, e⟩
        rw [hmo] at hmv
        cases e with
        | some e => exact hmv
        | none =>
          simp only []
          rcases Heap.forEachE (moveoutLabel p x.ref) b x.st.2 with ⟨u, e⟩
          cases e <;> exact hmv
      · exact i1 m' hm'

/-- **C118 (partial).** If all earlier corrections of the session with this model and this phase used the same
reference slowness, the correction of a stream is the one of a new session. -/
theorem C118_same_ref_partial (info pkg : Str) (loadtxt : Str → Res (Table K)) (calls : List (MoveoutCall K))
    (x : MoveoutCall K) (p : Str) (hp : moveoutPhase x.st.1 x.st.2 x.phase = .ok p)
    (hcalls : ∀ y ∈ calls, y.model = x.model → ∀ q, moveoutPhase y.st.1 y.st.2 y.phase = .ok q →
      upper q = upper p → y.ref = x.ref) :
    (moveoutCall sqrt find nanCase info pkg loadtxt x.phase x.ref x.model
      (cacheAfter sqrt find nanCase info pkg loadtxt calls) x.st).2
    = (moveoutCall sqrt find nanCase info pkg loadtxt x.phase x.ref x.model [] x.st).2 := by
  have inv : ModelsInv sqrt pkg loadtxt x.model p x.ref (cacheAfter sqrt find nanCase info pkg loadtxt calls) := by
    unfold cacheAfter
    have aux : ∀ (l : List (MoveoutCall K)) (c : Models K), (∀ y ∈ l, y ∈ calls) →
        ModelsInv sqrt pkg loadtxt x.model p x.ref c → ModelsInv sqrt pkg loadtxt x.model p x.ref
          (l.foldl (fun c x => (moveoutCall sqrt find nanCase info pkg loadtxt x.phase x.ref x.model c x.st).1) c) := by
      intro l
      induction l with
      | nil => intro c _ h; exact h
      | cons y l ih =>
        intro c hl h
        exact ih _ (fun z hz => hl z (List.mem_cons_of_mem _ hz))
          (call_inv sqrt find nanCase info pkg loadtxt x.model p x.ref c h y (hcalls y (hl y (by simp))))
    exact aux calls [] (fun _ h => h) (fun m hm => by simp [Models.get] at hm)
  obtain ⟨-, h2⟩ := load_inv sqrt pkg loadtxt x.model p x.ref _ inv x.model
  have h2 := h2 rfl
  generalize cacheAfter sqrt find nanCase info pkg loadtxt calls = c at h2
  unfold moveoutCall
  simp only [hp]
  rcases hl : loadModel pkg loadtxt c x.model with ⟨c1, r⟩
  rcases hl0 : loadModel pkg loadtxt [] x.model with ⟨c2, r2⟩
  rw [hl, hl0] at h2
  cases r2 with
  | error e =>
    simp only at h2
    subst h2
    rfl
  | ok m0 =>
    simp only at h2
    obtain ⟨m, rfl, hinv⟩ := h2
    have hfresh : m0.tRef = [] := load_nil_fresh pkg loadtxt x.model m0 (by rw [hl0])
    have e := moveout_of_inv sqrt find nanCase m0 m m0 hfresh p x.ref hinv
      ⟨rfl, fun t ht => by rw [hfresh] at ht; simp [lookupRef] at ht⟩ x.st.1 x.st.2
    simp only []
    unfold streamMoveout
    simp only [hp]
    rcases h1 : Simple.moveout sqrt find nanCase p x.ref m x.st.1 x.st.2 with ⟨a, b⟩
    rcases h2 : Simple.moveout sqrt find nanCase p x.ref m0 x.st.1 x.st.2 with ⟨a', b'⟩
    rw [h1, h2] at e
    simp only at e
    subst e
    obtain ⟨b, e⟩ := b
    cases e with
    | some e => rfl
    | none =>
      simp only []
      rcases Heap.forEachE (moveoutLabel p x.ref) b x.st.2 with ⟨u, e⟩
      cases e <;> rfl

/-- The data of a corrected stream and the model afterwards. -/
theorem stream_each (info : Str) (phase : Option Str) (ref : K) (m0 m m' : SimpleModel K) (hfresh : m0.tRef = [])
    (st st' : SState K) (hn : st.2.Nodup) (p : Str) (hp : moveoutPhase st.1 st.2 phase = .ok p)
    (inv : CacheInv sqrt m0 m p ref)
    (hok : streamMoveout sqrt find nanCase info phase ref m st = (m', st', none)) :
    CacheInv sqrt m0 m' p ref ∧ ∀ r ∈ st.2, ∃ t,
      (moveoutStep sqrt find nanCase p ref m0 (st.1 r)).2 = .ok t ∧ (st'.1 r).data = t.data ∧
      (st'.1 r).start = t.start ∧ (st'.1 r).sr = t.sr := by
  unfold streamMoveout at hok
  simp only [hp] at hok
  have each := moveout_each sqrt find nanCase m0 m hfresh p ref inv st.1 st.2 hn
  have hinv := moveout_inv sqrt find nanCase m0 m p ref p ref (fun _ => rfl) inv st.1 st.2
  rcases h1 : Simple.moveout sqrt find nanCase p ref m st.1 st.2 with ⟨a, b, e⟩
  rw [h1] at hok each hinv
  cases e with
  | some e => simp at hok
  | none =>
    simp only [] at hok each hinv
    rcases hl : Heap.forEachE (moveoutLabel p ref) b st.2 with ⟨u, e⟩
    rw [hl] at hok
    cases e with
    | some e => simp at hok
    | none =>
      simp only [Prod.mk.injEq, and_true] at hok
      obtain ⟨rfl, rfl⟩ := hok
      refine ⟨hinv, fun r hr => ⟨b r, each trivial r hr, ?_⟩⟩
      have happ := (Heap.forEachE_ok _ _ _ _ hn hl r).1 hr
      have hd : (u r).data = (b r).data ∧ (u r).start = (b r).start ∧ (u r).sr = (b r).sr := by
        unfold moveoutLabel at happ
        split at happ
        · simp at happ
        · injection happ with happ
          rw [← happ]
          exact ⟨rfl, rfl, rfl⟩
      obtain ⟨a1, a2, a3, -⟩ := addInfoAll_rest info u st.2 r
      exact ⟨a1.trans hd.1, a2.trans hd.2.1, a3.trans hd.2.2⟩

/-- **C118, one trace at a time.** The data of every trace of a corrected stream (of distinct traces) are those
obtained for the trace alone with a fresh model. -/
theorem C118_each_trace (info : Str) (phase : Option Str) (ref : K) (m m' : SimpleModel K) (hfresh : m.tRef = [])
    (st st' : SState K) (hn : st.2.Nodup)
    (hok : streamMoveout sqrt find nanCase info phase ref m st = (m', st', none)) :
    ∃ p, moveoutPhase st.1 st.2 phase = .ok p ∧ ∀ r ∈ st.2, ∃ t,
      (moveoutStep sqrt find nanCase p ref m (st.1 r)).2 = .ok t ∧ (st'.1 r).data = t.data := by
  cases hp : moveoutPhase st.1 st.2 phase with
  | error e => simp [streamMoveout, hp] at hok
  | ok p =>
    obtain ⟨-, h⟩ := stream_each sqrt find nanCase info phase ref m m m' hfresh st st' hn p hp
      ⟨rfl, fun t ht => by rw [hfresh] at ht; simp [lookupRef] at ht⟩ hok
    exact ⟨p, rfl, fun r hr => by obtain ⟨t, h1, h2, -⟩ := h r hr; exact ⟨t, h1, h2⟩⟩

theorem moveoutPhase_congr (h h' : Heap K) (s : List Nat) (phase : Option Str)
    (hc : ∀ r ∈ s, (h' r).ext.get "phase" = (h r).ext.get "phase") :
    moveoutPhase h' s phase = moveoutPhase h s phase := by
  unfold moveoutPhase streamMethod uniqueHeader
  have : s.filterMap (fun r => (h' r).ext.get "phase") = s.filterMap fun r => (h r).ext.get "phase" :=
    List.filterMap_congr hc
  rw [this]

variable [IsStrictOrderedRing K]

/-- A trace whose move out correction (P phases) succeeds: onset inside the data, not at the last sample, and a
slowness for which the rays are not evanescent. -/
def Correctable (layers : List (Layer K)) (t : Trace K) : Prop :=
  0 < t.sr ∧ ∃ onset s, t.getTime "onset" = some onset ∧ t.start ≤ onset ∧ onset ≤ t.endtime ∧
    index0 t onset + 2 ≤ t.npts ∧ t.getNum "slowness" = some s ∧ Propagates layers s

theorem step_succeeds (m : SimpleModel K) (layers : List (Layer K)) (hvp : m.vp = layers.map Layer.vp)
    (hvs : m.vs = layers.map Layer.vs) (hdz : m.dz = layers.map Layer.dz) (hfresh : m.tRef = []) (p : Str) (ref : K)
    (heven : p.length % 2 = 0) (hletters : ∀ c ∈ upper p, c = 'P' ∨ c = 'S') (hfirst : (upper p).head? = some 'P')
    (hprop : Propagates layers ref) (hne : layers ≠ []) (t : Trace K) (ht : Correctable layers t) :
    ∃ t', (moveoutStep sqrt find nanCase p ref m t).2 = .ok t' ∧ t' = { t with data := t'.data } := by
  obtain ⟨hsr, onset, s, h1, h2, h3, h4, h5, h6⟩ := ht
  have hst := stretch_tables sqrt m layers hvp hvs hdz hfresh s ref p heven hletters hfirst h6 hprop
  unfold moveoutStep
  simp only [h1, h5]
  rw [if_neg (not_not.2 ⟨h2, h3⟩)]
  rcases hS : stretch sqrt m s p ref with ⟨m', r⟩
  rw [hS] at hst
  simp only at hst
  subst hst
  simp only [allSome_map]
  have hS : isSMultiple p = false := by
    unfold isSMultiple
    rw [hfirst]
    simp
  have hlen : ∀ x, (delayList sqrt p layers x).length = layers.length := fun x => by simp [delayList]
  obtain ⟨d, hd⟩ := C34_succeeds find t onset p (mirrorK (delayList sqrt p layers s))
    (mirrorK (delayList sqrt p layers ref)) hS hsr h2 h3 h4
    (by intro hcon
        have h7 := congrArg List.length hcon
        have h8 := List.length_pos_iff.2 hne
        simp only [mirrorK, List.length_append, hlen, List.length_nil] at h7
        omega)
    (by simp [mirrorK, slice, clampIdx, hlen])
  rw [hd]
  exact ⟨_, rfl, rfl⟩

/-- **C118, success.** The correction of a stream of correctable traces succeeds (with a model used so far with the
same reference only). -/
theorem C118_succeeds (info : Str) (phase : Option Str) (p : Str) (ref : K) (m mc : SimpleModel K)
    (layers : List (Layer K)) (hvp : m.vp = layers.map Layer.vp)
    (hvs : m.vs = layers.map Layer.vs) (hdz : m.dz = layers.map Layer.dz) (hfresh : m.tRef = [])
    (hmc : CacheInv sqrt m mc p ref) (st : SState K) (hn : st.2.Nodup) (hp : moveoutPhase st.1 st.2 phase = .ok p)
    (heven : p.length % 2 = 0) (hletters : ∀ c ∈ upper p, c = 'P' ∨ c = 'S') (hfirst : (upper p).head? = some 'P')
    (hprop : Propagates layers ref) (hne : layers ≠ []) (hst : ∀ r ∈ st.2, Correctable layers (st.1 r)) :
    ∃ m' st', streamMoveout sqrt find nanCase info phase ref mc st = (m', st', none) := by
  have key : ∀ (s : List Nat) (m' : SimpleModel K) (h : Heap K), s.Nodup → CacheInv sqrt m m' p ref →
      (∀ r ∈ s, Correctable layers (h r)) → (moveout sqrt find nanCase p ref m' h s).2.2 = none := by
    intro s
    induction s with
    | nil => intro m' h _ _ _; rfl
    | cons a s ih =>
      intro m' h hn inv hc
      obtain ⟨ha, hn'⟩ := List.nodup_cons.1 hn
      obtain ⟨t', ht', -⟩ := step_succeeds sqrt find nanCase m layers hvp hvs hdz hfresh p ref heven hletters hfirst
        hprop hne (h a) (hc a (by simp))
      rw [← step_of_inv sqrt find nanCase m m' hfresh p ref inv] at ht'
      have j := moveout_inv sqrt find nanCase m m' p ref p ref (fun _ => rfl) inv h [a]
      simp only [moveout] at j ⊢
      rcases h1 : moveoutStep sqrt find nanCase p ref m' (h a) with ⟨a1, r1⟩
      rw [h1] at ht' j
      simp only at ht'
      subst ht'
      simp only at j ⊢
      refine ih a1 _ hn' j (fun r hr => ?_)
      rw [Heap.set_ne _ _ (by rintro rfl; exact ha hr)]
      exact hc r (List.mem_cons_of_mem _ hr)
  have hmo := key st.2 mc st.1 hn hmc hst
  have hx := (moveout_ext sqrt find nanCase p ref mc st.1 st.2)
  unfold streamMoveout
  simp only [hp]
  rcases h1 : Simple.moveout sqrt find nanCase p ref mc st.1 st.2 with ⟨a, b, e⟩
  rw [h1] at hmo hx
  simp only at hmo hx
  subst hmo
  simp only []
  have hl := moveoutLabel_loop p ref b st.2 (fun r hr => by
    obtain ⟨x, hx2⟩ := hx.2 rfl r hr
    exact ⟨_, by rw [hx.1 r]; exact hx2⟩)
  rcases hll : Heap.forEachE (moveoutLabel p ref) b st.2 with ⟨u, e⟩
  rw [hll] at hl
  simp only at hl
  subst hl
  exact ⟨_, _, rfl⟩

/-- A model that has not been used yet. -/
theorem inv_refl (m : SimpleModel K) (hfresh : m.tRef = []) (p : Str) (ref : K) : CacheInv sqrt m m p ref :=
  ⟨rfl, fun t ht => by rw [hfresh] at ht; simp [lookupRef] at ht⟩

/-- **C117, success.** A correction that succeeds can be repeated. -/
theorem C117_repeatable (info : Str) (phase : Option Str) (p : Str) (ref : K) (m : SimpleModel K)
    (layers : List (Layer K)) (hvp : m.vp = layers.map Layer.vp)
    (hvs : m.vs = layers.map Layer.vs) (hdz : m.dz = layers.map Layer.dz) (hfresh : m.tRef = [])
    (st : SState K) (hn : st.2.Nodup) (hp : moveoutPhase st.1 st.2 phase = .ok p)
    (heven : p.length % 2 = 0) (hletters : ∀ c ∈ upper p, c = 'P' ∨ c = 'S') (hfirst : (upper p).head? = some 'P')
    (hprop : Propagates layers ref) (hne : layers ≠ []) (hst : ∀ r ∈ st.2, Correctable layers (st.1 r)) :
    ∃ m1 st1 m2 st2, streamMoveout sqrt find nanCase info phase ref m st = (m1, st1, none) ∧
      streamMoveout sqrt find nanCase info phase ref m1 st1 = (m2, st2, none) := by
  obtain ⟨m1, st1, h1⟩ := C118_succeeds sqrt find nanCase info phase p ref m m layers hvp hvs hdz hfresh
    (inv_refl sqrt m hfresh p ref) st hn hp heven hletters hfirst hprop hne hst
  obtain ⟨e1, p1, -, b1⟩ := C40_bookkeeping sqrt find nanCase info phase ref m m1 st st1 hn h1
  obtain ⟨inv, each⟩ := stream_each sqrt find nanCase info phase ref m m m1 hfresh st st1 hn p hp
    (inv_refl sqrt m hfresh p ref) h1
  have hp1 : moveoutPhase st1.1 st1.2 phase = .ok p := by
    rw [e1, moveoutPhase_congr st.1 st1.1 st.2 phase (fun r hr => (b1 r hr).2.2.2.2 "phase" (by decide)), hp]
  obtain ⟨m2, st2, h2⟩ := C118_succeeds sqrt find nanCase info phase p ref m m1 layers hvp hvs hdz hfresh
    inv st1 (by rw [e1]; exact hn) hp1 heven hletters hfirst hprop hne (fun r hr => by
      rw [e1] at hr
      obtain ⟨hsr, onset, s, c1, c2, c3, c4, c5, c6⟩ := hst r hr
      obtain ⟨t, ht, d1, d2, d3⟩ := each r hr
      have hlen : t.data.length = (st.1 r).data.length ∧ t.start = (st.1 r).start ∧ t.sr = (st.1 r).sr := by
        obtain ⟨-, -, k3, k4⟩ := step_tables sqrt find nanCase m layers hvp hvs hdz hfresh s ref p heven hletters
          hfirst c6 hprop (st.1 r) t onset c1 c5 ht
        have := (C34_length_and_prefix find (st.1 r) onset p _ _ t.data hsr c2 c3 k3).1
        rw [k4]
        exact ⟨this, rfl, rfl⟩
      have hon : (st1.1 r).getTime "onset" = some onset := by
        unfold Trace.getTime at c1 ⊢
        rw [(b1 r hr).2.2.2.2 "onset" (by decide)]
        exact c1
      have hnp : (st1.1 r).npts = (st.1 r).npts := by unfold Trace.npts; rw [d1, hlen.1]
      have hs1 : (st1.1 r).start = (st.1 r).start := d2.trans hlen.2.1
      have hs2 : (st1.1 r).sr = (st.1 r).sr := d3.trans hlen.2.2
      refine ⟨by rw [hs2]; exact hsr, onset, ref, hon, by rw [hs1]; exact c2, ?_, ?_, ?_, hprop⟩
      · unfold Trace.endtime Trace.delta at c3 ⊢
        rw [hs1, hs2, d1, hlen.1]; exact c3
      · unfold index0 at c4 ⊢
        rw [hs1, hs2, hnp]; exact c4
      · simp [Trace.getNum, (b1 r hr).2.1])
  exact ⟨m1, st1, m2, st2, h1, h2⟩

/-- **C117 (partial).** Repeating a move out correction (P phases) changes no sample earlier than the largest
tabulated delay time of the reference slowness.  The original slowness, however, is not kept: the entry
`slowness_before_moveout` holds the reference slowness afterwards (see `C117_counterexample`). -/
theorem C117_twice_partial (hf : FindSpec find) (hs : SqrtMono sqrt) (info : Str) (phase : Option Str) (p : Str)
    (ref : K) (m m1 m2 : SimpleModel K) (layers : List (Layer K)) (hvp : m.vp = layers.map Layer.vp)
    (hvs : m.vs = layers.map Layer.vs) (hdz : m.dz = layers.map Layer.dz) (hfresh : m.tRef = [])
    (st st1 st2 : SState K) (hn : st.2.Nodup) (hp : moveoutPhase st.1 st.2 phase = .ok p)
    (heven : p.length % 2 = 0) (hletters : ∀ c ∈ upper p, c = 'P' ∨ c = 'S') (hfirst : (upper p).head? = some 'P')
    (hS : 'S' ∈ upper p) (hprop : Propagates layers ref)
    (hv : ∀ l ∈ layers, 0 < l.vs ∧ l.vs ≤ l.vp ∧ 0 ≤ l.dz) (hn2 : 2 ≤ layers.length)
    (h1 : streamMoveout sqrt find nanCase info phase ref m st = (m1, st1, none))
    (h2 : streamMoveout sqrt find nanCase info phase ref m1 st1 = (m2, st2, none))
    (delay : Nat → K)
    (hdelay : delay = fun k => delaySpec sqrt ((upper p).count 'P') ((upper p).count 'S') true layers ref k) :
    ∀ r ∈ st.2, 0 < (st1.1 r).sr → (st1.1 r).delta ≤ delay (min 9 (layers.length - 1)) →
      (∀ (onset : K) (k : Nat), (st1.1 r).getTime "onset" = some onset →
        (st1.1 r).start + (k : K) / (st1.1 r).sr - onset < delay (layers.length - 1) →
        (st2.1 r).data[k]? = (st1.1 r).data[k]?) ∧
      (st2.1 r).ext.get "slowness" = some (.num ref) ∧
      (st2.1 r).ext.get "slowness_before_moveout" = some (.num ref) := by
  intro r hr hsr hδ
  obtain ⟨e1, p1, -, b1⟩ := C40_bookkeeping sqrt find nanCase info phase ref m m1 st st1 hn h1
  obtain ⟨e2, p2, -, b2⟩ := C40_bookkeeping sqrt find nanCase info phase ref m1 m2 st1 st2 (by rw [e1]; exact hn) h2
  have hr1 : r ∈ st1.2 := by rw [e1]; exact hr
  have hp1 : moveoutPhase st1.1 st1.2 phase = .ok p := by
    rw [e1, moveoutPhase_congr st.1 st1.1 st.2 phase (fun r hr => (b1 r hr).2.2.2.2 "phase" (by decide)), hp]
  obtain ⟨inv, -⟩ := stream_each sqrt find nanCase info phase ref m m m1 hfresh st st1 hn p hp
    ⟨rfl, fun t ht => by rw [hfresh] at ht; simp [lookupRef] at ht⟩ h1
  obtain ⟨-, h⟩ := stream_each sqrt find nanCase info phase ref m m1 m2 hfresh st1 st2 (by rw [e1]; exact hn) p hp1
    inv h2
  obtain ⟨t, ht, hd, -⟩ := h r hr1
  have hslow := (b1 r hr).2.1
  refine ⟨fun onset k hon hk => ?_, (b2 r hr1).2.1, by rw [(b2 r hr1).2.2.1, hslow]⟩
  rw [hd]
  exact C33_identity_partial sqrt find hf hs nanCase m layers hvp hvs hdz hfresh ref p heven hletters hfirst hS hprop
    hv (st1.1 r) t onset hsr hon (by simp [Trace.getNum, hslow]) ht hn2 delay hdelay hδ k hk

end history

/-! ## Counterexamples -/

/-- Correction of the first trace of the examples to the reference slowness, after the models have been used as
recorded in the cache. -/
def ratCorrect (ref : ℚ) (c : Models ℚ) : Models ℚ × SRes ℚ :=
  moveoutCall ratSqrt npFind (fun _ => .error .other) [] [] ratFile none ref "model.dat".toList c (ratHeap, [0])

/-- **C117 is false of the code**: after the second correction the original slowness is lost. -/
theorem C117_counterexample :
    (ratMoved.2.1.1 0).ext.get "slowness_before_moveout" = some (.num ratSlow) ∧
    (moveoutCall ratSqrt npFind (fun _ => .error .other) [] [] ratFile none 0 "model.dat".toList ratMoved.1
      ratMoved.2.1).2.2 = none ∧
    ((moveoutCall ratSqrt npFind (fun _ => .error .other) [] [] ratFile none 0 "model.dat".toList ratMoved.1
      ratMoved.2.1).2.1.1 0).ext.get "slowness_before_moveout" = some (.num 0) ∧
    ((moveoutCall ratSqrt npFind (fun _ => .error .other) [] [] ratFile none 0 "model.dat".toList ratMoved.1
      ratMoved.2.1).2.1.1 0).data.take 14 = (ratMoved.2.1.1 0).data.take 14 := by decide +kernel

/-- **C118 is false of the code.** Correction of a trace to its own slowness: in a new session the data stay as they
are, after a correction of another stream (here an equal one) to slowness 0 they are stretched to slowness 0. -/
theorem C118_counterexample :
    (ratCorrect ratSlow []).2.2 = none ∧
    ((ratCorrect ratSlow []).2.1.1 0).data.take 11 = (ratHeap 0).data.take 11 ∧
    (ratCorrect ratSlow (ratCorrect 0 []).1).2.2 = none ∧
    ((ratCorrect ratSlow (ratCorrect 0 []).1).2.1.1 0).data.getD 7 0 = 11 ∧ (ratHeap 0).data.getD 7 0 = 7 := by
  decide +kernel

/-- A stream of one trace for the examples with real numbers. -/
noncomputable def pyState : SState ℝ := (fun _ => pyTrace, [0])

theorem pyState_ok : ∀ r ∈ pyState.2, Correctable pyLayers (pyState.1 r) := by
  intro r _
  refine ⟨by simp [pyState, pyTrace], 0, pySlow, rfl, by simp [pyState, pyTrace], ?_, ?_, rfl, pyLayers_prop.1⟩
  · simp [pyState, Trace.endtime, pyTrace, Trace.delta]
  · simp [pyState, Simple.index0, pyTrace, Trace.npts]

/-- C117 and C118 apply. -/
example : ∃ m1 st1 m2 st2,
    streamMoveout Real.sqrt npFind (fun _ => .error .other) [] (some "Ps".toList) 0 pyModel pyState = (m1, st1, none) ∧
    streamMoveout Real.sqrt npFind (fun _ => .error .other) [] (some "Ps".toList) 0 m1 st1 = (m2, st2, none) :=
  C117_repeatable Real.sqrt npFind _ [] (some "Ps".toList) "Ps".toList 0 pyModel pyLayers rfl rfl rfl rfl pyState
    (by simp [pyState]) rfl (by decide) (by decide) (by decide) pyLayers_prop.2 (by simp [pyLayers]) pyState_ok

/-- C118 applies: a history with another phase. -/
example : moveoutPhase ratHeap [0] none = .ok "Ps".toList ∧ upper "Ppss".toList ≠ upper "Ps".toList := by
  decide +kernel

end Verif.Props
