import Verif.Props.MapHeap
import Verif.Spec.Shift

/-!
# C138: receiver functions do not depend on the absolute time
-/

set_option linter.unusedSimpArgs false
set_option linter.unusedSectionVars false

namespace Verif.Props
open Verif.Py Verif.Model Verif.Spec

section groups
variable {τ κ₁ κ₂ : Type}

/-- Two tables with the same contents whose keys belong to the same elements. -/
def SameTable (k₁ : τ → κ₁) (k₂ : τ → κ₂) (s : List τ) :
    List (κ₁ × List τ) → List (κ₂ × List τ) → Prop :=
  List.Forall₂ (fun a b => a.2 = b.2 ∧ ∃ x ∈ s, a.1 = k₁ x ∧ b.1 = k₂ x)

theorem dictAppend_same [DecidableEq κ₁] [DecidableEq κ₂] (k₁ : τ → κ₁) (k₂ : τ → κ₂) (s : List τ)
    (hk : ∀ x ∈ s, ∀ y ∈ s, k₁ x = k₁ y ↔ k₂ x = k₂ y) (x : τ) (hx : x ∈ s)
    (a : List (κ₁ × List τ)) (b : List (κ₂ × List τ)) (hab : SameTable k₁ k₂ s a b) :
    SameTable k₁ k₂ s (dictAppend a (k₁ x) x) (dictAppend b (k₂ x) x) := by
  unfold SameTable at hab ⊢
  induction hab with
  | nil => exact .cons ⟨rfl, x, hx, rfl, rfl⟩ .nil
  | @cons p q a b hpq hab ih =>
    obtain ⟨p1, p2⟩ := p
    obtain ⟨q1, q2⟩ := q
    obtain ⟨e, y, hy, e1, e2⟩ := hpq
    simp only at e e1 e2
    subst e e1 e2
    unfold dictAppend
    by_cases h : k₁ y = k₁ x
    · rw [if_pos h, if_pos ((hk y hy x hx).1 h)]
      exact .cons ⟨rfl, y, hy, rfl, rfl⟩ hab
    · rw [if_neg h, if_neg (fun h' => h ((hk y hy x hx).2 h'))]
      exact .cons ⟨rfl, y, hy, rfl, rfl⟩ ih

theorem groupLoop_same [DecidableEq κ₁] [DecidableEq κ₂] (k₁ : τ → κ₁) (k₂ : τ → κ₂) (s : List τ)
    (hk : ∀ x ∈ s, ∀ y ∈ s, k₁ x = k₁ y ↔ k₂ x = k₂ y) (l : List τ) (hl : ∀ x ∈ l, x ∈ s)
    (a : List (κ₁ × List τ)) (b : List (κ₂ × List τ)) (hab : SameTable k₁ k₂ s a b) :
    SameTable k₁ k₂ s (l.foldl (fun d tr => dictAppend d (k₁ tr) tr) a)
      (l.foldl (fun d tr => dictAppend d (k₂ tr) tr) b) := by
  induction l generalizing a b with
  | nil => exact hab
  | cons x l ih =>
    exact ih (fun y hy => hl y (List.mem_cons_of_mem _ hy)) _ _
      (dictAppend_same k₁ k₂ s hk x (hl x List.mem_cons_self) a b hab)

theorem orderedInsert_same [LinearOrder κ₁] [LinearOrder κ₂] (k₁ : τ → κ₁) (k₂ : τ → κ₂) (s : List τ)
    (hk : ∀ x ∈ s, ∀ y ∈ s, k₁ x ≤ k₁ y ↔ k₂ x ≤ k₂ y) (x : τ) (hx : x ∈ s) (v : List τ)
    (a : List (κ₁ × List τ)) (b : List (κ₂ × List τ)) (hab : SameTable k₁ k₂ s a b) :
    SameTable k₁ k₂ s (a.orderedInsert (fun p q => p.1 ≤ q.1) (k₁ x, v))
      (b.orderedInsert (fun p q => p.1 ≤ q.1) (k₂ x, v)) := by
  unfold SameTable at hab ⊢
  induction hab with
  | nil => exact .cons ⟨rfl, x, hx, rfl, rfl⟩ .nil
  | @cons p q a b hpq hab ih =>
    obtain ⟨p1, p2⟩ := p
    obtain ⟨q1, q2⟩ := q
    obtain ⟨e, y, hy, e1, e2⟩ := hpq
    simp only at e e1 e2
    subst e e1 e2
    rw [List.orderedInsert, List.orderedInsert]
    by_cases h : k₁ x ≤ k₁ y
    · rw [if_pos h, if_pos ((hk x hx y hy).1 h)]
      exact .cons ⟨rfl, x, hx, rfl, rfl⟩ (.cons ⟨rfl, y, hy, rfl, rfl⟩ hab)
    · rw [if_neg h, if_neg (fun h' => h ((hk x hx y hy).2 h'))]
      exact .cons ⟨rfl, y, hy, rfl, rfl⟩ ih

/-- Keys in the same order give the same groups in the same order. -/
theorem iterSubstreams_same [LinearOrder κ₁] [LinearOrder κ₂] (k₁ : τ → κ₁) (k₂ : τ → κ₂) (n : NumComp) (s : List τ)
    (hk : ∀ x ∈ s, ∀ y ∈ s, k₁ x ≤ k₁ y ↔ k₂ x ≤ k₂ y) :
    iterSubstreams k₁ n s = iterSubstreams k₂ n s := by
  have heq : ∀ x ∈ s, ∀ y ∈ s, k₁ x = k₁ y ↔ k₂ x = k₂ y := by
    intro x hx y hy
    rw [le_antisymm_iff, le_antisymm_iff, hk x hx y hy, hk y hy x hx]
  have h1 : SameTable k₁ k₂ s (groupLoop k₁ s) (groupLoop k₂ s) :=
    groupLoop_same k₁ k₂ s heq s (fun _ h => h) [] [] .nil
  have h2 : ∀ a b, SameTable k₁ k₂ s a b →
      SameTable k₁ k₂ s (a.insertionSort (fun p q => p.1 ≤ q.1)) (b.insertionSort (fun p q => p.1 ≤ q.1)) := by
    intro a b hab
    unfold SameTable at hab
    induction hab with
    | nil => exact .nil
    | @cons p q a b hpq hab ih =>
      obtain ⟨p1, p2⟩ := p
      obtain ⟨q1, q2⟩ := q
      obtain ⟨e, y, hy, e1, e2⟩ := hpq
      simp only at e e1 e2
      subst e e1 e2
      exact orderedInsert_same k₁ k₂ s hk y hy p2 _ _ ih
  have h3 := h2 _ _ h1
  unfold iterSubstreams
  congr 1
  have h4 : ∀ a b, SameTable k₁ k₂ s a b → a.map Prod.snd = b.map Prod.snd := by
    intro a b hab
    unfold SameTable at hab
    induction hab with
    | nil => rfl
    | cons hpq _ ih => rw [List.map_cons, List.map_cons, ih, hpq.1]
  exact h4 _ _ h3

end groups

section base
variable {K : Type} [Field K]

theorem later_zero (t : Trace K) : later 0 t = t := by
  have : ∀ v : Val K, laterVal 0 v = v := by
    intro v; cases v <;> simp [laterVal]
  unfold later
  simp [this]

theorem later_later (d e : K) (t : Trace K) : later e (later d t) = later (d + e) t := by
  have : ∀ v : Val K, laterVal e (laterVal d v) = laterVal (d + e) v := by
    intro v; cases v <;> simp [laterVal, add_assoc]
  unfold later
  simp only [List.map_map, add_assoc]
  congr 1
  exact List.map_congr_left fun p _ => by simp only [Function.comp, this]

theorem later_inj (d : K) (t t' : Trace K) : later d t = later d t' ↔ t = t' := by
  constructor
  · intro h
    have := congrArg (later (-d)) h
    rwa [later_later, later_later, add_neg_cancel, later_zero, later_zero] at this
  · rintro rfl; rfl

theorem laterExt_get (d : K) (e : Dict (Val K)) (k : String) :
    Dict.get (e.map (fun p => (p.1, laterVal d p.2))) k = (Dict.get e k).map (laterVal d) := by
  induction e with
  | nil => rfl
  | cons p e ih =>
    obtain ⟨k', v⟩ := p
    simp only [List.map_cons, Dict.get]
    by_cases h : k' = k
    · simp [h]
    · simp only [if_neg h, ih]

theorem laterExt_set (d : K) (e : Dict (Val K)) (k : String) (v : Val K) :
    Dict.set (e.map (fun p => (p.1, laterVal d p.2))) k (laterVal d v)
      = (Dict.set e k v).map (fun p => (p.1, laterVal d p.2)) := by
  induction e with
  | nil => rfl
  | cons p e ih =>
    obtain ⟨k', v'⟩ := p
    simp only [List.map_cons, Dict.set]
    by_cases h : k' = k
    · simp [h]
    · simp only [if_neg h, ih, List.map_cons]

theorem later_get (d : K) (t : Trace K) (k : String) : (later d t).ext.get k = (t.ext.get k).map (laterVal d) :=
  laterExt_get d t.ext k

theorem later_put (d : K) (t : Trace K) (k : String) (v : Val K) :
    (later d t).put k (laterVal d v) = later d (t.put k v) := by
  unfold Trace.put
  show ({ later d t with ext := _ } : Trace K) = _
  unfold later
  simp only [laterExt_set]

theorem later_getTime (d : K) (t : Trace K) (k : String) : (later d t).getTime k = (t.getTime k).map (· + d) := by
  unfold Trace.getTime
  rw [later_get]
  cases t.ext.get k with
  | none => rfl
  | some v => cases v <;> rfl

theorem later_endtime (d : K) (t : Trace K) : (later d t).endtime = t.endtime + d := by
  unfold Trace.endtime
  show (if t.data.length = 0 then t.start + d else t.start + d + ((t.data.length - 1 : Nat) : K) * t.delta) = _
  split
  · rfl
  · ring

theorem later_addInfo (d : K) (info : Str) (t : Trace K) :
    addInfo info (later d t) = (addInfo info t).map (later d) := by
  unfold addInfo
  rw [later_get]
  cases t.ext.get "processing" with
  | none =>
    show Except.ok _ = Except.ok _
    rw [← later_put]
    rfl
  | some v =>
    cases v with
    | list l =>
      show Except.ok _ = Except.ok _
      congr 1
      split
      · rw [← later_put]; rfl
      · rfl
    | _ => rfl

theorem laterH_eq (d : K) : laterH d = mapH (fun _ => later d) := rfl

theorem laterH_set (d : K) (h : Heap K) (r : Nat) (t : Trace K) :
    (laterH d h).set r (later d t) = laterH d (h.set r t) := by
  rw [laterH_eq, mapH_set]

theorem forEach_later (d : K) (f g : Trace K → Trace K) (hf : ∀ t, f (later d t) = later d (g t)) (h : Heap K)
    (s : List Nat) : Heap.forEach f (laterH d h) s = laterH d (Heap.forEach g h s) := by
  induction s generalizing h with
  | nil => rfl
  | cons a s ih =>
    show Heap.forEach f ((laterH d h).set a (f (laterH d h a))) s = laterH d (Heap.forEach g (h.set a (g (h a))) s)
    rw [show f (laterH d h a) = later d (g (h a)) from hf _, laterH_set, ih]

theorem later_uniqueHeader [DecidableEq K] (d : K) (h : Heap K) (s : List Nat) (k : String) :
    uniqueHeader (laterH d h) s k = (uniqueHeader h s k).map (laterVal d) := by
  have hinj : ∀ v w : Val K, laterVal d v = laterVal d w ↔ v = w := by
    intro v w
    cases v <;> cases w <;> simp [laterVal]
  unfold uniqueHeader
  have e : s.filterMap (fun r => (laterH d h r).ext.get k)
      = (s.filterMap (fun r => (h r).ext.get k)).map (laterVal d) := by
    rw [List.map_filterMap]
    congr 1
    funext r
    exact later_get d (h r) k
  rw [e]
  cases s.filterMap (fun r => (h r).ext.get k) with
  | nil => rfl
  | cons v vs =>
    simp only [List.map_cons, List.all_map, Function.comp_def, hinj]
    split <;> rfl

theorem later_streamMethod [DecidableEq K] (d : K) (h : Heap K) (s : List Nat) :
    streamMethod (laterH d h) s = streamMethod h s := by
  unfold streamMethod
  rw [later_uniqueHeader]
  cases uniqueHeader h s "phase" with
  | none => rfl
  | some v => cases v <;> rfl

theorem selectComps_later (d : K) (h : Heap K) (cs : Str) (s : List Nat) :
    selectComps (laterH d h) cs s = selectComps h cs s := by
  induction s with
  | nil => rfl
  | cons a s ih =>
    unfold selectComps
    rw [ih]
    rfl

theorem indexOf?_later [DecidableEq K] (d : K) (h : Heap K) (src : Nat) (rsp : List Nat) :
    indexOf? (laterH d h) src rsp = indexOf? h src rsp := by
  unfold indexOf?
  congr 1
  funext r
  have : laterH d h r = laterH d h src ↔ h r = h src := later_inj d _ _
  simp only [this]

theorem writeBack_later (d : K) (h : Heap K) (rs : List Nat) (fs : List (Trace K → Trace K))
    (hf : ∀ f ∈ fs, ∀ t, f (later d t) = later d (f t)) :
    writeBack (laterH d h) rs fs = (laterH d (writeBack h rs fs).1, (writeBack h rs fs).2) := by
  induction rs generalizing h fs with
  | nil => rfl
  | cons a rs ih =>
    cases fs with
    | nil => rfl
    | cons f fs =>
      unfold writeBack
      rw [show f (laterH d h a) = later d (f (h a)) from hf f List.mem_cons_self _, laterH_set]
      exact ih _ _ (fun f' hf' => hf f' (List.mem_cons_of_mem _ hf'))

theorem finish_later (d : K) (h : Heap K) (rs : List Nat) (res : Res (List (Trace K → Trace K)))
    (hf : ∀ fs, res = .ok fs → ∀ f ∈ fs, ∀ t, f (later d t) = later d (f t)) :
    finish (laterH d h) rs res = (laterH d (finish h rs res).1, (finish h rs res).2) := by
  unfold finish
  cases res with
  | error e => rfl
  | ok fs =>
    simp only
    rw [writeBack_later d h rs fs (hf fs rfl)]
    cases writeBack h rs fs with
    | mk h' oe => cases oe <;> rfl

end base

section call
variable {K : Type} [Field K] [LinearOrder K] [IsStrictOrderedRing K] [FloorRing K]

/-- Cutting, tapering, the noise and custom functions know times only relative to those of the data.  Nothing is
assumed about the kernels. -/
structure LaterDec (d : K) (dec : DeconvEnv K) : Prop where
  trimPad : ∀ t a b, dec.trimPad (later d t) (a + d) (b + d) = later d (dec.trimPad t a b)
  taper : ∀ t a, dec.taper (later d t) a = later d (dec.taper t a)
  noise : ∀ h s rsp rc, dec.noise (laterH d h) s rsp rc = dec.noise h s rsp rc
  func : ∀ h rsp src ts n, dec.func (laterH d h) rsp (later d src) ts n
    = (laterH d (dec.func h rsp src ts n).1, (dec.func h rsp src ts n).2)

theorem deconvSelect_later (d : K) (h : Heap K) (s : List Nat) (a : DeconvArgs K) :
    deconvSelect (laterH d h) s a = deconvSelect h s a := by
  unfold deconvSelect selectRsp normKw
  simp only [selectComps_later, indexOf?_later]

theorem runKernel_later (d : K) (dec : DeconvEnv K) (hk : LaterDec d dec) (m : DMethod) (h : Heap K)
    (s rsp : List Nat) (rc : Option Str) (srcT : Trace K) (sr ts : K) (nrm : Option Norm) :
    runKernel dec m (laterH d h) s rsp rc (later d srcT) sr ts nrm
      = (laterH d (runKernel dec m h s rsp rc srcT sr ts nrm).1, (runKernel dec m h s rsp rc srcT sr ts nrm).2) := by
  have hset : ∀ (x : Res (List (List K))) (fs : List (Trace K → Trace K)),
      x.map (·.map setData) = .ok fs → ∀ f ∈ fs, ∀ t, f (later d t) = later d (f t) := by
    intro x fs hx f hf t
    cases x with
    | error e => cases hx
    | ok l =>
      simp only [Except.map, Except.ok.injEq] at hx
      subst hx
      obtain ⟨d, -, rfl⟩ := List.mem_map.1 hf
      rfl
  have hrd : rsp.map (fun r => (laterH d h r).data) = rsp.map (fun r => (h r).data) := rfl
  unfold runKernel
  simp only [hrd]
  cases m with
  | func => exact hk.func h rsp srcT ts nrm
  | time => exact finish_later d h rsp _ (hset _)
  | waterlevel => exact finish_later d h rsp _ (hset _)
  | iterative =>
    refine finish_later d h rsp _ ?_
    intro fs hx f hf t
    cases hx' : dec.iter (rsp.map fun r => (h r).data) srcT.data sr ts nrm with
    | error e =>
      rw [show (later d srcT).data = srcT.data from rfl, hx'] at hx; cases hx
    | ok l =>
      rw [show (later d srcT).data = srcT.data from rfl, hx'] at hx
      simp only [Except.map, Except.ok.injEq] at hx
      subst hx
      obtain ⟨x, -, rfl⟩ := List.mem_map.1 hf
      simp only
      rw [← later_put]
      rfl
  | multitaper =>
    simp only
    rw [hk.noise]
    exact finish_later d h rsp _ (hset _)

/-- `deconvolve` on a record that is `d` seconds later. -/
theorem deconvolve_later (d : K) (dec : DeconvEnv K) (hk : LaterDec d dec) (a : DeconvArgs K)
    (h : Heap K) (s : List Nat) :
    deconvolve dec (laterH d h) s a = (laterH d (deconvolve dec h s a).1, (deconvolve dec h s a).2) := by
  unfold deconvolve
  rw [deconvSelect_later d h s a]
  cases hsel : deconvSelect h s a with
  | error e => rfl
  | ok q =>
    obtain ⟨m, src, rsp, nrm⟩ := q
    simp only
    have e1 : (laterH d h src).getTime "onset" = ((h src).getTime "onset").map (· + d) := later_getTime d _ _
    have e2 : (laterH d h src).start = (h src).start + d := rfl
    have e3 : (laterH d h src).delta = (h src).delta := rfl
    have e4 : times (laterH d h src) = times (h src) := rfl
    have e5 : (laterH d h src).endtime = (h src).endtime + d := later_endtime d _
    have e6 : (laterH d h src).sr = (h src).sr := rfl
    rw [e1, e2, e3, e4, e5, e6]
    cases (h src).getTime "onset" with
    | none => rfl
    | some o =>
      simp only [Option.map_some]
      rw [add_sub_add_right_eq_sub]
      cases findNearest (times (h src)) (o - (h src).start) with
      | error e => rfl
      | ok idx =>
        simp only
        rw [add_sub_add_right_eq_sub, show (h src).start + d + (idx : K) * (h src).delta
          = (h src).start + (idx : K) * (h src).delta + d from by ring, add_sub_add_right_eq_sub]
        set on := (h src).start + (idx : K) * (h src).delta with hon
        have hput : ∀ t : Trace K, (later d t).put "onset" (.time (on + d)) = later d (t.put "onset" (.time on)) :=
          fun t => later_put d t "onset" (.time on)
        have hB : Heap.forEach (fun t => t.put "onset" (.time (on + d)))
              ((laterH d h).set src ((laterH d h src).put "onset" (.time (on + d)))) rsp
            = laterH d (Heap.forEach (fun t => t.put "onset" (.time on))
              (h.set src ((h src).put "onset" (.time on))) rsp) := by
          rw [show (laterH d h src).put "onset" (.time (on + d)) = later d ((h src).put "onset" (.time on)) from
            hput _, laterH_set]
          exact forEach_later d _ _ hput _ _
        rw [hB]
        set h1 := Heap.forEach (fun t => t.put "onset" (.time on)) (h.set src ((h src).put "onset" (.time on))) rsp
        cases sourceWindow m a.winsrc ((h src).endtime - (h src).start) (on - (h src).start) with
        | error e => rfl
        | ok w =>
          obtain ⟨w0, w1, w2⟩ := w
          simp only
          rw [indexOf?_later]
          have hT : dec.taper (dec.trimPad (laterH d h1 src) (on + d + w0) (on + d + w1)) w2
              = later d (dec.taper (dec.trimPad (h1 src) (on + w0) (on + w1)) w2) := by
            rw [show on + d + w0 = on + w0 + d from by ring, show on + d + w1 = on + w1 + d from by ring,
              show laterH d h1 src = later d (h1 src) from rfl, hk.trimPad, hk.taper]
          rw [hT]
          have hH : (if (indexOf? h1 src rsp).isSome = true then laterH d h1 else
              (laterH d h1).set src (later d (dec.taper (dec.trimPad (h1 src) (on + w0) (on + w1)) w2)))
              = laterH d (if (indexOf? h1 src rsp).isSome = true then h1 else
                h1.set src (dec.taper (dec.trimPad (h1 src) (on + w0) (on + w1)) w2)) := by
            split
            · rfl
            · rw [← laterH_set]
          rw [hH]
          exact runKernel_later d dec hk m _ s rsp a.rspComps _ _ _ nrm

end call

end Verif.Props
