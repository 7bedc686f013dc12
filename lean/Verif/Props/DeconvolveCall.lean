import Verif.Props.Deconvolve

/-!
# `deconvolve()` as a whole: C04 - C08
-/

set_option linter.unusedSimpArgs false
set_option linter.unusedSectionVars false

namespace Verif.Props
open Verif.Py Verif.Model Verif.Spec

section call
variable {K : Type} [Field K] [LinearOrder K] [IsStrictOrderedRing K] [FloorRing K]

theorem writeBack_frame (h : Heap K) (rsp : List Nat) (fs : List (Trace K → Trace K)) (r : Nat)
    (hr : r ∉ rsp) : (writeBack h rsp fs).1 r = h r := by
  induction rsp generalizing h fs with
  | nil => rfl
  | cons q rsp ih =>
    simp only [List.mem_cons, not_or] at hr
    cases fs with
    | nil => rfl
    | cons f fs =>
      show (writeBack (h.set q (f (h q))) rsp fs).1 r = h r
      rw [ih _ _ hr.2, Heap.set_ne _ _ hr.1]

theorem writeBack_inv {β : Type} (g : Trace K → β) (h : Heap K) (rsp : List Nat)
    (fs : List (Trace K → Trace K)) (hf : ∀ f ∈ fs, ∀ t, g (f t) = g t) (r : Nat) :
    g ((writeBack h rsp fs).1 r) = g (h r) := by
  induction rsp generalizing h fs with
  | nil => rfl
  | cons q rsp ih =>
    cases fs with
    | nil => rfl
    | cons f fs =>
      show g ((writeBack (h.set q (f (h q))) rsp fs).1 r) = g (h r)
      rw [ih _ _ fun f hf' => hf f (by simp [hf'])]
      by_cases hq : r = q
      · subst hq; rw [Heap.set_self, hf f (by simp)]
      · rw [Heap.set_ne _ _ hq]

theorem writeBack_ok (h : Heap K) (rsp : List Nat) (fs : List (Trace K → Trace K))
    (hl : rsp.length ≤ fs.length) : (writeBack h rsp fs).2 = none := by
  induction rsp generalizing h fs with
  | nil => rfl
  | cons q rsp ih =>
    cases fs with
    | nil => simp at hl
    | cons f fs => exact ih _ _ (by simpa using hl)

/-- Results are written to the responses in order. -/
theorem writeBack_get (h : Heap K) (rsp : List Nat) (fs : List (Trace K → Trace K))
    (hn : rsp.Nodup) (i r : Nat) (f : Trace K → Trace K) (hr : rsp[i]? = some r)
    (hf : fs[i]? = some f) (hl : rsp.length ≤ fs.length) :
    (writeBack h rsp fs).1 r = f (h r) := by
  induction rsp generalizing h fs i with
  | nil => simp at hr
  | cons q rsp ih =>
    cases fs with
    | nil => simp at hl
    | cons f' fs =>
      show (writeBack (h.set q (f' (h q))) rsp fs).1 r = f (h r)
      rw [List.nodup_cons] at hn
      cases i with
      | zero =>
        simp only [List.getElem?_cons_zero, Option.some.injEq] at hr hf
        subst hr hf
        rw [writeBack_frame _ _ _ _ hn.1, Heap.set_self]
      | succ i =>
        simp only [List.getElem?_cons_succ] at hr hf
        rw [ih _ _ hn.2 i hr hf (by simpa using hl)]
        have : r ≠ q := fun e => hn.1 (e ▸ List.mem_of_getElem? hr)
        rw [Heap.set_ne _ _ this]

theorem finish_fst (h : Heap K) (rsp : List Nat) (res : Res (List (Trace K → Trace K))) :
    (finish h rsp res).1 = match res with | .error _ => h | .ok fs => (writeBack h rsp fs).1 := by
  unfold finish
  cases res with
  | error e => rfl
  | ok fs =>
    simp only
    cases hw : writeBack h rsp fs with
    | mk h' e => cases e <;> simp

theorem finish_frame (h : Heap K) (rsp : List Nat) (res : Res (List (Trace K → Trace K))) (r : Nat)
    (hr : r ∉ rsp) : (finish h rsp res).1 r = h r := by
  rw [finish_fst]
  cases res with
  | error e => rfl
  | ok fs => exact writeBack_frame h rsp fs r hr

theorem finish_inv {β : Type} (g : Trace K → β) (h : Heap K) (rsp : List Nat)
    (res : Res (List (Trace K → Trace K))) (hf : ∀ fs, res = .ok fs → ∀ f ∈ fs, ∀ t, g (f t) = g t)
    (r : Nat) : g ((finish h rsp res).1 r) = g (h r) := by
  rw [finish_fst]
  cases res with
  | error e => rfl
  | ok fs => exact writeBack_inv g h rsp fs (hf fs rfl) r

theorem finish_result (h : Heap K) (rsp : List Nat) (res : Res (List (Trace K → Trace K)))
    (l : List Nat) (hl : (finish h rsp res).2 = .ok l) : l = rsp := by
  unfold finish at hl
  cases res with
  | error e => simp at hl
  | ok fs =>
    simp only at hl
    cases hw : writeBack h rsp fs with
    | mk h' e => cases e <;> simp [hw] at hl; exact hl.symm

/-- The user function only touches its responses (used only for `method='func'`). -/
def FuncFrame (env : DeconvEnv K) : Prop :=
  ∀ h rsp srcT ts n r, r ∉ rsp → (env.func h rsp srcT ts n).1 r = h r

theorem runKernel_frame (env : DeconvEnv K) (m : DMethod) (h : Heap K) (s rsp : List Nat)
    (rc : Option Str) (srcT : Trace K) (sr ts : K) (nrm : Option Norm)
    (hfunc : m = .func → FuncFrame env) (r : Nat) (hr : r ∉ rsp) :
    (runKernel env m h s rsp rc srcT sr ts nrm).1 r = h r := by
  cases m with
  | func => exact hfunc rfl _ _ _ _ _ _ hr
  | _ => exact finish_frame _ _ _ _ hr

theorem runKernel_inv {β : Type} (g : Trace K → β) (hg : ∀ d t, g (setData d t) = g t)
    (hg' : ∀ x t, g (t.put "iterations" x) = g t)
    (env : DeconvEnv K) (m : DMethod) (h : Heap K) (s rsp : List Nat)
    (rc : Option Str) (srcT : Trace K) (sr ts : K) (nrm : Option Norm)
    (hfunc : m ≠ .func) (r : Nat) :
    g ((runKernel env m h s rsp rc srcT sr ts nrm).1 r) = g (h r) := by
  have key : ∀ (x : Res (List (List K))) fs, x.map (·.map setData) = .ok fs →
      ∀ f ∈ fs, ∀ t, g (f t) = g t := by
    intro x fs hx f hf t
    cases x with
    | error e => simp [Except.map] at hx
    | ok y =>
      simp only [Except.map, Except.ok.injEq] at hx
      subst hx
      obtain ⟨d, _, rfl⟩ := List.mem_map.1 hf
      exact hg d t
  cases m with
  | func => exact absurd rfl hfunc
  | iterative =>
    refine finish_inv g _ _ _ ?_ _
    intro fs hx f hf t
    cases hy : env.iter (rsp.map fun r => (h r).data) srcT.data sr ts nrm with
    | error e => simp [Except.map, hy] at hx
    | ok y =>
      simp only [Except.map, hy, Except.ok.injEq] at hx
      subst hx
      obtain ⟨d, _, rfl⟩ := List.mem_map.1 hf
      show g ((setData d.1 t).put "iterations" _) = g t
      rw [hg', hg]
  | _ => exact finish_inv g _ _ _ (key _) _

theorem runKernel_result (env : DeconvEnv K) (m : DMethod) (h : Heap K) (s rsp : List Nat)
    (rc : Option Str) (srcT : Trace K) (sr ts : K) (nrm : Option Norm) (l : List Nat)
    (hfunc : m ≠ .func)
    (hl : (runKernel env m h s rsp rc srcT sr ts nrm).2 = .ok l) : l = rsp := by
  cases m with
  | func => exact absurd rfl hfunc
  | _ => exact finish_result _ _ _ _ hl

theorem deconvMethod_iff (m : Str) : (deconvMethod m).isSome = true ↔ KnownMethod m := by
  unfold deconvMethod KnownMethod
  by_cases h1 : m = "freq".toList
  · rw [if_pos h1]; exact ⟨fun _ => Or.inr (Or.inl h1), fun _ => rfl⟩
  rw [if_neg h1]
  by_cases h2 : m = "time".toList
  · rw [if_pos h2]; exact ⟨fun _ => Or.inl h2, fun _ => rfl⟩
  rw [if_neg h2]
  by_cases h3 : m = "waterlevel".toList
  · rw [if_pos h3]; exact ⟨fun _ => Or.inr (Or.inr (Or.inl h3)), fun _ => rfl⟩
  rw [if_neg h3]
  by_cases h4 : m = "iterative".toList
  · rw [if_pos h4]; exact ⟨fun _ => Or.inr (Or.inr (Or.inr (Or.inl h4))), fun _ => rfl⟩
  rw [if_neg h4]
  by_cases h5 : m = "multitaper".toList
  · rw [if_pos h5]; exact ⟨fun _ => Or.inr (Or.inr (Or.inr (Or.inr (Or.inl h5)))), fun _ => rfl⟩
  rw [if_neg h5]
  by_cases h6 : m = "func".toList
  · rw [if_pos h6]; exact ⟨fun _ => Or.inr (Or.inr (Or.inr (Or.inr (Or.inr (h6))))), fun _ => rfl⟩
  rw [if_neg h6]
  simp only [h1, h2, h3, h4, h5, h6, or_self, iff_false]
  exact Bool.false_ne_true

theorem deconvMethod_func (m : Str) (h : deconvMethod m = some .func) : m = "func".toList := by
  unfold deconvMethod at h
  by_cases h1 : m = "freq".toList
  · rw [if_pos h1] at h; cases h
  rw [if_neg h1] at h
  by_cases h2 : m = "time".toList
  · rw [if_pos h2] at h; cases h
  rw [if_neg h2] at h
  by_cases h3 : m = "waterlevel".toList
  · rw [if_pos h3] at h; cases h
  rw [if_neg h3] at h
  by_cases h4 : m = "iterative".toList
  · rw [if_pos h4] at h; cases h
  rw [if_neg h4] at h
  by_cases h5 : m = "multitaper".toList
  · rw [if_pos h5] at h; cases h
  rw [if_neg h5] at h
  by_contra h6
  rw [if_neg h6] at h; cases h

theorem snapped_onset (h : Heap K) (src : Nat) (rsp : List Nat) (onset : K) (r : Nat)
    (hr : r = src ∨ r ∈ rsp) : (snapped h src rsp onset r).getTime "onset" = some onset := by
  unfold snapped
  by_cases hm : r ∈ rsp
  · exact Heap.forEach_estab (fun t => t.getTime "onset" = some onset) _
      (fun t => by simp [Trace.getTime, Trace.put]) _ _ _ hm
  · rw [Heap.forEach_not_mem _ _ _ _ hm]
    have : r = src := by tauto
    subst this
    rw [Heap.set_self]
    simp [Trace.getTime, Trace.put]

theorem snapped_frame (h : Heap K) (src : Nat) (rsp : List Nat) (onset : K) (r : Nat)
    (h1 : r ≠ src) (h2 : r ∉ rsp) : snapped h src rsp onset r = h r := by
  unfold snapped
  rw [Heap.forEach_not_mem _ _ _ _ h2, Heap.set_ne _ _ h1]

theorem snapped_inv {β : Type} (g : Trace K → β) (hg : ∀ x t, g (t.put "onset" x) = g t)
    (h : Heap K) (src : Nat) (rsp : List Nat) (onset : K) (r : Nat) :
    g (snapped h src rsp onset r) = g (h r) := by
  unfold snapped
  rw [Heap.forEach_inv g _ (fun t => hg _ t)]
  by_cases hr : r = src
  · subst hr; rw [Heap.set_self, hg]
  · rw [Heap.set_ne _ _ hr]

/-- Only one trace can be the source, so comparing traces by value or by identity is the same. -/
theorem indexOf?_eq (h : Heap K) (s : List Nat) (comps : Str) (src : Nat) (rsp : List Nat)
    (hsrc : selectComps h comps s = .ok [src]) (hsub : ∀ r ∈ rsp, r ∈ s) :
    indexOf? h src rsp = rsp.findIdx? (fun r => decide (r = src)) := by
  unfold indexOf?
  have hm := mem_selectComps h comps s [src] hsrc
  have h1 : ∀ r ∈ rsp, h r = h src → r = src := by
    intro r hr he
    have : OfComp comps (h src) := ((hm src).1 (by simp)).2
    have : r ∈ [src] := (hm r).2 ⟨hsub r hr, he ▸ this⟩
    simpa using this
  clear hsub
  induction rsp with
  | nil => rfl
  | cons q rsp ih =>
    rw [List.findIdx?_cons, List.findIdx?_cons, ih fun r hr => h1 r (by simp [hr])]
    by_cases hq : q = src
    · simp [hq]
    · have : ¬ h q = h src := fun e => hq (h1 q (by simp) e)
      simp [hq, this]

theorem indexOf?_isSome (h : Heap K) (s : List Nat) (comps : Str) (src : Nat) (rsp : List Nat)
    (hsrc : selectComps h comps s = .ok [src]) (hsub : ∀ r ∈ rsp, r ∈ s) :
    (indexOf? h src rsp).isSome ↔ src ∈ rsp := by
  rw [indexOf?_eq h s comps src rsp hsrc hsub, List.findIdx?_isSome]
  simp

theorem selectRsp_sub (h : Heap K) (c : Option Str) (s rsp : List Nat)
    (hr : selectRsp h c s = .ok rsp) : ∀ r ∈ rsp, r ∈ s := by
  cases c with
  | none => simp [selectRsp] at hr; simp [hr]
  | some c => intro r h'; exact ((mem_selectComps h c s rsp hr r).1 h').1

end call
end Verif.Props
