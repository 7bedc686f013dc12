import Verif.Props.WriteResults

/-!
# Stacking a stack changes nothing (C141)
-/

set_option linter.unusedSimpArgs false
set_option linter.unusedSectionVars false

namespace Verif.Props
open Verif.Py Verif.Model Verif.Spec

section
variable {K : Type} [Field K] [LinearOrder K]

/-- The header entries of a stack whose first trace is `tr`. -/
def stackExt (tr : Trace K) : Dict (Val K) :=
  let ext : Dict (Val K) := stackEntries.filterMap fun k => (tr.ext.get k).map fun v => (k, v)
  match tr.ext.get "onset" with
  | some (.time o) => ext.set "onset" (.time (0 + (o - tr.start)))
  | _ => ext

theorem stackOne_form (h : Heap K) (s : List Nat) (tr t : Trace K) (ident : Str)
    (hok : stackOne h s tr ident = .ok t) :
    splitOn '.' ident = [t.net, t.sta, t.loc, t.cha] ∧ t.start = 0 ∧ t.sr = tr.sr ∧ t.ext = stackExt tr := by
  unfold stackOne at hok
  unfold stackExt
  split at hok
  · rename_i net sta loc cha hsplit
    split at hok
    · cases hok
    · simp only [] at hok
      split at hok
      · injection hok with hok
        rename_i o ho
        subst hok
        refine ⟨hsplit, rfl, rfl, ?_⟩
        rw [ho]
        rfl
      · cases hok
      · injection hok with hok
        rename_i ho
        subst hok
        refine ⟨hsplit, rfl, rfl, ?_⟩
        rw [ho]
  · cases hok

theorem npMean_one (d : List K) : npMean [d] = .ok d := by
  unfold npMean
  simp

theorem trace_ext (t u : Trace K) (h1 : t.net = u.net) (h2 : t.sta = u.sta) (h3 : t.loc = u.loc) (h4 : t.cha = u.cha)
    (h5 : t.start = u.start) (h6 : t.sr = u.sr) (h7 : t.data = u.data) (h8 : t.ext = u.ext) : t = u := by
  cases t
  cases u
  simp_all

/-- A stacked trace, stacked alone with the header of any trace of the same stack. -/
theorem stackOne_again (h : Heap K) (s : List Nat) (tr t t0 : Trace K) (i0 : Str) (h2 : Heap K) (s2 : List Nat)
    (hok : stackOne h s tr t.id = .ok t) (hok0 : stackOne h s tr i0 = .ok t0)
    (hd : (s2.filter (fun r => (h2 r).id = t.id)).map (fun r => (h2 r).data) = [t.data]) :
    stackOne h2 s2 t0 t.id = .ok t := by
  obtain ⟨a1, a2, a3, a4⟩ := stackOne_form h s tr t _ hok
  obtain ⟨-, b2, b3, b4⟩ := stackOne_form h s tr t0 _ hok0
  obtain ⟨-, -, -, -, hget, c6, c7⟩ := stackOne_ok h s tr t0 _ hok0
  have hfm : ∀ l : List String, (∀ k ∈ l, t0.ext.get k = tr.ext.get k) →
      (l.filterMap fun k => (t0.ext.get k).map fun v => (k, v)) =
      l.filterMap fun k => (tr.ext.get k).map fun v => (k, v) := by
    intro l hl
    exact List.filterMap_congr (fun k hk => by rw [hl k hk])
  have hon : (∃ o, tr.ext.get "onset" = some (.time o)) ∨ tr.ext.get "onset" = none := by
    unfold stackOne at hok0
    split at hok0
    · split at hok0
      · cases hok0
      · simp only [] at hok0
        split at hok0
        · exact Or.inl ⟨_, by assumption⟩
        · cases hok0
        · exact Or.inr (by assumption)
    · cases hok0
  unfold stackOne
  rw [a1]
  simp only [hd, npMean_one, hfm _ hget]
  rcases hon with ⟨o, ho⟩ | ho
  · rw [c6 o ho]
    simp only [b2, zero_add, sub_zero]
    unfold stackExt at a4
    rw [ho] at a4
    simp only [zero_add] at a4
    exact congrArg Except.ok (trace_ext _ _ rfl rfl rfl rfl a2.symm (b3.trans a3.symm) rfl a4.symm)
  · rw [c7 ho]
    simp only []
    unfold stackExt at a4
    rw [ho] at a4
    simp only [] at a4
    exact congrArg Except.ok (trace_ext _ _ rfl rfl rfl rfl a2.symm (b3.trans a3.symm) rfl a4.symm)

theorem filter_one {α : Type} (f : Nat → α) [DecidableEq α] (s : List Nat) (hn : (s.map f).Nodup) (r : Nat)
    (hr : r ∈ s) : s.filter (fun q => f q = f r) = [r] := by
  induction s with
  | nil => cases hr
  | cons a s ih =>
    rw [List.map_cons, List.nodup_cons] at hn
    rcases List.mem_cons.1 hr with rfl | hr
    · rw [List.filter_cons_of_pos (by simp), List.filter_eq_nil_iff.2]
      intro q hq hqr
      exact hn.1 (List.mem_map.2 ⟨q, hq, by simpa using hqr⟩)
    · rw [List.filter_cons_of_neg, ih hn.2 hr]
      intro h
      exact hn.1 (List.mem_map.2 ⟨r, hr, by simpa using Eq.symm (by simpa using h)⟩)

theorem mapM_ok_of {α β : Type} (f : α → Res β) (g : α → β) (l : List α) (h : ∀ a ∈ l, f a = .ok (g a)) :
    l.mapM f = .ok (l.map g) := by
  induction l with
  | nil => rfl
  | cons a l ih =>
    rw [List.mapM_cons, h a List.mem_cons_self, ih fun b hb => h b (List.mem_cons_of_mem _ hb)]
    rfl

/-- **C141** If a stream has been stacked, and the traces of the stack are stacked again, whatever the order of the
traces and of the set of ids, the result consists of the same traces, with the same samples and headers. -/
theorem C141_twice (order order' : List Str → List Str) (ho : SetOrder order) (ho' : SetOrder order')
    (h : Heap K) (s : List Nat) (out : List (Trace K)) (hok : stack order h s = .ok out)
    (h2 : Heap K) (s2 : List Nat) (hs2 : (s2.map h2).Perm out) :
    ∃ out2, stack order' h2 s2 = .ok out2 ∧ out2.Perm out := by
  obtain ⟨hnd, hin⟩ := C47_one_per_id order ho h s out hok
  obtain ⟨r0, s', hs, hall⟩ := stack_ok order h s out hok
  have hid : ∀ t ∈ out, stackOne h s (h r0) t.id = .ok t := by
    intro t ht
    obtain ⟨i, hi, hone⟩ := forall2_mem hall ht
    rw [(stackOne_ok h s (h r0) t i hone).1]
    exact hone
  have hmem : ∀ r ∈ s2, h2 r ∈ out := fun r hr => hs2.mem_iff.1 (List.mem_map.2 ⟨r, hr, rfl⟩)
  have hnd2 : (s2.map fun r => (h2 r).id).Nodup := by
    have : (s2.map fun r => (h2 r).id) = (s2.map h2).map Trace.id := by rw [List.map_map]; rfl
    rw [this]
    exact (hs2.map Trace.id).nodup_iff.2 hnd
  cases hs2' : s2 with
  | nil =>
    rw [hs2'] at hs2
    have := (hin (h r0).id).2 ⟨r0, by rw [hs]; exact List.mem_cons_self, rfl⟩
    rw [List.nil_perm.1 hs2] at this
    cases this
  | cons q0 s3 =>
    rw [← hs2']
    have hq0 : q0 ∈ s2 := by rw [hs2']; exact List.mem_cons_self
    have hst : stack order' h2 s2 = (order' (s2.map fun r => (h2 r).id)).mapM (stackOne h2 s2 (h2 q0)) := by
      rw [hs2']; rfl
    -- the trace with a given id
    have hfind : ∀ i ∈ order' (s2.map fun r => (h2 r).id), ∃ r ∈ s2, (h2 r).id = i := by
      intro i hi
      rw [(ho' _).2] at hi
      obtain ⟨r, hr, e⟩ := List.mem_map.1 hi
      exact ⟨r, hr, e⟩
    have hstep : ∀ r ∈ s2, stackOne h2 s2 (h2 q0) (h2 r).id = .ok (h2 r) := by
      intro r hr
      refine stackOne_again h s (h r0) (h2 r) (h2 q0) (h2 q0).id h2 s2 (hid _ (hmem r hr)) (hid _ (hmem q0 hq0)) ?_
      rw [filter_one (fun r => (h2 r).id) s2 hnd2 r hr]
      rfl
    let g : Str → Trace K := fun i => ((s2.find? fun r => (h2 r).id = i).map h2).getD (h2 q0)
    have hg : ∀ r ∈ s2, g (h2 r).id = h2 r := by
      intro r hr
      have : (s2.find? fun q => (h2 q).id = (h2 r).id) = some r := by
        rw [← List.head?_filter, filter_one (fun r => (h2 r).id) s2 hnd2 r hr]
        rfl
      show ((s2.find? fun q => (h2 q).id = (h2 r).id).map h2).getD (h2 q0) = h2 r
      rw [this]
      rfl
    refine ⟨(order' (s2.map fun r => (h2 r).id)).map g, ?_, ?_⟩
    · rw [hst]
      refine mapM_ok_of _ g _ (fun i hi => ?_)
      obtain ⟨r, hr, rfl⟩ := hfind i hi
      rw [hg r hr]
      exact hstep r hr
    · have hp : (order' (s2.map fun r => (h2 r).id)).Perm (s2.map fun r => (h2 r).id) :=
        (List.perm_ext_iff_of_nodup (ho' _).1 hnd2).2 (ho' _).2
      have := hp.map g
      rw [List.map_map] at this
      rw [List.map_congr_left (f := g ∘ fun r => (h2 r).id) (g := h2) (fun r hr => hg r hr)] at this
      exact this.trans hs2

/-- The example: two channels with two traces each; the second stack sees the traces in another order. -/
def k2Heap : Heap ℚ := fun r =>
  { net := "N".toList, sta := "S".toList, loc := [], cha := if r % 2 = 0 then "BHQ".toList else "BHL".toList,
    start := 100 * r, sr := 10, data := [r, 2, 3 * r],
    ext := [("onset", .time (100 * r + 5)), ("phase", .str "P".toList), ("slowness", .num 6)] }

example : ∃ t u : Trace ℚ, stack dedupOrder k2Heap [0, 1, 2, 3] = .ok [t, u] ∧ t ≠ u ∧
    stack dedupOrder (fun r => if r = 0 then u else t) [0, 1] = .ok [u, t] ∧ t.data = [1, 2, 3] ∧
    t.ext = [("phase", .str "P".toList), ("onset", .time 5)] := by
  refine ⟨(match stack dedupOrder k2Heap [0, 1, 2, 3] with | .ok [t, _] => t | _ => k2Heap 0),
    (match stack dedupOrder k2Heap [0, 1, 2, 3] with | .ok [_, t] => t | _ => k2Heap 0), ?_, ?_, ?_, ?_, ?_⟩ <;>
  decide +kernel

end

end Verif.Props
