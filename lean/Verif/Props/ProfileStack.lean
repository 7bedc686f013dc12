import Verif.Props.Profile
import Verif.Props.StreamOps

/-!
# A profile with all traces in one box compared to the stack (C171)
-/

set_option linter.unusedSimpArgs false
set_option linter.unusedSectionVars false

namespace Verif.Props
open Verif.Py Verif.Model Verif.Model.Profile Verif.Spec

section general
variable {K : Type} [Field K] [LinearOrder K] [IsStrictOrderedRing K] [FloorRing K]

/-- A sum over a list, sorted by keys. -/
theorem sum_by_key {α : Type} (key : α → Str) (out : List α) (hn : (out.map key).Nodup) (P : α → Bool)
    (f : ℕ → Str) (Q : ℕ → Bool) (g : ℕ → K) (s : List ℕ) (hs : ∀ r ∈ s, ∃ t ∈ out, key t = f r ∧ P t = Q r) :
    ((out.filter P).map fun t => ((s.filter fun r => decide (f r = key t)).map g).sum).sum
      = ((s.filter Q).map g).sum := by
  induction s with
  | nil => simp
  | cons r s ih =>
    have ih' := ih fun q hq => hs q (by simp [hq])
    obtain ⟨t, ht, h1, h2⟩ := hs r (by simp)
    have e : ∀ u, (((r :: s).filter fun r => decide (f r = key u)).map g).sum
        = (if f r = key u then g r else 0) + ((s.filter fun r => decide (f r = key u)).map g).sum := by
      intro u
      by_cases hu : f r = key u
      · rw [List.filter_cons_of_pos (by simpa using hu), if_pos hu, List.map_cons, List.sum_cons]
      · rw [List.filter_cons_of_neg (by simpa using hu), if_neg hu, zero_add]
    have hsplit : ((out.filter P).map fun t => (((r :: s).filter fun r => decide (f r = key t)).map g).sum).sum
        = ((out.filter P).map fun u => if f r = key u then g r else 0).sum
          + ((out.filter P).map fun t => ((s.filter fun r => decide (f r = key t)).map g).sum).sum := by
      rw [← List.sum_map_add]
      congr 1
      exact List.map_congr_left fun u _ => e u
    have hone : ∀ (l : List α), (l.map key).Nodup → t ∈ l →
        ((l.filter P).map fun u => if f r = key u then g r else 0).sum = if Q r then g r else 0 := by
      intro l
      induction l with
      | nil => intro _ hm; simp at hm
      | cons u l ihl =>
        intro hnd hm
        rw [List.map_cons, List.nodup_cons] at hnd
        have hzero : ∀ (l' : List α), (∀ v ∈ l', key v ≠ f r) →
            ((l'.filter P).map fun u => if f r = key u then g r else 0).sum = 0 := by
          intro l' hl'
          apply List.sum_eq_zero
          intro x hx
          obtain ⟨v, hv, rfl⟩ := List.mem_map.1 hx
          rw [if_neg]
          exact fun hc => hl' v (List.mem_filter.1 hv).1 hc.symm
        by_cases hu : key u = f r
        · have hut : u = t := by
            rcases List.mem_cons.1 hm with rfl | hm'
            · rfl
            · exact absurd (List.mem_map.2 ⟨t, hm', h1.trans hu.symm⟩) hnd.1
          subst hut
          have hz := hzero l fun v hv hc => hnd.1 (List.mem_map.2 ⟨v, hv, hc.trans h1.symm⟩)
          by_cases hP : P u = true
          · rw [List.filter_cons_of_pos hP, List.map_cons, List.sum_cons, hz, if_pos hu.symm, ← h2, hP]
            simp
          · rw [List.filter_cons_of_neg hP, hz, ← h2]
            simp [hP]
        · have hm' : t ∈ l := by
            rcases List.mem_cons.1 hm with rfl | hm'
            · exact absurd h1 hu
            · exact hm'
          have := ihl hnd.2 hm'
          by_cases hP : P u = true
          · rw [List.filter_cons_of_pos hP, List.map_cons, List.sum_cons, this, if_neg fun hc => hu hc.symm, zero_add]
          · rw [List.filter_cons_of_neg hP, this]
    rw [hsplit, hone out hn ht, ih']
    by_cases hQ : Q r = true
    · rw [List.filter_cons_of_pos hQ, List.map_cons, List.sum_cons, if_pos hQ]
    · rw [List.filter_cons_of_neg hQ, if_neg hQ, zero_add]

/-- The channel of a stacked trace is that of the traces with its id. -/
theorem stack_channel (order : List Str → List Str) (h : Heap K) (s : List ℕ) (out : List (Trace K))
    (hok : stack order h s = .ok out) (t : Trace K) (ht : t ∈ out) (r : ℕ) (hid : (h r).id = t.id)
    (hdot : '.' ∉ (h r).net ∧ '.' ∉ (h r).sta ∧ '.' ∉ (h r).loc ∧ '.' ∉ (h r).cha) : t.cha = (h r).cha := by
  obtain ⟨r0, s', hs, hall⟩ := stack_ok order h s out hok
  obtain ⟨i, hi, hone⟩ := forall2_mem hall ht
  obtain ⟨o1, -⟩ := stackOne_ok h s (h r0) t i hone
  have hsp := splitOn_id (h r) hdot.1 hdot.2.1 hdot.2.2.1 hdot.2.2.2
  rw [hid, o1] at hsp
  unfold stackOne at hone
  rw [hsp] at hone
  simp only at hone
  split at hone
  · simp at hone
  · split at hone
    · injection hone with hone
      subst hone
      rfl
    · simp at hone
    · injection hone with hone
      subst hone
      rfl

variable (within : K × K → List (K × K) → Bool) (boxes : List (Box K)) (crs : Bool)

/-- Number of traces of a stream with an id. -/
def countId (h : Heap K) (s : List ℕ) (i : Str) : ℕ := (s.filter fun r => decide ((h r).id = i)).length

/-- **C171.** All traces of a stream have their piercing points in the box at `b`.  The profile trace of a component
times the number of its traces is the sum of the stacked traces of this component, each times the number of the traces
stacked. -/
theorem C171_weighted (h h' : Heap K) (s l : List ℕ) (next : ℕ) (hs : ∀ r ∈ s, r < next)
    (hprof : profile within boxes crs h s next = .ok (h', l)) (order : List Str → List Str) (ho : SetOrder order)
    (out : List (Trace K)) (hstack : stack order h s = .ok out) (b : K)
    (hbox : ∀ r ∈ s, ∃ c, binOf (boxSets within boxes) (h r) = some (b, c) ∧ (h r).cha.getLast? = some c)
    (hdot : ∀ r ∈ s, '.' ∉ (h r).net ∧ '.' ∉ (h r).sta ∧ '.' ∉ (h r).loc ∧ '.' ∉ (h r).cha)
    (n : ℕ) (hlen : ∀ r ∈ s, (h r).data.length = n) (q : ℕ) (hq : q ∈ l) (c : Char)
    (hc : (h' q).cha.getLast? = some c) (i : ℕ) (hi : i < n) :
    ∃ num : ℕ, (h' q).ext.get "num" = some (.num (num : K)) ∧ 0 < num ∧
      (num : K) * (h' q).data.getD i 0
        = ((out.filter fun t => decide (t.cha.getLast? = some c)).map fun t =>
            (countId h s t.id : K) * t.data.getD i 0).sum := by
  obtain ⟨-, -, hb⟩ := C50_one_per_bin within boxes crs h h' s l next hs hprof
  obtain ⟨k, hk, r, hr, hrk⟩ := hb q hq
  obtain ⟨c', hc1, hc2⟩ := hbox r hr
  have hkc : k = (b, c) := by
    have := hk.2
    rw [hc, Option.some.injEq] at this
    rw [hc1, Option.some.injEq] at hrk
    rw [← hrk] at this ⊢
    simp only at this
    rw [this]
  subst hkc
  obtain ⟨hnum, hdata⟩ := C50_mean within boxes crs h h' s l next hs hprof q hq (b, c) hk
  have hmem : binMembers (boxSets within boxes) h s (b, c)
      = s.filter fun r => decide ((h r).cha.getLast? = some c) := by
    unfold binMembers
    apply List.filter_congr
    intro p hp
    obtain ⟨c2, e1, e2⟩ := hbox p hp
    rw [e1, e2]
    simp
  have hpos : 0 < (binMembers (boxSets within boxes) h s (b, c)).length :=
    List.length_pos_of_mem (List.mem_filter.2 ⟨hr, by simpa using hrk⟩)
  obtain ⟨-, hmean⟩ := hdata n fun p hp => hlen p (List.mem_filter.1 hp).1
  refine ⟨_, hnum, hpos, ?_⟩
  have hpos' : ((binMembers (boxSets within boxes) h s (b, c)).length : K) ≠ 0 := by
    exact_mod_cast hpos.ne'
  rw [hmean i hi]
  unfold meanAt
  rw [List.length_map, mul_div_cancel₀ _ hpos', List.map_map, hmem]
  obtain ⟨hnd, hids⟩ := C47_one_per_id order ho h s out hstack
  have hsum := sum_by_key Trace.id out hnd (fun t => decide (t.cha.getLast? = some c)) (fun r => (h r).id)
    (fun r => decide ((h r).cha.getLast? = some c)) (fun r => (h r).data.getD i 0) s (fun p hp => by
      obtain ⟨t, ht, e⟩ := List.mem_map.1 ((hids (h p).id).2 ⟨p, hp, rfl⟩)
      refine ⟨t, ht, e, ?_⟩
      rw [stack_channel order h s out hstack t ht p e.symm (hdot p hp)])
  refine Eq.trans hsum.symm (congrArg List.sum (List.map_congr_left fun t ht => ?_))
  obtain ⟨hto, -⟩ := List.mem_filter.1 ht
  obtain ⟨⟨r1, hr1, hid1⟩, hl1, hm1, -⟩ := C47_mean order h s out hstack t hto
  have hcnt : (countId h s t.id : K) ≠ 0 := by
    have : 0 < countId h s t.id := List.length_pos_of_mem (List.mem_filter.2 ⟨hr1, by simpa using hid1⟩)
    exact_mod_cast this.ne'
  rw [hm1 i (by rw [← hl1 r1 hr1 hid1, hlen r1 hr1]; exact hi)]
  unfold meanAt
  rw [List.length_map, List.map_map]
  exact (mul_div_cancel₀ _ hcnt).symm

/-- **C171, one station.** If all traces of a component have the same id, the profile trace is the stack. -/
theorem C171_same (h h' : Heap K) (s l : List ℕ) (next : ℕ) (hs : ∀ r ∈ s, r < next)
    (hprof : profile within boxes crs h s next = .ok (h', l)) (order : List Str → List Str) (ho : SetOrder order)
    (out : List (Trace K)) (hstack : stack order h s = .ok out) (b : K)
    (hbox : ∀ r ∈ s, ∃ c, binOf (boxSets within boxes) (h r) = some (b, c) ∧ (h r).cha.getLast? = some c)
    (hdot : ∀ r ∈ s, '.' ∉ (h r).net ∧ '.' ∉ (h r).sta ∧ '.' ∉ (h r).loc ∧ '.' ∉ (h r).cha)
    (n : ℕ) (hlen : ∀ r ∈ s, (h r).data.length = n)
    (hone : ∀ r ∈ s, ∀ r' ∈ s, (h r).cha.getLast? = (h r').cha.getLast? → (h r).id = (h r').id) :
    (∀ q ∈ l, ∃ t ∈ out, t.cha.getLast? = (h' q).cha.getLast?) ∧
    (∀ t ∈ out, ∃ q ∈ l, t.cha.getLast? = (h' q).cha.getLast?) ∧
    ∀ q ∈ l, ∀ t ∈ out, t.cha.getLast? = (h' q).cha.getLast? → (h' q).data = t.data := by
  obtain ⟨-, hb1, hb⟩ := C50_one_per_bin within boxes crs h h' s l next hs hprof
  obtain ⟨hnd, hids⟩ := C47_one_per_id order ho h s out hstack
  have hch : ∀ t ∈ out, ∃ r ∈ s, (h r).id = t.id ∧ t.cha = (h r).cha := by
    intro t ht
    obtain ⟨r, hr, e⟩ := (hids t.id).1 (List.mem_map.2 ⟨t, ht, rfl⟩)
    exact ⟨r, hr, e, stack_channel order h s out hstack t ht r e (hdot r hr)⟩
  refine ⟨fun q hq => ?_, fun t ht => ?_, fun q hq t ht htq => ?_⟩
  · obtain ⟨k, hk, r, hr, hrk⟩ := hb q hq
    obtain ⟨c', hc1, hc2⟩ := hbox r hr
    obtain ⟨t, ht, e⟩ := List.mem_map.1 ((hids (h r).id).2 ⟨r, hr, rfl⟩)
    refine ⟨t, ht, ?_⟩
    rw [stack_channel order h s out hstack t ht r e.symm (hdot r hr), hk.2, hc2]
    rw [hc1, Option.some.injEq] at hrk
    rw [← hrk]
  · obtain ⟨r, hr, e, e2⟩ := hch t ht
    obtain ⟨c', hc1, hc2⟩ := hbox r hr
    obtain ⟨q, ⟨hq, hk⟩, -⟩ := hb1 (b, c') ⟨r, hr, hc1⟩
    exact ⟨q, hq, by rw [e2, hc2, hk.2]⟩
  · obtain ⟨r, hr, e, e2⟩ := hch t ht
    obtain ⟨c, hc1, hc2⟩ := hbox r hr
    have hcq : (h' q).cha.getLast? = some c := by rw [← htq, e2, hc2]
    have hlt : t.data.length = n := by
      obtain ⟨-, hl1, -, -⟩ := C47_mean order h s out hstack t ht
      rw [← hl1 r hr e]
      exact hlen r hr
    obtain ⟨k, hk, r1, hr1, hrk⟩ := hb q hq
    have hlq : (h' q).data.length = n :=
      ((C50_mean within boxes crs h h' s l next hs hprof q hq k hk).2 n
        fun p hp => hlen p (List.mem_filter.1 hp).1).1
    -- the only stacked trace of the component
    have honly : out.filter (fun u => decide (u.cha.getLast? = some c)) = [t] := by
      have hall : ∀ u ∈ out, u.cha.getLast? = some c → u = t := by
        intro u hu huc
        obtain ⟨r', hr', e', e2'⟩ := hch u hu
        have : u.id = t.id := by
          rw [← e', ← e]
          exact hone r' hr' r hr (by rw [← e2', huc, hc2])
        exact List.inj_on_of_nodup_map hnd hu ht this
      have hnd' : (out.filter (fun u => decide (u.cha.getLast? = some c))).Nodup :=
        (List.Nodup.of_map _ hnd).filter _
      have hmem : t ∈ out.filter (fun u => decide (u.cha.getLast? = some c)) :=
        List.mem_filter.2 ⟨ht, by simp [e2, hc2]⟩
      have hsub : ∀ u ∈ out.filter (fun u => decide (u.cha.getLast? = some c)), u = t := fun u hu =>
        hall u (List.mem_filter.1 hu).1 (by simpa using (List.mem_filter.1 hu).2)
      generalize out.filter (fun u => decide (u.cha.getLast? = some c)) = l at hnd' hmem hsub
      cases l with
      | nil => simp at hmem
      | cons u l =>
        have hu := hsub u (by simp)
        subst hu
        cases l with
        | nil => rfl
        | cons v l =>
          have hv := hsub v (by simp)
          subst hv
          simp at hnd'
    apply List.ext_getElem (by rw [hlq, hlt])
    intro i h1 h2
    obtain ⟨num, hnum, hpos, hsum⟩ := C171_weighted within boxes crs h h' s l next hs hprof order ho out hstack b hbox
      hdot n hlen q hq c hcq i (by rw [← hlq]; exact h1)
    rw [honly] at hsum
    simp only [List.map_cons, List.map_nil, List.sum_cons, List.sum_nil, add_zero] at hsum
    have hcount : num = countId h s t.id := by
      obtain ⟨hn2, -⟩ := C50_mean within boxes crs h h' s l next hs hprof q hq k hk
      rw [hnum] at hn2
      simp only [Option.some.injEq, Val.num.injEq, Nat.cast_inj] at hn2
      rw [hn2]
      unfold countId binMembers
      congr 1
      apply List.filter_congr
      intro p hp
      obtain ⟨c2, e1, e3⟩ := hbox p hp
      have hkk : k = (b, c) := by
        obtain ⟨c4, e4, e5⟩ := hbox r1 hr1
        rw [e4, Option.some.injEq] at hrk
        have := hk.2
        rw [hcq, Option.some.injEq] at this
        rw [← hrk] at this ⊢
        simp only at this
        rw [this]
      rw [e1, hkk]
      by_cases hpc : c2 = c
      · subst hpc
        simp only [decide_true]
        symm
        rw [decide_eq_true_iff]
        exact (hone p hp r hr (by rw [e3, hc2])).trans e
      · have : (h p).id ≠ t.id := fun hcon => hpc (by
          have := stack_channel order h s out hstack t ht p hcon (hdot p hp)
          rw [e2] at this
          rw [this, e3] at hc2
          simpa using hc2)
        simp [hpc, this]
    rw [hcount] at hsum hpos
    have hne : (countId h s t.id : K) ≠ 0 := by exact_mod_cast hpos.ne'
    have := mul_left_cancel₀ hne hsum
    rw [List.getD_eq_getElem _ _ h1, List.getD_eq_getElem _ _ h2] at this
    exact this

end general

/-! ## Examples -/

/-- Two traces of station A, one of station B, and another component of station A; all in the first box. -/
def oneBoxHeap : Heap ℚ := fun r =>
  ⟨[], if r = 2 then "B".toList else "A".toList, [], if r = 3 then "BHT".toList else "BHQ".toList, 10, 2, [r, 2],
    [("pp_latitude", .num (1/2)), ("pp_longitude", .num 0), ("onset", .time 12)]⟩

/-- C171 applies: `3 * 1 = 2 * (1/2) + 1 * 2` for the first sample of component Q. -/
example : ∃ h' l out, profile exWithin exBoxes false oneBoxHeap [0, 1, 2, 3] 4 = .ok (h', l) ∧
    stack dedupOrder oneBoxHeap [0, 1, 2, 3] = .ok out ∧
    ∀ q ∈ l, ∀ c, (h' q).cha.getLast? = some c → ∀ i < 2, ∃ num : ℕ, (h' q).ext.get "num" = some (.num (num : ℚ)) ∧
      0 < num ∧ (num : ℚ) * (h' q).data.getD i 0 = ((out.filter fun t => decide (t.cha.getLast? = some c)).map fun t =>
        (countId oneBoxHeap [0, 1, 2, 3] t.id : ℚ) * t.data.getD i 0).sum := by
  have hlt : ∀ r ∈ [0, 1, 2, 3], r < 4 := by decide
  obtain ⟨h', l, hp⟩ := C50_succeeds exWithin exBoxes false oneBoxHeap [0, 1, 2, 3] 4 hlt
    (fun r hr => by
      simp only [List.mem_cons, List.not_mem_nil, or_false] at hr
      rcases hr with rfl | rfl | rfl | rfl
      · exact ⟨1/2, 0, 'Q', rfl, rfl, rfl⟩
      · exact ⟨1/2, 0, 'Q', rfl, rfl, rfl⟩
      · exact ⟨1/2, 0, 'Q', rfl, rfl, rfl⟩
      · exact ⟨1/2, 0, 'T', rfl, rfl, rfl⟩)
    (fun r _ => .inr ⟨12, rfl⟩) ⟨_, _, _, rfl, rfl⟩ (fun _ _ _ _ _ => rfl)
  obtain ⟨out, ho⟩ := C47_succeeds dedupOrder dedup_setOrder oneBoxHeap [0, 1, 2, 3] (by simp) (by decide +kernel)
    (fun _ _ _ _ _ => rfl) (fun r _ => .inr ⟨12, rfl⟩)
  refine ⟨h', l, out, hp, ho, fun q hq c hc i hi => ?_⟩
  refine C171_weighted exWithin exBoxes false oneBoxHeap h' [0, 1, 2, 3] l 4 hlt hp dedupOrder dedup_setOrder out ho 1
    (fun r hr => ?_) (by decide +kernel) 2 (fun _ _ => rfl) q hq c hc i hi
  simp only [List.mem_cons, List.not_mem_nil, or_false] at hr
  rcases hr with rfl | rfl | rfl | rfl
  · exact ⟨'Q', by decide +kernel, by decide +kernel⟩
  · exact ⟨'Q', by decide +kernel, by decide +kernel⟩
  · exact ⟨'Q', by decide +kernel, by decide +kernel⟩
  · exact ⟨'T', by decide +kernel, by decide +kernel⟩

/-- C171, one station: the hypotheses are met by the traces of station A. -/
example : ∃ h' l out, profile exWithin exBoxes false oneBoxHeap [0, 1, 3] 4 = .ok (h', l) ∧
    stack dedupOrder oneBoxHeap [0, 1, 3] = .ok out ∧
    ∀ q ∈ l, ∃ t ∈ out, (h' q).data = t.data := by
  have hlt : ∀ r ∈ [0, 1, 3], r < 4 := by decide
  obtain ⟨h', l, hp⟩ := C50_succeeds exWithin exBoxes false oneBoxHeap [0, 1, 3] 4 hlt
    (fun r hr => by
      simp only [List.mem_cons, List.not_mem_nil, or_false] at hr
      rcases hr with rfl | rfl | rfl
      · exact ⟨1/2, 0, 'Q', rfl, rfl, rfl⟩
      · exact ⟨1/2, 0, 'Q', rfl, rfl, rfl⟩
      · exact ⟨1/2, 0, 'T', rfl, rfl, rfl⟩)
    (fun r _ => .inr ⟨12, rfl⟩) ⟨_, _, _, rfl, rfl⟩ (fun _ _ _ _ _ => rfl)
  obtain ⟨out, ho⟩ := C47_succeeds dedupOrder dedup_setOrder oneBoxHeap [0, 1, 3] (by simp) (by decide +kernel)
    (fun _ _ _ _ _ => rfl) (fun r _ => .inr ⟨12, rfl⟩)
  refine ⟨h', l, out, hp, ho, fun q hq => ?_⟩
  obtain ⟨h1, -, h3⟩ := C171_same exWithin exBoxes false oneBoxHeap h' [0, 1, 3] l 4 hlt hp dedupOrder dedup_setOrder out
    ho 1 (fun r hr => by
      simp only [List.mem_cons, List.not_mem_nil, or_false] at hr
      rcases hr with rfl | rfl | rfl
      · exact ⟨'Q', by decide +kernel, by decide +kernel⟩
      · exact ⟨'Q', by decide +kernel, by decide +kernel⟩
      · exact ⟨'T', by decide +kernel, by decide +kernel⟩) (by decide +kernel) 2 (fun _ _ => rfl) (by decide +kernel)
  obtain ⟨t, ht, e⟩ := h1 q hq
  exact ⟨t, ht, h3 q hq t ht e⟩

end Verif.Props
