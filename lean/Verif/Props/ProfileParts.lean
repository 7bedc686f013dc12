import Verif.Props.Profile

/-!
# Profiles of parts of a stream (C149) and linearity of profiles (C150)
-/

set_option linter.unusedSimpArgs false
set_option linter.unusedSectionVars false

namespace Verif.Props
open Verif.Py Verif.Model.Profile Verif.Spec

section parts
variable {K : Type} [Field K] [LinearOrder K] [IsStrictOrderedRing K]
variable (within : K × K → List (K × K) → Bool) (boxes : List (Box K)) (crs : Bool)

theorem binMembers_parts (bs : List (K × (K × K → Bool))) (h : Heap K) (s1 s2 : List Nat) (k : K × Char) :
    binMembers bs h (s1 ++ s2) k = binMembers bs h s1 k ++ binMembers bs h s2 k := by
  unfold binMembers
  exact List.filter_append ..

theorem binMembers_ne_nil (h h' : Heap K) (s l : List Nat) (next : Nat) (hs : ∀ r ∈ s, r < next)
    (hok : profile within boxes crs h s next = .ok (h', l)) (k : K × Char) :
    (∃ q ∈ l, HasBin (h' q) k) ↔ binMembers (boxSets within boxes) h s k ≠ [] := by
  obtain ⟨-, h2, h3⟩ := C50_one_per_bin within boxes crs h h' s l next hs hok
  constructor
  · rintro ⟨q, hq, hk⟩ e
    obtain ⟨k', hk', r, hr, hrk⟩ := h3 q hq
    obtain rfl := hk'.unique hk
    have : r ∈ binMembers (boxSets within boxes) h s k' := List.mem_filter.2 ⟨hr, by simpa using hrk⟩
    rw [e] at this
    simp at this
  · intro hne
    obtain ⟨r, hr⟩ := List.exists_mem_of_ne_nil _ hne
    obtain ⟨hr1, hr2⟩ := List.mem_filter.1 hr
    obtain ⟨q, hq, -⟩ := h2 k ⟨r, hr1, by simpa using hr2⟩
    exact ⟨q, hq.1, hq.2⟩

theorem meanAt_append (a b : List (List K)) (i : Nat) (ha : a ≠ []) (hb : b ≠ []) :
    ((a.length + b.length : Nat) : K) * meanAt (a ++ b) i = (a.length : K) * meanAt a i + (b.length : K) * meanAt b i := by
  have hn : ∀ x : List (List K), x ≠ [] → (x.length : K) ≠ 0 := fun x hx => by
    simpa using hx
  have h1 := hn a ha
  have h2 := hn b hb
  have h3 : ((a.length + b.length : Nat) : K) ≠ 0 := by
    have : (a ++ b) ≠ [] := by simp [ha]
    have := hn _ this
    rwa [List.length_append] at this
  unfold meanAt
  rw [List.length_append, List.map_append, List.sum_append, mul_div_cancel₀ _ h3, mul_div_cancel₀ _ h1,
    mul_div_cancel₀ _ h2]

/-- C149.  A bin is in the profile of a stream iff it is in the profile of one of its parts. -/
theorem C149_bins (h h0 h1 h2 : Heap K) (s1 s2 l l1 l2 : List Nat) (n0 n1 n2 : Nat)
    (b0 : ∀ r ∈ s1 ++ s2, r < n0) (b1 : ∀ r ∈ s1, r < n1) (b2 : ∀ r ∈ s2, r < n2)
    (ok0 : profile within boxes crs h (s1 ++ s2) n0 = .ok (h0, l))
    (ok1 : profile within boxes crs h s1 n1 = .ok (h1, l1)) (ok2 : profile within boxes crs h s2 n2 = .ok (h2, l2))
    (k : K × Char) :
    (∃ q ∈ l, HasBin (h0 q) k) ↔ (∃ q ∈ l1, HasBin (h1 q) k) ∨ ∃ q ∈ l2, HasBin (h2 q) k := by
  rw [binMembers_ne_nil within boxes crs h h0 _ l n0 b0 ok0, binMembers_ne_nil within boxes crs h h1 _ l1 n1 b1 ok1,
    binMembers_ne_nil within boxes crs h h2 _ l2 n2 b2 ok2, binMembers_parts, ne_eq, List.append_eq_nil_iff]
  tauto

/-- C149.  A bin of both parts: the numbers of traces add, and the profile of the whole stream is the mean of the
profiles of the parts weighted with them. -/
theorem C149_both (h h0 h1 h2 : Heap K) (s1 s2 l l1 l2 : List Nat) (n0 n1 n2 : Nat)
    (b0 : ∀ r ∈ s1 ++ s2, r < n0) (b1 : ∀ r ∈ s1, r < n1) (b2 : ∀ r ∈ s2, r < n2)
    (ok0 : profile within boxes crs h (s1 ++ s2) n0 = .ok (h0, l))
    (ok1 : profile within boxes crs h s1 n1 = .ok (h1, l1)) (ok2 : profile within boxes crs h s2 n2 = .ok (h2, l2))
    (k : K × Char) (q q1 q2 : Nat) (hq : q ∈ l) (hq1 : q1 ∈ l1) (hq2 : q2 ∈ l2) (hk : HasBin (h0 q) k)
    (hk1 : HasBin (h1 q1) k) (hk2 : HasBin (h2 q2) k) :
    ∃ m1 m2 : Nat, 0 < m1 ∧ 0 < m2 ∧ (h1 q1).getNum "num" = some (m1 : K) ∧ (h2 q2).getNum "num" = some (m2 : K) ∧
      (h0 q).getNum "num" = some ((m1 + m2 : Nat) : K) ∧
      ∀ n, (∀ r ∈ s1 ++ s2, binOf (boxSets within boxes) (h r) = some k → (h r).data.length = n) →
        (h0 q).data.length = n ∧ ∀ i < n, (h0 q).data.getD i 0 =
          ((m1 : K) * (h1 q1).data.getD i 0 + (m2 : K) * (h2 q2).data.getD i 0) / ((m1 + m2 : Nat) : K) := by
  obtain ⟨a0, c0⟩ := C50_mean within boxes crs h h0 _ l n0 b0 ok0 q hq k hk
  obtain ⟨a1, c1⟩ := C50_mean within boxes crs h h1 _ l1 n1 b1 ok1 q1 hq1 k hk1
  obtain ⟨a2, c2⟩ := C50_mean within boxes crs h h2 _ l2 n2 b2 ok2 q2 hq2 k hk2
  have e1 := (binMembers_ne_nil within boxes crs h h1 _ l1 n1 b1 ok1 k).1 ⟨q1, hq1, hk1⟩
  have e2 := (binMembers_ne_nil within boxes crs h h2 _ l2 n2 b2 ok2 k).1 ⟨q2, hq2, hk2⟩
  rw [binMembers_parts, List.length_append] at a0
  rw [binMembers_parts] at c0
  refine ⟨_, _, List.length_pos_iff.2 e1, List.length_pos_iff.2 e2, (getNum_eq _ _ _).2 a1, (getNum_eq _ _ _).2 a2,
    (getNum_eq _ _ _).2 a0, fun n hn => ?_⟩
  have m0 : ∀ (t : List Nat), (∀ r ∈ t, r ∈ s1 ++ s2) → ∀ r ∈ binMembers (boxSets within boxes) h t k,
      (h r).data.length = n := fun t ht r hr => by
    obtain ⟨x1, x2⟩ := List.mem_filter.1 hr
    exact hn r (ht r x1) (by simpa using x2)
  have m1 := m0 s1 (fun r hr => List.mem_append_left _ hr)
  have m2 := m0 s2 (fun r hr => List.mem_append_right _ hr)
  obtain ⟨d0, f0⟩ := c0 n (fun r hr => (List.mem_append.1 hr).elim (m1 r) (m2 r))
  obtain ⟨d1, f1⟩ := c1 n m1
  obtain ⟨d2, f2⟩ := c2 n m2
  refine ⟨d0, fun i hi => ?_⟩
  rw [f0 i hi, f1 i hi, f2 i hi, List.map_append]
  have h3 : (((binMembers (boxSets within boxes) h s1 k).length +
      (binMembers (boxSets within boxes) h s2 k).length : Nat) : K) ≠ 0 := by
    have := List.length_pos_iff.2 e1
    exact Nat.cast_ne_zero.2 (by omega)
  rw [eq_div_iff h3, mul_comm]
  have := meanAt_append ((binMembers (boxSets within boxes) h s1 k).map fun r => (h r).data)
    ((binMembers (boxSets within boxes) h s2 k).map fun r => (h r).data) i (by simpa using e1) (by simpa using e2)
  simpa only [List.length_map] using this

/-- C149.  A bin of one part only: the profile of the whole stream has the data and the number of this part. -/
theorem C149_one (h h0 h1 : Heap K) (s s1 s2 l l1 : List Nat) (n0 n1 : Nat)
    (hs : s = s1 ++ s2 ∨ s = s2 ++ s1) (b0 : ∀ r ∈ s, r < n0) (b1 : ∀ r ∈ s1, r < n1)
    (ok0 : profile within boxes crs h s n0 = .ok (h0, l)) (ok1 : profile within boxes crs h s1 n1 = .ok (h1, l1))
    (k : K × Char) (q q1 : Nat) (hq : q ∈ l) (hq1 : q1 ∈ l1) (hk : HasBin (h0 q) k) (hk1 : HasBin (h1 q1) k)
    (hno : ∀ r ∈ s2, binOf (boxSets within boxes) (h r) ≠ some k)
    (hlen : ∃ n, ∀ r ∈ s1, binOf (boxSets within boxes) (h r) = some k → (h r).data.length = n) :
    (h0 q).data = (h1 q1).data ∧ (h0 q).getNum "num" = (h1 q1).getNum "num" := by
  obtain ⟨a0, c0⟩ := C50_mean within boxes crs h h0 _ l n0 b0 ok0 q hq k hk
  obtain ⟨a1, c1⟩ := C50_mean within boxes crs h h1 _ l1 n1 b1 ok1 q1 hq1 k hk1
  have e2 : binMembers (boxSets within boxes) h s2 k = [] :=
    List.filter_eq_nil_iff.2 fun r hr => by simpa using hno r hr
  have e : binMembers (boxSets within boxes) h s k = binMembers (boxSets within boxes) h s1 k := by
    rcases hs with rfl | rfl <;> rw [binMembers_parts, e2] <;> simp
  rw [e] at a0 c0
  refine ⟨?_, by rw [(getNum_eq _ _ _).2 a0, (getNum_eq _ _ _).2 a1]⟩
  obtain ⟨n, hn⟩ := hlen
  have m1 : ∀ r ∈ binMembers (boxSets within boxes) h s1 k, (h r).data.length = n := fun r hr => by
    obtain ⟨x1, x2⟩ := List.mem_filter.1 hr
    exact hn r x1 (by simpa using x2)
  obtain ⟨d0, f0⟩ := c0 n m1
  obtain ⟨d1, f1⟩ := c1 n m1
  refine List.ext_getElem (by rw [d0, d1]) fun i hi hi' => ?_
  have x := f0 i (by omega)
  have y := f1 i (by omega)
  rw [List.getD_eq_getElem (h0 q).data _ hi] at x
  rw [List.getD_eq_getElem (h1 q1).data _ hi'] at y
  rw [x, y]

theorem meanAt_linear (u v : K) (m : List Nat) (x y z : Nat → List K) (i n : Nat) (hi : i < n)
    (hx : ∀ r ∈ m, (x r).length = n) (hy : ∀ r ∈ m, (y r).length = n)
    (hz : ∀ r ∈ m, z r = List.zipWith (fun p q => u * p + v * q) (x r) (y r)) :
    meanAt (m.map z) i = u * meanAt (m.map x) i + v * meanAt (m.map y) i := by
  unfold meanAt
  simp only [List.map_map, List.length_map]
  have : (m.map ((fun r => r.getD i 0) ∘ z)).sum =
      u * (m.map ((fun r => r.getD i 0) ∘ x)).sum + v * (m.map ((fun r => r.getD i 0) ∘ y)).sum := by
    rw [← List.sum_map_mul_left, ← List.sum_map_mul_left, ← List.sum_map_add]
    congr 1
    refine List.map_congr_left fun r hr => ?_
    simp only [Function.comp]
    rw [hz r hr]
    have h1 := hx r hr
    have h2 := hy r hr
    rw [List.getD_eq_getElem _ _ (by simp [h1, h2]; omega), List.getD_eq_getElem (x r) _ (by omega),
      List.getD_eq_getElem (y r) _ (by omega), List.getElem_zipWith]
  rw [this]
  ring

/-- C150.  The profile is linear in the samples: for streams with the same headers and samples `u x + v y`, the samples
of each bin are `u` times those of the profile of `x` plus `v` times those of the profile of `y`. -/
theorem C150_linear (u v : K) (hx hy hz h1 h2 h3 : Heap K) (s l1 l2 l3 : List Nat) (n1 n2 n3 : Nat)
    (b1 : ∀ r ∈ s, r < n1) (b2 : ∀ r ∈ s, r < n2) (b3 : ∀ r ∈ s, r < n3)
    (ok1 : profile within boxes crs hx s n1 = .ok (h1, l1)) (ok2 : profile within boxes crs hy s n2 = .ok (h2, l2))
    (ok3 : profile within boxes crs hz s n3 = .ok (h3, l3))
    (hhead : ∀ r ∈ s, (hy r).ext = (hx r).ext ∧ (hy r).cha = (hx r).cha ∧ (hz r).ext = (hx r).ext ∧
      (hz r).cha = (hx r).cha ∧ (hy r).data.length = (hx r).data.length ∧
      (hz r).data = List.zipWith (fun p q => u * p + v * q) (hx r).data (hy r).data)
    (hlen : ∀ r ∈ s, ∀ q ∈ s, binOf (boxSets within boxes) (hx r) = binOf (boxSets within boxes) (hx q) →
      (hx r).data.length = (hx q).data.length)
    (k : K × Char) (q1 q2 q3 : Nat) (hq1 : q1 ∈ l1) (hq2 : q2 ∈ l2) (hq3 : q3 ∈ l3) (hk1 : HasBin (h1 q1) k)
    (hk2 : HasBin (h2 q2) k) (hk3 : HasBin (h3 q3) k) :
    (h3 q3).data = List.zipWith (fun p q => u * p + v * q) (h1 q1).data (h2 q2).data ∧
      (h1 q1).data.length = (h2 q2).data.length ∧
      (h3 q3).getNum "num" = (h1 q1).getNum "num" ∧ (h2 q2).getNum "num" = (h1 q1).getNum "num" := by
  obtain ⟨a1, c1⟩ := C50_mean within boxes crs hx h1 s l1 n1 b1 ok1 q1 hq1 k hk1
  obtain ⟨a2, c2⟩ := C50_mean within boxes crs hy h2 s l2 n2 b2 ok2 q2 hq2 k hk2
  obtain ⟨a3, c3⟩ := C50_mean within boxes crs hz h3 s l3 n3 b3 ok3 q3 hq3 k hk3
  have hbin : ∀ (t t' : Trace K), t'.ext = t.ext → t'.cha = t.cha →
      binOf (boxSets within boxes) t' = binOf (boxSets within boxes) t := fun t t' e1 e2 => by
    unfold binOf Trace.getNum
    rw [e1, e2]
  have hm2 : binMembers (boxSets within boxes) hy s k = binMembers (boxSets within boxes) hx s k :=
    List.filter_congr fun r hr => by rw [hbin _ _ (hhead r hr).1 (hhead r hr).2.1]
  have hm3 : binMembers (boxSets within boxes) hz s k = binMembers (boxSets within boxes) hx s k :=
    List.filter_congr fun r hr => by rw [hbin _ _ (hhead r hr).2.2.1 (hhead r hr).2.2.2.1]
  rw [hm2] at a2 c2
  rw [hm3] at a3 c3
  have hne := (binMembers_ne_nil within boxes crs hx h1 s l1 n1 b1 ok1 k).1 ⟨q1, hq1, hk1⟩
  obtain ⟨r0, hr0⟩ := List.exists_mem_of_ne_nil _ hne
  have hmem : ∀ r ∈ binMembers (boxSets within boxes) hx s k, r ∈ s ∧ binOf (boxSets within boxes) (hx r) = some k :=
    fun r hr => ⟨(List.mem_filter.1 hr).1, by simpa using (List.mem_filter.1 hr).2⟩
  have hL : ∀ r ∈ binMembers (boxSets within boxes) hx s k, (hx r).data.length = (hx r0).data.length := fun r hr =>
    hlen r (hmem r hr).1 r0 (hmem r0 hr0).1 ((hmem r hr).2.trans (hmem r0 hr0).2.symm)
  have hLy : ∀ r ∈ binMembers (boxSets within boxes) hx s k, (hy r).data.length = (hx r0).data.length := fun r hr =>
    ((hhead r (hmem r hr).1).2.2.2.2.1).trans (hL r hr)
  have hz' : ∀ r ∈ binMembers (boxSets within boxes) hx s k,
      (hz r).data = List.zipWith (fun p q => u * p + v * q) (hx r).data (hy r).data := fun r hr =>
    (hhead r (hmem r hr).1).2.2.2.2.2
  obtain ⟨d1, f1⟩ := c1 _ hL
  obtain ⟨d2, f2⟩ := c2 _ hLy
  obtain ⟨d3, f3⟩ := c3 (hx r0).data.length (fun r hr => by rw [hz' r hr]; simp [hL r hr, hLy r hr])
  refine ⟨?_, by rw [d1, d2], ?_, ?_⟩
  · refine List.ext_getElem (by simp [d1, d2, d3]) fun i hi hi' => ?_
    have hin : i < (hx r0).data.length := by omega
    have x := f3 i hin
    rw [meanAt_linear u v _ (fun r => (hx r).data) (fun r => (hy r).data) (fun r => (hz r).data) i _ hin hL hLy hz',
      ← f1 i hin, ← f2 i hin] at x
    rw [List.getD_eq_getElem (h3 q3).data _ hi, List.getD_eq_getElem (h1 q1).data _ (by omega),
      List.getD_eq_getElem (h2 q2).data _ (by omega)] at x
    rw [x, List.getElem_zipWith]
  · rw [(getNum_eq _ _ _).2 a3, (getNum_eq _ _ _).2 a1]
  · rw [(getNum_eq _ _ _).2 a2, (getNum_eq _ _ _).2 a1]

end parts

section example_parts

/-- Both parts of the stream have a trace in the first box; only the second one has a trace in the second box. -/
example :
    ((profile exWithin exBoxes false exHeap [0] 4).map fun r => r.2.map fun q => ((r.1 q).data, (r.1 q).getNum "num"))
      = .ok [([0, 2], some 1)] ∧
    ((profile exWithin exBoxes false exHeap [2, 1] 4).map
      fun r => r.2.map fun q => ((r.1 q).data, (r.1 q).getNum "num"))
      = .ok [([1, 2], some 1), ([2, 2], some 1)] ∧
    ((profile exWithin exBoxes false exHeap ([0] ++ [2, 1]) 4).map
      fun r => r.2.map fun q => ((r.1 q).data, (r.1 q).getNum "num"))
      = .ok [([1/2, 2], some 2), ([2, 2], some 1)] := by
  decide +kernel

/-- The same stream with the samples `2 x + 3 y`, `x` the samples of `exHeap` and `y` equal to `[1, r]`. -/
example : ((profile exWithin exBoxes false (fun r => { exHeap r with data := [2 * r + 3, 4 + 3 * r] }) [0, 2, 1] 4).map
      fun r => r.2.map fun q => ((r.1 q).data, (r.1 q).getNum "num"))
      = .ok [([2 * (1/2) + 3 * 1, 2 * 2 + 3 * (1/2)], some 2), ([2 * 2 + 3, 2 * 2 + 3 * 2], some 1)] := by
  decide +kernel

end example_parts

end Verif.Props
