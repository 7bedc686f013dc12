import Verif.Props.OrderRf
import Verif.Props.StackTwice
import Verif.Props.GainKernels
import Verif.Props.MultitaperWindows

/-!
# The deconvolution kernels do not depend on the order of the responses (C144)
-/

set_option linter.unusedSimpArgs false
set_option linter.unusedSectionVars false

namespace Verif.Props
open Verif.Py Verif.Model Verif.Spec

theorem mapM_perm {α β : Type} [Inhabited β] (f : α → Res β) (l l' : List α) (hp : l.Perm l') (out : List β)
    (h : l.mapM f = .ok out) : ∃ F : α → β, out = l.map F ∧ l'.mapM f = .ok (l'.map F) := by
  obtain ⟨h1, h2⟩ := mapM_ok f l out h
  let F : α → β := fun a => match f a with | .ok y => y | .error _ => default
  have hF : ∀ a ∈ l, f a = .ok (F a) := by
    intro a ha
    obtain ⟨i, hi⟩ := List.mem_iff_getElem?.1 ha
    obtain ⟨y, hy, -⟩ := h2 i a hi
    show f a = .ok (match f a with | .ok y => y | .error _ => default)
    rw [hy]
  refine ⟨F, ?_, mapM_ok_of f F l' fun a ha => hF a (hp.mem_iff.2 ha)⟩
  have := mapM_ok_of f F l hF
  rw [h] at this
  exact Except.ok.inj this

theorem mapM_comp {α β γ : Type} (d : α → β) (f : β → Res γ) (l : List α) :
    (l.map d).mapM f = l.mapM fun a => f (d a) := by
  induction l with
  | nil => rfl
  | cons a l ih => rw [List.map_cons, List.mapM_cons, List.mapM_cons, ih]

theorem getItem_some {β : Type} (F : Nat → β) (l : List Nat) (i r : Nat) (h : l[i]? = some r) :
    getItem (l.map F) (i : ℤ) = .ok (F r) := by
  obtain ⟨hi, e⟩ := List.getElem?_eq_some_iff.1 h
  rw [getItem_lt _ _ (by rw [List.length_map]; exact hi), List.getElem_map, e]

/-- Scaling all results by one of them: the same result for another order. -/
theorem scaled_perm {β γ : Type} (F : Nat → β) (M : β → Res γ) (S : γ → β → β) (l l' : List Nat) (i i' r : Nat)
    (h : l[i]? = some r) (h' : l'[i']? = some r) (out : List β)
    (hok : (getItem (l.map F) (i : ℤ) >>= fun x => M x >>= fun m => .ok ((l.map F).map (S m))) = .ok out) :
    ∃ G : Nat → β, out = l.map G ∧
      (getItem (l'.map F) (i' : ℤ) >>= fun x => M x >>= fun m => .ok ((l'.map F).map (S m))) = .ok (l'.map G) := by
  rw [getItem_some F l i r h] at hok
  rw [getItem_some F l' i' r h']
  simp only [bind, Except.bind] at hok ⊢
  cases hm : M (F r) with
  | error e => rw [hm] at hok; simp at hok
  | ok m =>
    rw [hm] at hok
    simp only [Except.ok.injEq, List.map_map] at hok ⊢
    exact ⟨_, hok.symm, rfl⟩

/-- The keyword `length`, by default the length of the first response. -/
def lenOf (len : Option ℕ) (rsp : List (List ℝ)) : Res ℕ :=
  match len with
  | some n => .ok n
  | none =>
    match rsp with
    | [] => .error .indexError
    | r :: _ => .ok r.length

theorem lenOf_perm (len : Option ℕ) (l l' : List Nat) (d : Nat → List ℝ) (hp : l.Perm l')
    (hd : ∀ r ∈ l, ∀ q ∈ l, (d r).length = (d q).length) : lenOf len (l.map d) = lenOf len (l'.map d) := by
  unfold lenOf
  cases len with
  | some n => rfl
  | none =>
    cases l with
    | nil => rw [hp.nil_eq]
    | cons a l =>
      cases l' with
      | nil => exact absurd hp.symm.nil_eq (by simp)
      | cons b l' =>
        simp only [List.map_cons]
        rw [hd a List.mem_cons_self b (hp.mem_iff.2 List.mem_cons_self)]

theorem zip_maps {β γ : Type} (f : Nat → β) (g : Nat → γ) (l : List Nat) :
    (l.map f).zip (l.map g) = l.map fun r => (f r, g r) := by
  induction l with
  | nil => rfl
  | cons a l ih => simp [ih]

/-- Lines 370-374 for one response. -/
noncomputable def timeOne (solve : List ℝ → List ℝ → Res (List ℝ)) (sts src : List ℝ) (length : ℕ) (shift : ℤ)
    (rsp : List ℝ) : Res (List ℝ) :=
  if (xcorrt rsp src length shift).length ≠ sts.length then .error .assertionError
  else solve sts (xcorrt rsp src length shift)

theorem timeLoop_mapM (solve : List ℝ → List ℝ → Res (List ℝ)) (sts src : List ℝ) (length : ℕ) (shift : ℤ)
    (rsp : List (List ℝ)) :
    timeLoop solve sts src length shift rsp = rsp.mapM (timeOne solve sts src length shift) := by
  induction rsp with
  | nil => rfl
  | cons a l ih =>
    rw [List.mapM_cons]
    unfold timeLoop timeOne
    simp only [bind, Except.bind, pure, Except.pure, ih]
    split <;> rfl

theorem deconvTime_len (solve : List ℝ → List ℝ → Res (List ℝ)) (rsp : List (List ℝ)) (src : List ℝ) (shift : ℤ)
    (spiking : ℝ) (len : Option ℕ) (n : Option ℤ) :
    deconvTime solve rsp src shift spiking len n = (lenOf len rsp >>= fun L => stsVec src L spiking >>= fun sts =>
      timeLoop solve sts src L shift rsp >>= fun rf =>
        match n with
        | none => .ok rf
        | some i => normalizeAll rf i) := by
  unfold deconvTime lenOf
  cases len with
  | some k => rfl
  | none => cases rsp <;> rfl

/-- `deconv_time` as one step for the length and autocorrelation, one per response and the normalisation. -/
theorem deconvTime_perm (solve : List ℝ → List ℝ → Res (List ℝ)) (src : List ℝ) (shift : ℤ) (spiking : ℝ)
    (len : Option ℕ) (l l' : List Nat) (d : Nat → List ℝ) (n n' : Option ℤ) (hp : l.Perm l')
    (hd : ∀ r ∈ l, ∀ q ∈ l, (d r).length = (d q).length)
    (hnn : (n = none ∧ n' = none) ∨ ∃ (i i' r : Nat), l[i]? = some r ∧ l'[i']? = some r ∧ n = some (i : ℤ) ∧ n' = some (i' : ℤ))
    (out : List (List ℝ)) (hok : deconvTime solve (l.map d) src shift spiking len n = .ok out) :
    ∃ F : Nat → List ℝ, out = l.map F ∧ deconvTime solve (l'.map d) src shift spiking len n' = .ok (l'.map F) := by
  rw [deconvTime_len, lenOf_perm len l l' d hp hd] at hok
  rw [deconvTime_len]
  cases hL : lenOf len (l'.map d) with
  | error e => rw [hL] at hok; cases hok
  | ok L =>
    rw [hL] at hok
    simp only [bind, Except.bind] at hok ⊢
    cases hS : stsVec src L spiking with
    | error e => rw [hS] at hok; cases hok
    | ok sts =>
      rw [hS] at hok
      simp only [timeLoop_mapM, mapM_comp] at hok ⊢
      cases hR : l.mapM (fun a => timeOne solve sts src L shift (d a)) with
      | error e => rw [hR] at hok; cases hok
      | ok rf =>
        rw [hR] at hok
        obtain ⟨F, rfl, hF⟩ := mapM_perm _ l l' hp rf hR
        rw [hF]
        simp only at hok ⊢
        rcases hnn with ⟨rfl, rfl⟩ | ⟨i, i', r, hi, hi', rfl, rfl⟩
        · exact ⟨F, (Except.ok.inj hok).symm, rfl⟩
        · have key := scaled_perm F (fun x => maxAbs x >>= fun m => if m = 0 then .error .other else .ok m)
            (fun m => List.map (fun v => v * (1 / m))) l l' i i' r hi hi' out
          have conv : ∀ rf : List (List ℝ), ∀ j : ℤ, normalizeAll rf j = (getItem rf j >>= fun x =>
              (maxAbs x >>= fun m => if m = 0 then .error .other else .ok m) >>=
                fun m => .ok (rf.map (List.map (fun v => v * (1 / m))))) := by
            intro rf j
            unfold normalizeAll
            cases getItem rf j with
            | error e => rfl
            | ok x =>
              simp only [bind, Except.bind]
              cases maxAbs x with
              | error e => rfl
              | ok m =>
                simp only
                split <;> rfl
          simp only [conv] at hok ⊢
          exact key hok

theorem normIdx_perm (l l' : List Nat) (n n' : Option Norm) (hnn : SameNorm l l' n n') (hs : n ≠ some .src) :
    n' ≠ some .src ∧ ((normIdx n = none ∧ normIdx n' = none) ∨
      ∃ (i i' r : Nat), l[i]? = some r ∧ l'[i']? = some r ∧ normIdx n = some (i : ℤ) ∧ normIdx n' = some (i' : ℤ)) := by
  rcases hnn with ⟨rfl, e | e⟩ | ⟨i, i', r, a, b, rfl, rfl⟩
  · exact absurd e hs
  · subst e; exact ⟨by simp, Or.inl ⟨rfl, rfl⟩⟩
  · exact ⟨by simp, Or.inr ⟨i, i', r, a, b, rfl, rfl⟩⟩

theorem time_perm (ka : KernelArgs) (src : List ℝ) (sh : ℤ) : KernelPerm fun rd n => timeKernel ka rd src sh n := by
  intro l l' d n n' hn hp hd hnn out hok
  by_cases hs : n = some .src
  · subst hs
    simp only [timeKernel, Except.bind] at hok
    split at hok <;> cases hok
  · obtain ⟨hs', hc⟩ := normIdx_perm l l' n n' hnn hs
    have e : ∀ (n : Option Norm), n ≠ some .src → ∀ rd, timeKernel ka rd src sh n =
        deconvTime ka.solve rd src sh ka.spiking ka.lengthT (normIdx n) := by
      intro n hn rd
      unfold timeKernel
      split
      · exact absurd rfl hn
      · rfl
    simp only [e n hs, e n' hs'] at hok ⊢
    exact deconvTime_perm _ _ _ _ _ l l' d _ _ hp hd hc out hok

theorem iter_perm (ka : KernelArgs) (src : List ℝ) (sr ts : ℝ) :
    KernelPerm fun rd n => iterKernel ka rd src sr ts n := by
  intro l l' d n n' hn hp hd hnn out hok
  by_cases hs : n = some .src
  · subst hs
    simp only [iterKernel, Except.bind] at hok
    split at hok <;> cases hok
  · obtain ⟨hs', hc⟩ := normIdx_perm l l' n n' hnn hs
    have e : ∀ (n : Option Norm), n ≠ some .src → ∀ rd, iterKernel ka rd src sr ts n =
        (deconvIterative ka.fastLen rd src sr ts ka.gaussI ka.itmax ka.minderr ka.muteShift (normIdx n)).map
          fun out => out.1.zip out.2.1 := by
      intro n hn rd
      unfold iterKernel
      split
      · exact absurd rfl hn
      · rfl
    simp only [e n hs, e n' hs', iterative_eq, mapM_comp] at hok ⊢
    by_cases h0 : sr = 0
    · rw [if_pos h0] at hok; cases hok
    rw [if_neg h0] at hok ⊢
    cases hR : l.mapM (fun a => do
        let st ← iterComp ka.fastLen (d a) src sr ts ka.gaussI ka.itmax ka.minderr ka.muteShift
        pure (iterOut ka.fastLen (d a) sr ts ka.gaussI st.p0, st)) with
    | error e => rw [hR] at hok; cases hok
    | ok rf =>
      rw [hR] at hok
      have : Inhabited ItState := ⟨⟨[], [], 0, 0, 0, []⟩⟩
      obtain ⟨F, rfl, hF⟩ := mapM_perm _ l l' hp rf hR
      rw [hF]
      simp only [Except.map, bind, Except.bind, itFinish] at hok ⊢
      rcases hc with ⟨e1, e2⟩ | ⟨i, i', r, hi, hi', e1, e2⟩
      · rw [e1] at hok
        rw [e2]
        simp only [Except.ok.injEq, List.map_map] at hok ⊢
        refine ⟨fun r => ((itPart (F r)).1, (itPart (F r)).2.1), ?_, ?_⟩
        · rw [← hok, zip_maps]; rfl
        · rw [zip_maps]; rfl
      · rw [e1] at hok
        rw [e2]
        simp only [List.map_map] at hok ⊢
        rw [getItem_some _ l i r hi] at hok
        rw [getItem_some _ l' i' r hi']
        simp only at hok ⊢
        cases hm : maxAbsR ((Prod.fst ∘ itPart ∘ F) r) with
        | error e => rw [hm] at hok; cases hok
        | ok m =>
          rw [hm] at hok
          simp only at hok ⊢
          by_cases hm0 : m = 0
          · rw [if_pos hm0] at hok; cases hok
          rw [if_neg hm0] at hok ⊢
          simp only [Except.ok.injEq, List.map_map] at hok ⊢
          refine ⟨fun r => ((itPart (F r)).1.map (· * (1 / m)), (itPart (F r)).2.1), ?_, ?_⟩
          · rw [← hok, zip_maps]; rfl
          · rw [zip_maps]; rfl

theorem deconvWater_len (fastLen : ℕ → ℕ) (rsp : List (List ℝ)) (src : List ℝ) (sr waterlevel : ℝ)
    (gauss : Option ℝ) (tshift : ℝ) (len : Option ℕ) (n : Norm) (nfft : Option ℕ) :
    deconvWaterlevel fastLen rsp src sr waterlevel gauss tshift len n nfft =
      (lenOf len rsp >>= fun N => deconvWaterlevel fastLen rsp src sr waterlevel gauss tshift (some N) n nfft) := by
  unfold lenOf
  cases len with
  | some k => rfl
  | none => cases rsp <;> rfl

theorem water_perm (ka : KernelArgs) (src : List ℝ) (sr ts : ℝ) :
    KernelPerm fun rd n => waterKernel ka rd src sr ts n := by
  classical
  intro l l' d n n' hn hp hd hnn out hok
  simp only [waterKernel] at hok ⊢
  rw [deconvWater_len, lenOf_perm _ l l' d hp hd] at hok
  rw [deconvWater_len]
  cases hL : lenOf ka.lengthW (l'.map d) with
  | error e => rw [hL] at hok; cases hok
  | ok N =>
    rw [hL] at hok
    simp only [bind, Except.bind] at hok ⊢
    unfold deconvWaterlevel at hok ⊢
    simp only [bind, Except.bind, List.map_map] at hok ⊢
    by_cases h1 : ka.nfft.getD (ka.fastLen N) = 0
    · rw [if_pos h1] at hok; cases hok
    rw [if_neg h1] at hok ⊢
    by_cases h2 : sr = 0
    · rw [if_pos h2] at hok; cases hok
    rw [if_neg h2] at hok ⊢
    split at hok
    · cases hok
    rename_i h3
    rw [if_neg h3]
    rcases hnn with ⟨rfl, e | e⟩ | ⟨i, i', r, hi, hi', rfl, rfl⟩
    · subst e
      simp only [Option.getD_some] at hok ⊢
      split at hok
      · cases hok
      · rename_i m hm
        split at hok
        · cases hok
        · rename_i hm0
          rw [if_neg hm0]
          simp only [Except.map, scaleAll, List.map_map, Except.ok.injEq] at hok ⊢
          exact ⟨_, hok.symm, rfl⟩
    · subst e
      simp only [Option.getD_some, Except.map, List.map_map, Except.ok.injEq] at hok ⊢
      exact ⟨_, hok.symm, rfl⟩
    · simp only [Option.getD_some] at hok ⊢
      rw [getItem_some _ l i r hi] at hok
      rw [getItem_some _ l' i' r hi']
      simp only at hok ⊢
      split at hok
      · cases hok
      · rename_i m hm
        split at hok
        · cases hok
        · rename_i hm0
          rw [if_neg hm0]
          simp only [Except.map, scaleAll, List.map_map, Except.ok.injEq] at hok ⊢
          exact ⟨_, hok.symm, rfl⟩

theorem range_mapM {β : Type} (d ν : Nat → List ℝ) (f : List ℝ → List ℝ → Res β) (l : List Nat) :
    ((List.range (l.map d).length).mapM fun (c : ℕ) => do
      let nos ← getItem (l.map ν) c
      f ((l.map d).getD c []) nos) = l.mapM fun r => f (d r) (ν r) := by
  have hl : l = (List.range (l.map d).length).map fun c => l.getD c 0 := by
    refine List.ext_getElem (by simp) fun i h1 h2 => ?_
    simp only [List.getElem_map, List.getElem_range]
    rw [List.getD_eq_getElem l _ h1]
  conv_rhs => rw [hl, mapM_comp]
  refine mapM_congr_ok _ _ _ fun c hc => ?_
  rw [List.mem_range, List.length_map] at hc
  rw [getItem_lt _ _ (by rw [List.length_map]; exact hc), List.getD_eq_getElem l _ hc,
    List.getD_eq_getElem (l.map d) _ (by rw [List.length_map]; exact hc), List.getElem_map, List.getElem_map]
  rfl

theorem deconvMt_perm (env : MtEnv) (src : List ℝ) (sr ts : ℝ) (gauss : Option ℝ) (K : ℕ) (T olap : ℝ)
    (l l' : List Nat) (d ν : Nat → List ℝ) (n n' : Option ℤ) (hp : l.Perm l')
    (hd : ∀ r ∈ l, ∀ q ∈ l, (d r).length = (d q).length) (hν : ∀ r ∈ l, ∀ q ∈ l, (ν r).length = (ν q).length)
    (hnn : (n = none ∧ n' = none) ∨ ∃ (i i' r : Nat), l[i]? = some r ∧ l'[i']? = some r ∧ n = some (i : ℤ) ∧ n' = some (i' : ℤ))
    (out : List (List ℝ)) (hok : deconvMultitaper env (l.map d) src (l.map ν) sr ts gauss K T olap n = .ok out) :
    ∃ F : Nat → List ℝ, out = l.map F ∧
      deconvMultitaper env (l'.map d) src (l'.map ν) sr ts gauss K T olap n' = .ok (l'.map F) := by
  classical
  cases l with
  | nil => cases hok
  | cons a l =>
    cases l' with
    | nil => exact absurd hp.symm.nil_eq (by simp)
    | cons b l' =>
      have hb : b ∈ a :: l := hp.mem_iff.2 List.mem_cons_self
      have e1 := hd a List.mem_cons_self b hb
      have e2 := hν a List.mem_cons_self b hb
      have g1 : ∀ (f : Nat → List ℝ) (x : Nat) (xs : List Nat), getItem ((x :: xs).map f) 0 = .ok (f x) := fun _ _ _ => rfl
      unfold deconvMultitaper at hok ⊢
      rw [g1, g1] at hok ⊢
      simp only [range_mapM d ν] at hok ⊢
      simp only [bind, Except.bind] at hok ⊢
      rw [e1, e2] at hok
      iterate 3
        split at hok
        · cases hok
        rename_i hc
        rw [if_neg hc]
        clear hc
      iterate 2
        split at hok
        · cases hok
        rename_i hc
        rw [if_neg hc]
        clear hc
      iterate 3
        split at hok
        · cases hok
        rename_i hc
        clear hc
      split at hok
      · cases hok
      rename_i rf hR
      obtain ⟨F, rfl, hF⟩ := mapM_perm _ _ _ hp rf hR
      rw [hF]
      simp only at hok ⊢
      rcases hnn with ⟨rfl, rfl⟩ | ⟨i, i', r, hi, hi', rfl, rfl⟩
      · exact ⟨F, (Except.ok.inj hok).symm, rfl⟩
      · simp only at hok ⊢
        rw [getItem_some _ _ i r hi] at hok
        rw [getItem_some _ _ i' r hi']
        simp only at hok ⊢
        split at hok
        · cases hok
        rename_i m hm
        split at hok
        · cases hok
        rename_i hm0
        rw [if_neg hm0]
        simp only [List.map_map, Except.ok.injEq] at hok ⊢
        exact ⟨_, hok.symm, rfl⟩

/-- C144, second half: the kernels of the package, given noise windows of one length cut from every response and a
taper and padding that keep the channel code. -/
theorem C144_kernels (ka : KernelArgs) (dec : DeconvEnv ℝ)
    (hnoise : ∀ (h : Heap ℝ) (s s' : List Nat) (c : Option Str), s.Nodup → s.Perm s' → SameSpan h (onComps h s c) →
      (∃ o, ∀ r ∈ onComps h s c, (h r).getTime "onset" = some o) → ∀ out, dec.noise h s (onComps h s c) c = .ok out →
      out = [] ∨ ∃ ν : Nat → List ℝ, out = (onComps h s c).map ν ∧
        dec.noise h s' (onComps h s' c) c = .ok ((onComps h s' c).map ν) ∧
        ∀ r ∈ onComps h s c, ∀ q ∈ onComps h s c, (ν r).length = (ν q).length)
    (hcha : ∀ t a b x, (dec.taper (dec.trimPad t a b) x).cha = t.cha) : PermKernels (withKernels ka dec) where
  time := fun src sh => time_perm ka src sh
  water := fun src sr ts => water_perm ka src sr ts
  iter := fun src sr ts => iter_perm ka src sr ts
  mt := by
    intro src sr ts ν l l' d n n' hn hp hd hν hnn out hok
    show ∃ F : Nat → List ℝ, out = l.map F ∧ mtKernel ka (l'.map d) src (l'.map ν) sr ts n' = .ok (l'.map F)
    have hok : mtKernel ka (l.map d) src (l.map ν) sr ts n = .ok out := hok
    by_cases hs : n = some .src
    · subst hs
      simp only [mtKernel, Except.bind] at hok
      split at hok <;> cases hok
    · obtain ⟨hs', hc⟩ := normIdx_perm l l' n n' hnn hs
      have e : ∀ (n : Option Norm), n ≠ some .src → ∀ rd nse, mtKernel ka rd src nse sr ts n =
          deconvMultitaper ka.mt rd src nse sr ts ka.gaussM ka.tapers ka.taperLength ka.olap (normIdx n) := by
        intro n hn rd nse
        unfold mtKernel
        split
        · exact absurd rfl hn
        · rfl
      rw [e n hs] at hok
      rw [e n' hs']
      exact deconvMt_perm _ _ _ _ _ _ _ _ l l' d ν _ _ hp hd hν hc out hok
  mtNil := by
    intro rd src sr ts n out hok
    have key : ∀ n out, deconvMultitaper ka.mt rd src [] sr ts ka.gaussM ka.tapers ka.taperLength ka.olap n ≠ .ok out := by
      intro n out hok
      unfold deconvMultitaper at hok
      simp only [bind, Except.bind] at hok
      split at hok
      · cases hok
      · split at hok
        · cases hok
        · cases hok
    have hok : mtKernel ka rd src [] sr ts n = .ok out := hok
    unfold mtKernel at hok
    split at hok
    · simp only [Except.bind] at hok
      split at hok <;> cases hok
    · exact key _ _ hok
  noise := hnoise
  cha := hcha

end Verif.Props

namespace Verif.Props
open Verif.Py Verif.Model Verif.Spec

section examples

/-- Kernels which only normalise. -/
def oKernel (rd : List (List ℚ)) (n : Option Norm) : Res (List (List ℚ)) :=
  match n with
  | some (.idx i) => normalizeAll rd i
  | none => normalizeAll rd 0
  | some _ => .ok rd

/-- The example environment with normalising kernels. -/
def oEnv : RfEnv ℚ := { rEnv with
  rotate := fun _ h _ => (h, none)
  dec := { dEnv with
    time := fun rd _ _ n => oKernel rd n
    water := fun rd _ _ _ n => oKernel rd n
    iter := fun rd _ _ _ n => (oKernel rd n).map (·.map fun x => (x, 1))
    mt := fun _ _ _ _ _ _ => .error .other } }

theorem oKernel_perm : KernelPerm oKernel := by
  intro l l' d n n' hn hp hd hnn out hok
  rcases hnn with ⟨rfl, e | e⟩ | ⟨i, i', r, hi, hi', rfl, rfl⟩
  · subst e; exact ⟨d, (Except.ok.inj hok).symm, rfl⟩
  · subst e; exact ⟨d, (Except.ok.inj hok).symm, rfl⟩
  · unfold oKernel normalizeAll at hok ⊢
    simp only at hok ⊢
    rw [getItem_some d l i r hi] at hok
    rw [getItem_some d l' i' r hi']
    simp only [bind, Except.bind] at hok ⊢
    split at hok
    · cases hok
    · split at hok
      · cases hok
      · rename_i hm
        simp only [List.map_map, Except.ok.injEq] at hok ⊢
        rw [if_neg hm]
        exact ⟨_, hok.symm, rfl⟩

theorem oEnv_perm : PermKernels oEnv.dec where
  time _ _ := oKernel_perm
  water _ _ _ := oKernel_perm
  iter src sr ts := by
    intro l l' d n n' hn hp hd hnn out hok
    have hok : (oKernel (l.map d) n).map (·.map fun x => (x, 1)) = .ok out := hok
    cases hk : oKernel (l.map d) n with
    | error e => rw [hk] at hok; cases hok
    | ok o =>
      rw [hk] at hok
      obtain ⟨F, rfl, hF⟩ := oKernel_perm l l' d n n' hn hp hd hnn o hk
      refine ⟨fun r => (F r, 1), ?_, ?_⟩
      · have := Except.ok.inj hok
        rw [← this]
        simp only [List.map_map]
        rfl
      · show (oKernel (l'.map d) n').map (·.map fun x => (x, 1)) = _
        rw [hF]
        simp only [Except.map, List.map_map]
        rfl
  mt := by
    intro _ _ _ _ _ _ _ _ _ _ _ _ _ _ _ hok
    cases hok
  mtNil := by
    intro _ _ _ _ _ _ hok
    cases hok
  noise _ _ _ _ _ _ _ _ _ hok := Or.inl (Except.ok.inj hok).symm
  cha _ _ _ _ := rfl

theorem oEnv_order : OrderEnv oEnv where
  filter t t' h hp := by injection (show Except.ok (ε := PyErr) t = Except.ok t' from h) with h; rw [← h]; exact hp
  trim t a b t' h hp := by injection (show Except.ok (ε := PyErr) t = Except.ok t' from h) with h; rw [← h]; exact hp
  decimate n t t' h hp := by
    injection (show Except.ok (ε := PyErr) { t with sr := t.sr / n } = Except.ok t' from h) with h
    rw [← h]
    exact hp
  rotate _ _ _ hP := hP
  rotatePerm _ _ _ _ _ _ := rfl

/-- One record, the east component is larger. -/
def oHeap : Heap ℚ := fun r => if r = 2 then { dHeap r with data := [2, 4, 6, 8, 10] } else dHeap r

theorem oHeap_proc (r : Nat) : ProcOk (oHeap r) := by
  intro v hv
  unfold oHeap at hv
  split at hv <;> simp [dHeap, Dict.get] at hv

theorem oHeap_span (s : List Nat) : SameSpan oHeap s := by
  intro r _ q _
  unfold oHeap
  refine ⟨?_, ?_, ?_⟩ <;> split <;> split <;> rfl

/-- The statement for every choice of response components is false: without `normalize` the results are normalised by
the first response in the order of the stream if the source is not among them (lines 87-88 do not apply and
`normalize=0` is the default of the kernels). -/
theorem C144_counterexample : ∃ (env : RfEnv ℚ) (a : RfArgs ℚ) (h : Heap ℚ) (s s' : List Nat), OrderEnv env ∧
    PermKernels env.dec ∧ KeepsExt env.dec ∧ (∀ r, ProcOk (h r)) ∧ SameSpan h s ∧ s.Nodup ∧ s.Perm s' ∧
    (rf env a (h, s)).2 = none ∧ (rf env a (h, s')).2 = none ∧
    ((rf env a (h, s)).1.1 1).data ≠ ((rf env a (h, s')).1.1 1).data :=
  ⟨oEnv, { method := some "P".toList, rotate := none, deconvolve := some "time".toList, rspComps := some "NE".toList },
    oHeap, [0, 1, 2], [0, 2, 1], oEnv_order, oEnv_perm, dEnv_keeps, oHeap_proc, oHeap_span _, by decide, by decide,
    by decide +kernel, by decide +kernel, by decide +kernel⟩

/-- Method P, no rotation, default components. -/
def oArgs : RfArgs ℚ := { method := some "P".toList, rotate := none }

/-- The hypotheses of C144 are met: default components, one record in two orders. -/
example : ∃ h1 s1', rf oEnv oArgs (oHeap, [0, 1, 2]) = ((h1, [0, 1, 2]), none) ∧
    rf oEnv oArgs (oHeap, [2, 0, 1]) = ((h1, s1'), none) ∧
    (h1 2).data = [2 / 5, 4 / 5, 6 / 5, 8 / 5, 2] ∧ [0, 1, 2].Perm s1' := by
  have h0 : (rf oEnv oArgs (oHeap, [0, 1, 2])).2 = none ∧ (rf oEnv oArgs (oHeap, [0, 1, 2])).1.2 = [0, 1, 2] ∧
      ((rf oEnv oArgs (oHeap, [0, 1, 2])).1.1 2).data = [2 / 5, 4 / 5, 6 / 5, 8 / 5, 2] := by decide +kernel
  obtain ⟨e1, e2, e3⟩ := h0
  have hok : rf oEnv oArgs (oHeap, [0, 1, 2]) = (((rf oEnv oArgs (oHeap, [0, 1, 2])).1.1, [0, 1, 2]), none) :=
    Prod.ext (Prod.ext rfl e2) e1
  obtain ⟨s1', q1, q2⟩ := C144_order_partial oEnv oArgs oEnv_order oEnv_perm dEnv_keeps (by decide) oHeap _ _
    [2, 0, 1] _ (by decide) (by decide) oHeap_proc (Or.inr (Or.inr ⟨rfl, fun _ _ _ h => by cases h⟩)) (by
      intro st hst q hq r hr _
      have hst : ((Heap.forEach negQ oHeap [0, 1, 2], [0, 1, 2]), none) = (st, none) := hst
      simp only [Prod.mk.injEq, and_true] at hst
      rw [← hst] at hq hr ⊢
      simp only [List.mem_cons, List.not_mem_nil, or_false] at hq hr
      show SameSpan (Heap.forEach negQ oHeap [0, 1, 2]) [q, r]
      rcases hq with rfl | rfl | rfl <;> rcases hr with rfl | rfl | rfl <;> (unfold SameSpan; decide +kernel)) hok
  exact ⟨_, s1', hok, q1, e3, q2⟩

end examples
end Verif.Props
