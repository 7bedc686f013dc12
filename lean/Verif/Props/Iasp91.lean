import Verif.Props.Iasp91File
import Verif.Props.Evanescent
import Verif.Props.MoveoutStream
import Verif.Model.Iasp91
import Verif.Spec.Iasp91
import Mathlib.Data.Rat.Cast.Order
import Mathlib.Data.Rat.Floor

/-!
# The velocity model of the package: C176, C177
-/

set_option linter.unusedSimpArgs false
set_option linter.unusedSectionVars false

namespace Verif.Props
open Verif.Py Verif.Spec Verif.Model Verif.Model.Simple Verif.Model.Ppoints Verif.Model.Iasp91

section cast
variable {K : Type} [Field K] [LinearOrder K] [IsStrictOrderedRing K]

/-- All numbers of a list in `K`. -/
def castL (K : Type) [Field K] (l : List ℚ) : List K := l.map fun (x : ℚ) => (x : K)

/-- All numbers of a model in `K`. -/
def castModel (K : Type) [Field K] (m : SimpleModel ℚ) : SimpleModel K :=
  ⟨castL K m.z, castL K m.dz, castL K m.vp, castL K m.vs, []⟩

theorem castL_getD (l : List ℚ) (i : ℕ) : (castL K l).getD i 0 = ((l.getD i 0 : ℚ) : K) := by
  unfold castL
  by_cases hi : i < l.length
  · rw [List.getD_eq_getElem _ _ (by simpa using hi), List.getD_eq_getElem _ _ hi, List.getElem_map]
  · rw [List.getD_eq_default _ _ (by simpa using hi), List.getD_eq_default _ _ (by omega), Rat.cast_zero]

theorem interpolateGo_cast (l : List ℚ) (n : List ℤ) :
    interpolateGo (castL K l) n = (interpolateGo l n).map (castL K) := by
  induction l generalizing n with
  | nil => rfl
  | cons a l ih =>
    cases l with
    | nil => rfl
    | cons b r =>
      cases n with
      | nil => rfl
      | cons k n =>
        simp only [castL, List.map_cons, interpolateGo] at ih ⊢
        split
        · rfl
        · rw [ih n]
          cases interpolateGo (b :: r) n with
          | error e => rfl
          | ok rest =>
            simp only [Except.map, Except.ok.injEq]
            simp only [castL, List.map_append]
            congr 1
            simp only [linspaceOpen, List.map_map]
            refine List.map_congr_left fun k _ => ?_
            simp only [Function.comp_def]
            push_cast
            ring

theorem diff_cast (l : List ℚ) : diff (castL K l) = castL K (diff l) := by
  unfold diff castL
  rw [← List.map_tail, List.zipWith_map, List.map_zipWith]
  congr 1
  funext a b
  push_cast
  ring

theorem init_cast (z vp vs : List ℚ) (n : List ℤ) (m : SimpleModel ℚ) (h : SimpleModel.init z vp vs (some n) = .ok m) :
    SimpleModel.init (castL K z) (castL K vp) (castL K vs) (some n) = .ok (castModel K m) := by
  unfold SimpleModel.init at h ⊢
  simp only [interpolateN, interpolateGo_cast, bind, Except.bind, pure, Except.pure, throw, throwThe,
    MonadExceptOf.throw] at h ⊢
  have hl : ∀ l : List ℚ, (castL K l).length = l.length := fun l => by simp [castL]
  simp only [hl]
  split at h
  · cases h
  · rename_i hlen
    rw [if_neg hlen]
    cases h1 : interpolateGo z n.tail with
    | error e => simp [h1] at h
    | ok z' =>
      cases h2 : interpolateGo vp n.tail with
      | error e => simp [h1, h2] at h
      | ok vp' =>
        cases h3 : interpolateGo vs n.tail with
        | error e => simp [h1, h2, h3] at h
        | ok vs' =>
          simp only [h1, h2, h3, Except.ok.injEq, Except.map] at h ⊢
          subst h
          simp only [castModel, SimpleModel.mk.injEq, and_true, diff_cast]
          simp [castL, List.map_dropLast]

variable [FloorRing K]

theorem toInt_cast (x : ℚ) : toInt (x : K) = toInt x := by
  unfold toInt
  simp only [Rat.cast_nonneg, Rat.floor_cast, Rat.ceil_cast]

end cast

/-! ## The loaded model -/

/-- The layers of a model. -/
def layersOf {K : Type} (m : SimpleModel K) : List (Layer K) :=
  (List.zip m.vp (List.zip m.vs m.dz)).map fun x => ⟨x.1, x.2.1, x.2.2⟩

theorem shipped_of_check {K : Type} [Field K] [LinearOrder K] [IsStrictOrderedRing K] (m : SimpleModel ℚ)
    (h : shippedCheck m = true) : ShippedModel (castModel K m) (layersOf (castModel K m)) := by
  simp only [shippedCheck, Bool.and_eq_true, decide_eq_true_eq] at h
  obtain ⟨⟨⟨⟨⟨⟨⟨⟨⟨⟨⟨⟨⟨⟨⟨h1, h2⟩, h3⟩, h4⟩, h5⟩, h6⟩, h7⟩, h8⟩, h9⟩, h10⟩, h11⟩, h12⟩, h13⟩, h14⟩, h15⟩, h16⟩ := h
  have c : ∀ l : List ℚ, (castL K l).length = l.length := fun l => by simp [castL]
  have lp : (castModel K m).vp.length = 669 := by rw [← h1]; exact c _
  have ls : (castModel K m).vs.length = 669 := by rw [← h2]; exact c _
  have ld : (castModel K m).dz.length = 669 := by rw [← h3]; exact c _
  have lz : (castModel K m).z.length = 669 := by rw [← h4]; exact c _
  have ev : (castModel K m).vp = (layersOf (castModel K m)).map Layer.vp := by
    unfold layersOf
    rw [List.map_map]
    exact (List.map_fst_zip (by simp; omega)).symm
  have es : (castModel K m).vs = (layersOf (castModel K m)).map Layer.vs := by
    unfold layersOf
    rw [List.map_map]
    have : (Layer.vs ∘ fun x : K × K × K => (⟨x.1, x.2.1, x.2.2⟩ : Layer K)) = Prod.fst ∘ Prod.snd := rfl
    rw [this, ← List.map_map, List.map_snd_zip (by simp; omega), List.map_fst_zip (by omega)]
  have ed : (castModel K m).dz = (layersOf (castModel K m)).map Layer.dz := by
    unfold layersOf
    rw [List.map_map]
    have : (Layer.dz ∘ fun x : K × K × K => (⟨x.1, x.2.1, x.2.2⟩ : Layer K)) = Prod.snd ∘ Prod.snd := rfl
    rw [this, ← List.map_map, List.map_snd_zip (by simp; omega), List.map_snd_zip (by omega)]
  have hlen : (layersOf (castModel K m)).length = 669 := by
    rw [← lp, ev, List.length_map]
  -- layer `i`
  have hl : ∀ (i : ℕ) (l : Layer K), (layersOf (castModel K m))[i]? = some l →
      ∃ (a b d : ℚ), m.vp[i]? = some a ∧ m.vs[i]? = some b ∧ m.dz[i]? = some d ∧ l = ⟨(a : K), (b : K), (d : K)⟩ := by
    intro i l hil
    have hi : i < 669 := by rw [← hlen]; exact (List.getElem?_eq_some_iff.1 hil).1
    have a1 : (castL K m.vp)[i]? = some l.vp := by
      rw [show castL K m.vp = _ from ev, List.getElem?_map, hil]; rfl
    have a2 : (castL K m.vs)[i]? = some l.vs := by
      rw [show castL K m.vs = _ from es, List.getElem?_map, hil]; rfl
    have a3 : (castL K m.dz)[i]? = some l.dz := by
      rw [show castL K m.dz = _ from ed, List.getElem?_map, hil]; rfl
    rw [castL, List.getElem?_map, List.getElem?_eq_getElem (by omega)] at a1 a2 a3
    simp only [Option.map_some, Option.some.injEq] at a1 a2 a3
    refine ⟨_, _, _, List.getElem?_eq_getElem (by omega), List.getElem?_eq_getElem (by omega),
      List.getElem?_eq_getElem (by omega), ?_⟩
    rw [a1, a2, a3]
  have hmem : ∀ l ∈ layersOf (castModel K m), ∃ i, (layersOf (castModel K m))[i]? = some l := fun l hl =>
    List.mem_iff_getElem?.1 hl
  refine ⟨ev, es, ed, rfl, hlen, lz, ?_, ?_, ?_, ?_, ?_, ?_, ?_, ?_, ?_, ?_⟩
  · have := List.isChain_iff_pairwise.1 h5
    show (castL K m.z).Pairwise _
    unfold castL
    rw [List.pairwise_map]
    exact this.imp fun h => by exact_mod_cast h
  · show (castL K m.z).getD 0 0 = 0
    rw [castL_getD, h6, Rat.cast_zero]
  · intro i hi
    show (castL K m.z).getD (i + 1) 0 = (castL K m.z).getD i 0 + (castL K m.dz).getD i 0
    rw [castL_getD, castL_getD, castL_getD, ← Rat.cast_add, Rat.cast_inj]
    have := congrArg (·[i]?) h7
    simp only [List.getElem?_tail] at this
    rw [List.getElem?_zipWith, List.getElem?_eq_getElem (by omega), List.getElem?_dropLast, if_pos (by omega),
      List.getElem?_eq_getElem (by omega), List.getElem?_eq_getElem (by omega)] at this
    simp only [Option.some.injEq] at this
    rw [List.getD_eq_getElem _ _ (by omega), List.getD_eq_getElem _ _ (by omega), List.getD_eq_getElem _ _ (by omega), this]
  · intro l hll
    obtain ⟨i, hi⟩ := hmem l hll
    obtain ⟨a, b, d, ha, hb, -, rfl⟩ := hl i l hi
    have hz : (List.zip m.vp m.vs)[i]? = some (a, b) := List.getElem?_zip_eq_some.2 ⟨ha, hb⟩
    obtain ⟨p1, p2, p3⟩ := h8 _ (List.mem_of_getElem? hz)
    simp only at p1 p2 p3 ⊢
    have p3' : (a : K) ≤ ((13691 / 1000 : ℚ) : K) := by exact_mod_cast p3
    refine ⟨by exact_mod_cast p1, by exact_mod_cast p2, ?_⟩
    push_cast at p3'
    exact p3'
  · intro l hll
    obtain ⟨i, hi⟩ := hmem l hll
    obtain ⟨a, b, d, -, -, hd, rfl⟩ := hl i l hi
    obtain ⟨p1, p2⟩ := h9 _ (List.mem_of_getElem? hd)
    have p2' : (d : K) ≤ ((50 / 3 : ℚ) : K) := by exact_mod_cast p2
    push_cast at p2'
    exact ⟨Rat.cast_nonneg.2 p1, p2'⟩
  · rw [List.map_take, ← ed]
    show (castL K m.dz).take 1 = [0]
    rw [castL, ← List.map_take, h10]
    simp
  · intro l hll
    obtain ⟨i, hi⟩ := List.mem_iff_getElem?.1 hll
    rw [List.getElem?_drop, List.getElem?_take] at hi
    split at hi
    · rename_i hlt
      obtain ⟨a, b, d, ha, hb, hd, rfl⟩ := hl _ l hi
      have get : ∀ (v : List ℚ) (x y : ℚ), (v.take 11).drop 1 = List.replicate 10 y → v[1 + i]? = some x → x = y := by
        intro v x y hv hx
        have := congrArg (·[i]?) hv
        simp only [List.getElem?_drop, List.getElem?_take, if_pos hlt, hx] at this
        rw [List.getElem?_replicate] at this
        split at this
        · exact Option.some.inj this
        · cases this
      rw [get _ _ _ h11 ha, get _ _ _ h12 hb, get _ _ _ h13 hd]
      norm_num
    · cases hi
  · intro i hi
    show 0 < (castL K m.dz).getD i 0 ∨ 0 < (castL K m.dz).getD (i + 1) 0
    rw [castL_getD, castL_getD, Rat.cast_pos, Rat.cast_pos]
    have hz : (List.zip m.dz m.dz.tail)[i]? = some (m.dz.getD i 0, m.dz.getD (i + 1) 0) := by
      rw [List.getElem?_zip_eq_some]
      simp only [List.getElem?_tail]
      rw [List.getElem?_eq_getElem (by omega), List.getElem?_eq_getElem (by omega), List.getD_eq_getElem _ _ (by omega),
        List.getD_eq_getElem _ _ (by omega)]
      exact ⟨rfl, rfl⟩
    exact h14 _ (List.mem_of_getElem? hz)
  · intro l hll
    obtain ⟨i, hi⟩ := List.mem_iff_getElem?.1 hll
    rw [List.getElem?_take] at hi
    split at hi
    · rename_i hlt
      obtain ⟨a, b, d, ha, -, -, rfl⟩ := hl _ l hi
      have : a ∈ m.vp.take 170 := List.mem_iff_getElem?.2 ⟨i, by rw [List.getElem?_take, if_pos hlt, ha]⟩
      have p : (a : K) ≤ ((1112 / 100 : ℚ) : K) := by exact_mod_cast h15 a this
      push_cast at p
      exact p
    · cases hi
  · show (castL K m.z).getD 166 0 = 760
    rw [castL_getD, h16]
    norm_num

/-- **C176.** `load_model('iasp91')` returns a model with 669 layers that reach from the surface to the core: the depths do
not decrease and fit to the thicknesses, P waves are faster than S waves, and no velocity exceeds 13.691 km/s. -/
theorem C176_loads {K : Type} [Field K] [LinearOrder K] [IsStrictOrderedRing K] [FloorRing K] (pkg : Str)
    (loadtxt : Str → Res (Table K)) (hfile : loadtxt pkg = loadShipped) (c : Models K)
    (hnew : c.get "iasp91".toList = none) :
    ∃ m layers, (loadModel pkg loadtxt c "iasp91".toList).2 = .ok m ∧ ShippedModel m layers := by
  have hc := file_checked
  generalize hq : LoadTxt.loadTxt (fileLines.map String.toList) = t at hc
  match t, hc with
  | .ok (.columns [z, vp, vs, n]), hc =>
    simp only [fileCheck] at hc
    split at hc
    · rename_i m hm
      refine ⟨castModel K m, layersOf (castModel K m), ?_, shipped_of_check m hc⟩
      have h1 := (C115_first_call pkg loadtxt c "iasp91".toList hnew pkg rfl).1 (castL K z) (castL K vp) (castL K vs)
        (castL K n) (by rw [hfile, loadShipped, hq]; rfl)
      rw [h1]
      have h2 : (castL K n).map toInt = n.map toInt := by
        unfold castL
        rw [List.map_map]
        exact List.map_congr_left fun x _ => toInt_cast x
      rw [h2]
      exact init_cast z vp vs _ m hm
    · cases hc

end Verif.Props
