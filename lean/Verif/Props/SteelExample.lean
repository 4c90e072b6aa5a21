import Verif.Props.SteelProfile
import Verif.Props.ProfileExample
import Verif.Props.ISection

/-! # C75: a case that meets the hypotheses

The plate 100 x 200 of S355 steel with limit strain 0.05, bent about its horizontal axis without axial force. -/

set_option autoImplicit false

namespace SC

open Spec MeasureTheory

namespace SteelPlate

noncomputable def law : ElasticPlastic := ⟨210000, 355, 0, some 0.05⟩

noncomputable def part : SteelPart := ⟨plate, plate.box, law⟩

noncomputable def split : Polygon → ℝ → ℝ → ShapelyResult := rectSplit (-50) 50 (-100) 100

theorem law_ok : PerfectlyPlastic law 0.05 := by
  refine ⟨?_, ?_, rfl, ?_, ?_⟩ <;> norm_num [law, ElasticPlastic.ult, ElasticPlastic.eps_sy]

theorem ok : part.Ok split 0 0.05 := by
  refine ⟨plate_shape.encloses, ?_, ?_, law_ok⟩
  · have hset : {v | v ∈ plate.ext} = ({-50, 50} : Set ℝ) ×ˢ ({-100, 100} : Set ℝ) := by
      ext ⟨x, y⟩
      simp only [plate, rectRing, closeRing, Set.mem_ofPred_eq, List.mem_cons, List.cons_append, List.nil_append,
        List.take_succ_cons, List.take_zero, List.not_mem_nil, or_false,
        Set.mem_prod, Set.mem_insert_iff, Set.mem_singleton_iff, Prod.mk.injEq]
      tauto
    show plate.box ⊆ convexHull ℝ {v | v ∈ plate.ext}
    rw [hset, plate_box, convexHull_prod, convexHull_pair, convexHull_pair, segment_eq_Icc (by norm_num), segment_eq_Icc (by norm_num)]
  · have h0 : rotPt (-0) '' part.region = part.region := by
      rw [neg_zero, show rotPt 0 = id from funext rotPt_zero, Set.image_id]
    have : rotPt (-Real.pi) '' part.region = part.region := by
      show rotPt (-Real.pi) '' plate.box = plate.box
      rw [plate_box]
      ext x
      constructor
      · rintro ⟨y, ⟨h1, h2⟩, rfl⟩
        rw [RCBeam.rot_pi]
        exact ⟨⟨by linarith [h1.2], by linarith [h1.1]⟩, ⟨by linarith [h2.2], by linarith [h2.1]⟩⟩
      · rintro ⟨h1, h2⟩
        refine ⟨(-x.1, -x.2), ⟨⟨by linarith [h1.2], by linarith [h1.1]⟩, ⟨by linarith [h2.2], by linarith [h2.1]⟩⟩, ?_⟩
        rw [RCBeam.rot_pi]; simp
    rw [h0, this]
    show SplitsExactly split _ plate.box
    rw [plate_box]
    exact rectSplit_exact (by norm_num) _

theorem oks : ∀ p ∈ [part], p.Ok split 0 0.05 := by
  intro p hp
  rw [List.mem_singleton.1 hp]
  exact ok

theorem depth : SteelDepth 0 [part] (-100) 100 where
  range := by
    intro p hp v hv
    rw [List.mem_singleton.1 hp] at hv
    rw [RCBeam.height_zero]
    simp only [part, plate, rectRing, closeRing, List.cons_append, List.nil_append,
        List.take_succ_cons, List.take_zero, List.mem_cons, List.not_mem_nil, or_false] at hv
    rcases hv with rfl | rfl | rfl | rfl | rfl <;> norm_num
  top := ⟨part, by simp, (50, 100), by simp [part, plate, rectRing, closeRing], by rw [RCBeam.height_zero]⟩
  bottom := ⟨part, by simp, (50, -100), by simp [part, plate, rectRing, closeRing], by rw [RCBeam.height_zero]⟩
  size := by norm_num

theorem area : areaMoment 0 0 plate.box = 20000 := by
  have h := plate_moment (y0 := -50) (y1 := 50) (z0 := -100) (z1 := 100) (by norm_num) (by norm_num) 0 0
  simp only [plateIntegral] at h
  rw [plate_box, areaMoment, h]
  norm_num

theorem area' : ∫ _ in plate.box, (1:ℝ) = 20000 := by
  rw [← area]; simp [areaMoment]

/-- The static moment of the halves. -/
theorem plastic_modulus : absMoment plate.box 0 = 1e6 := by
  have := setIntegral_prod_mul (μ := (volume : Measure ℝ)) (ν := (volume : Measure ℝ)) (fun _ : ℝ => (1:ℝ)) (fun y : ℝ => |y|) (Set.Icc (-50) 50) (Set.Icc (-100) 100)
  rw [absMoment, plate_box]
  simp only [sub_zero]
  rw [Measure.volume_eq_prod]
  simp only [one_mul] at this
  rw [this, integral_Icc_eq_integral_Ioc, integral_Icc_eq_integral_Ioc, ← intervalIntegral.integral_of_le (by norm_num),
    ← intervalIntegral.integral_of_le (by norm_num)]
  have h : ∫ y in (-100:ℝ)..100, |y| = 10000 := by
    have hi : ∀ a b : ℝ, IntervalIntegrable (fun y : ℝ => |y|) volume a b := fun a b => (by fun_prop : Continuous fun y : ℝ => |y|).intervalIntegrable _ _
    rw [← intervalIntegral.integral_add_adjacent_intervals (hi (-100) 0) (hi 0 100)]
    have h1 : ∫ y in (-100:ℝ)..0, |y| = ∫ y in (-100:ℝ)..0, -y := by
      apply intervalIntegral.integral_congr
      intro y hy
      rw [Set.uIcc_of_le (by norm_num)] at hy
      exact abs_of_nonpos hy.2
    have h2 : ∫ y in (0:ℝ)..100, |y| = ∫ y in (0:ℝ)..100, y := by
      apply intervalIntegral.integral_congr
      intro y hy
      rw [Set.uIcc_of_le (by norm_num)] at hy
      exact abs_of_nonneg hy.1
    rw [h1, h2, intervalIntegral.integral_neg, integral_id, integral_id]
    norm_num
  rw [h, intervalIntegral.integral_const]
  norm_num

/-- The plate at its limit strains carries no axial force. -/
theorem balanced_force : (steelSection [part]).forces (planeThrough 0 (-100) 0.05 (-(2 * 0.05) / (100 - -100))) 0 = 0 := by
  have hpl : ∀ x : ℝ × ℝ, planeStrain (planeThrough 0 (-100) 0.05 (-(2 * 0.05) / (100 - -100))) x.1 x.2 = -0.0005 * x.2 := by
    intro x
    rw [planeThrough_height, RCBeam.height_zero]; ring
  have ha : (steelSection [part]).Admissible (planeThrough 0 (-100) 0.05 (-(2 * 0.05) / (100 - -100))) := by
    refine ⟨fun q hq x hx => ?_, fun r hr => by simp [steelSection] at hr⟩
    simp only [steelSection, List.mem_map] at hq
    obtain ⟨p, hp, rfl⟩ := hq
    have hr := hull_range depth hp hx
    rw [RCBeam.height_zero] at hr
    simp only [(oks p hp).law.limit, hpl]
    constructor <;> norm_num <;> linarith
  rw [steel_forces_clamped oks ha]
  simp only [List.map_cons, List.map_nil, List.sum_cons, List.sum_nil, add_zero, hpl, lever, Matrix.cons_val_zero, mul_one]
  have e : signedMap 1 (-1) 0 0 '' part.region = part.region := by
    show signedMap 1 (-1) 0 0 '' plate.box = plate.box
    rw [plate_box]
    ext x
    rw [mem_signed]
    simp only [Set.mem_prod, Set.mem_Icc]
    simp
    intro _ _
    constructor <;> rintro ⟨a, b⟩ <;> constructor <;> linarith
  have h := integral_signed 1 (-1) 0 0 part.region fun x => part.law.clamped (-0.0005 * x.2)
  rw [e] at h
  have hodd : ∀ x : ℝ, part.law.clamped (-x) = -part.law.clamped x := by
    intro x
    have hs : 0 ≤ part.law.eps_sy := law_ok.sy_nonneg
    unfold ElasticPlastic.clamped
    rw [← mul_neg]
    congr 1
    generalize part.law.eps_sy = s at hs
    rcases le_total x s with h1 | h1 <;> rcases le_total (-s) x with h2 | h2
    · rw [min_eq_left h1, max_eq_right h2, min_eq_left (by linarith), max_eq_right (by linarith)]
    · rw [min_eq_left h1, max_eq_left h2, min_eq_right (by linarith), max_eq_right (by linarith)]; ring
    · rw [min_eq_right h1, max_eq_right (show -s ≤ s by linarith), min_eq_left (show -x ≤ s by linarith), max_eq_left (by linarith)]
    · have h3 : s = 0 := by linarith
      have h4 : x = 0 := by linarith
      rw [h3, h4]; simp
  have h2 : (∫ x in part.region, part.law.clamped (-0.0005 * x.2)) = -∫ x in part.region, part.law.clamped (-0.0005 * x.2) := by
    conv_lhs => rw [h]
    rw [← integral_neg]
    congr 1
    funext x
    rw [← hodd]
    simp [signedMap]
  linarith

end SteelPlate

open SteelPlate in
/-- The hypotheses of the C75 theorems hold for the plate: its limit axial loads are ±7.1 MN, and without axial force the strength is
between 96 % and 100.1 % of `fy` times the plastic modulus 10^6 mm³. -/
example (ms : ℝ) (lu : Matrix (Fin 3) (Fin 3) ℝ → (Fin 3 → ℝ) → (Fin 3 → ℝ)) (eig : ℝ → ℝ → ℝ → Eig) :
    (limits (sectionEngine split [part.solid] [] ms) .fresh).2 = .ok (-7100000, 7100000) ∧
    (∃ W, (Profile.read boxShapely eig .Wply (Profile.fresh plate)).2 = .ok W ∧ 1e6 ≤ W ∧ W ≤ 1e6 + 1) ∧
    ∃ b : BendingResult, (bendingStrength (sectionEngine split [part.solid] [] ms) 0 0 .fresh).2 = .ok b ∧
      |b.n| ≤ 1e-2 ∧ 340e6 ≤ -b.m.1 ∧ -b.m.1 ≤ 355e6 + 1e3 := by
  have hsq : squashLoad (yieldPlates [part]) = 7100000 := by
    rw [squashLoad_parts]
    simp only [List.map_cons, List.map_nil, List.sum_cons, List.sum_nil, part, area']
    norm_num [law]
  have hw : absMoment plate.box 0 = 1e6 := plastic_modulus
  obtain ⟨C, -, hC⟩ := C75_loads_partial (u := 0.05) oks oks (by norm_num) depth depth ms lu (by
    simp only [steelRigidity, List.map_cons, List.map_nil, List.sum_cons, List.sum_nil, part, area']
    norm_num [law])
  obtain ⟨b, hb, hn⟩ := (hC 0 [] trivial).2 (by rw [hsq]; norm_num)
  have hn := hn (Or.inr (by rw [balanced_force]; norm_num))
  rw [sub_zero] at hn
  obtain ⟨W, hW, hWb⟩ := C75_profile (u := 0.05) (lo := -100) (hi := 100) ok (by norm_num) depth plate_shape plate_splits eig ms lu
  obtain ⟨W', hW', w1, w2, hmin⟩ := C60_plastic_modulus plate_shape plate_splits eig plate_balance
    (by rw [plate_bounds]; norm_num) (by rw [plate_bounds]; norm_num)
  have : W = W' := by
    have := hW.symm.trans hW'
    simpa using this
  subst this
  rw [hw] at w1 w2
  have ha : areaMoment 0 0 part.region = 20000 := area
  rw [plate_bounds] at w2
  have ha2 : areaMoment 0 0 plate.box = 20000 := area
  rw [ha2] at w2
  norm_num at w2
  obtain ⟨h1, h2⟩ := hWb 0 [] b trivial hb
  have hfy : part.law.fy = 355 := rfl
  have hsy : part.law.eps_sy = 355 / 210000 := rfl
  rw [ha, hfy, hsy] at h2
  rw [hfy] at h1
  have hm : max |(-100:ℝ)| |100| = 100 := by norm_num
  rw [hm] at h1 h2
  have hbn := abs_le.1 hn
  have habs : ∀ z : ℝ, 1e6 ≤ absMoment part.region z := fun z => hw.symm.le.trans (hmin z)
  refine ⟨?_, ⟨W, hW, w1, by linarith⟩, b, hb, hn, ?_, by linarith⟩
  · have := C75_limits (u := 0.05) oks (by norm_num) depth ms
    rw [hsq] at this
    exact this
  · have h3 := h2 (by have := habs 100; norm_num at this ⊢; linarith) (by have := habs (-100); norm_num at this ⊢; linarith)
    have h4 := mul_le_mul_of_nonneg_left hn (show (0:ℝ) ≤ 100 by norm_num)
    norm_num at h3 h4 w1 ⊢
    linarith

end SC
