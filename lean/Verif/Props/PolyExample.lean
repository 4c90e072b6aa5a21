import Verif.Props.PolyDesign
import Verif.Props.OrdinaryExample

/-! # C84: a beam of C60 concrete -/

set_option autoImplicit false

namespace SC

open Spec MeasureTheory

variable {lower : String → String}

namespace OrdinaryBeam

/-- C60 and B500 in any of the two codes with high strength formulas: the beam has a strength in pure bending, whose moment differs from
that of the design diagram by less than 10 percent of the concrete force times the half depth. -/
example (hl : PyLower lower) (ccls : ConcClass) (hcls : ccls ≠ .ec2_2023) (scls : SteelClass) :
    ∃ c s, newConcrete lower ccls (defaultArgs 60) = some (.ok c) ∧ newSteel lower scls sargs = some (.ok s) ∧
    ∃ b : BendingResult, (bendingStrength (sectionEngine RCBeam.split ((parabolaParts (designConcrete ccls (defaultArgs 60))
      (plateauStrain 60) (crushingStrain 60) (parabolaExponent 60) shapes).map PolyPart.solid) (bars s.mat.law) 0.01) 0 0 .fresh).2 = .ok b ∧
      |bendingMoment 0 ![b.n, b.m.1, b.m.2] - bendingMoment 0 ((plateSection shapes (bars s.mat.law)
        (parabolaRectangle (designConcrete ccls (defaultArgs 60)) (plateauStrain 60) (parabolaExponent 60)) (crushingStrain 60)).forces
          ![b.eps_a, b.chi.1, b.chi.2])| ≤ 250 * (0.1 * (40 * 150000)) := by
  obtain ⟨-, s, -, hs⟩ := accepted hl ccls scls
  have hinc : ¬ Inconsistent (defaultArgs 60) := by simp [Inconsistent, defaultArgs]
  obtain ⟨c, hc⟩ := (C47_accepts hl ccls hcls (defaultArgs 60) rfl rfl rfl).2 hinc
  refine ⟨c, s, hc, hs, ?_⟩
  have hu := ultimate_range scls
  have hy := yield_range
  have h60 : |(defaultArgs 60).fck| = 60 := abs_of_pos (by norm_num [defaultArgs])
  obtain ⟨r1, r2, r3, r4, r5, r6⟩ := high_ranges (f := 60) (by norm_num) (by norm_num)
  have hfc : designConcrete ccls (defaultArgs 60) = 40 := by
    cases ccls
    · simp [designConcrete, defaultArgs, factor]; norm_num
    · simp [designConcrete, defaultArgs, factor]; norm_num
    · exact absurd rfl hcls
  have harea : areaMoment 0 0 (Set.Icc (-150:ℝ) 150 ×ˢ Set.Icc (-250:ℝ) 250) = 150000 := by
    simp only [areaMoment, pow_zero, mul_one]
    rw [setIntegral_const, Measure.real, Measure.volume_eq_prod, Measure.prod_prod, Real.volume_Icc, Real.volume_Icc]
    norm_num
  have hgross : grossArea shapes = 150000 := by
    simp only [grossArea, shapes, List.map_cons, List.map_nil, List.sum_cons, List.sum_nil, harea, add_zero]
  have hbar : ((bars s.mat.law).map fun b => |b.area|).sum = 2000 := by
    simp only [bars, bar, List.map_cons, List.map_nil, List.sum_cons, List.sum_nil]; norm_num
  have hEs : |sargs.Es| = 200000 := by norm_num [sargs, steelArgs]
  have k1 : parabolaExponent 60 * 40 / plateauStrain 60 ≤ 40000 := by
    rw [div_le_iff₀ (by norm_num at *; linarith)]
    norm_num at *
    nlinarith
  have k0 : 0 ≤ parabolaExponent 60 * 40 / plateauStrain 60 := by
    refine div_nonneg ?_ ?_ <;> norm_num at * <;> linarith
  have hL : max (parabolaExponent 60 * 40 / plateauStrain 60) |sargs.Es| = 200000 := by
    rw [hEs, max_eq_right (k1.trans (by norm_num))]
  have herr : parabolaExponent 60 * 40 / plateauStrain 60 * crushingStrain 60 / 40 ≤ 0.1 * 40 := by
    have : parabolaExponent 60 * 40 / plateauStrain 60 * crushingStrain 60 ≤ 40000 * 0.0035 :=
      mul_le_mul k1 r4 (by norm_num at *; linarith) (by norm_num)
    norm_num at *
    linarith
  obtain ⟨-, hst, -⟩ := C73_steel hl scls sargs s hs rfl rfl rfl (gap scls)
  obtain ⟨-, -, -, ⟨C, -, hmain⟩, hres⟩ := C84_design_partial hl ccls hcls (defaultArgs 60) c hc rfl ⟨rfl, rfl⟩ ⟨rfl, rfl, rfl⟩
    (by rw [h60]; norm_num) scls sargs s hs rfl ⟨rfl, rfl⟩ (gap scls) rfl ⟨by norm_num at *; linarith [hu.1], by norm_num at *; linarith [hu.2]⟩
    RCBeam.split 0.01 (fun _ _ => 0) shapes (bars s.mat.law) 1 (one_steel _)
    (by
      intro b hb
      simp only [bars, bar, List.mem_cons, List.not_mem_nil, or_false] at hb
      rcases hb with rfl | rfl | rfl | rfl <;> norm_num)
    (by intro p hp; rw [List.mem_singleton.1 hp]; exact RCBeam.ok.encloses)
    (by intro p hp; rw [List.mem_singleton.1 hp]; exact hull) (th := 0) (R := 250)
    (by intro p hp; rw [List.mem_singleton.1 hp]; exact RCBeam.ok.splits)
    (geometry _) (geometry _) (by
      intro p hp v hv
      rw [List.mem_singleton.1 hp] at hv
      rw [RCBeam.height_zero]
      rcases mem_ring hv with rfl | rfl | rfl | rfl <;> norm_num) rfl (by rw [hfc]; norm_num) rfl rfl rfl rfl rfl
    (by rw [h60, hfc, hL, hgross, hbar]; norm_num) rfl rfl rfl
  rw [h60, hfc] at hmain hres
  rw [hL, hgross, hbar] at hmain
  rw [hgross] at hres
  have hforce : ∀ v : ℝ, |v| ≤ designUltimate scls sargs →
      (plateSection shapes (bars s.mat.law) (parabolaRectangle 40 (plateauStrain 60) (parabolaExponent 60)) (crushingStrain 60)).forces ![v, 0, 0] 0 =
      (∫ x in Set.Icc (-150:ℝ) 150 ×ˢ Set.Icc (-250:ℝ) 250, parabolaRectangle 40 (plateauStrain 60) (parabolaExponent 60) v) +
        2000 * (200000 * max (-designYield sargs) (min v (designYield sargs))) := by
    intro v hv
    have e := hst v hv
    rw [hEs] at e
    rw [← e]
    have hp : ∀ x y : ℝ, planeStrain ![v, 0, 0] x y = v := by intro x y; simp [planeStrain]
    simp only [CrossSection.forces, plateSection, shapes, bars, bar, Bar.fibre, resultants, regionResultants, lever,
      List.map_cons, List.map_nil, List.sum_cons, List.sum_nil, Pi.add_apply, Matrix.cons_val, mul_one, add_zero, hp]
    ring
  have q1 : (0:ℝ) < plateauStrain 60 := by norm_num at *; linarith
  obtain ⟨b, hb, -⟩ := (hmain 0 [] trivial).2 (by
    rw [hforce _ (by rw [abs_neg, abs_of_pos (by norm_num at *; linarith)]; norm_num at *; linarith [hu.1])]
    have h1 : (∫ x in Set.Icc (-150:ℝ) 150 ×ˢ Set.Icc (-250:ℝ) 250,
        parabolaRectangle 40 (plateauStrain 60) (parabolaExponent 60) (-crushingStrain 60)) ≤ 0 :=
      integral_nonpos fun x => (parabolaRectangle_bounds (by norm_num) q1 (by norm_num at *; linarith) _).2
    have h2 : max (-designYield sargs) (min (-crushingStrain 60) (designYield sargs)) ≤ -0.002 :=
      max_le (by linarith [hy.1]) ((min_le_left _ _).trans (by norm_num at *; linarith))
    refine lt_of_le_of_lt (add_le_add_left (add_le_add h1 (mul_le_mul_of_nonneg_left (mul_le_mul_of_nonneg_left h2 (by norm_num))
      (by norm_num))) _) (by norm_num)) (by
    rw [hforce _ (by rw [abs_of_pos (by norm_num at *; linarith [hu.1])]),
      parabolaRectangle_tension q1.le (by norm_num at *; linarith [hu.1])]
    rw [min_eq_right (by norm_num at *; linarith [hy.2, hu.1]), max_eq_right (by norm_num at *; linarith [hy.1])]
    simp only [integral_zero]
    norm_num at *
    linarith [hy.1])
  rw [hfc]
  refine ⟨b, hb, ?_⟩
  obtain ⟨c', -, e, -, he, -, -, -, -, hm, -⟩ := hres 0 [] b trivial hb
  rw [he]
  refine hm.trans ?_
  norm_num at *
  linarith

end OrdinaryBeam

end SC
