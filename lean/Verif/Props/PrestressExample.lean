import Verif.Props.PrestressLaws
import Verif.Props.OrdinaryExample
import Verif.Props.RectDesign

/-! # C89: a prestressed beam -/

set_option autoImplicit false

namespace SC

open Spec MeasureTheory

variable {lower : String → String}

namespace OrdinaryBeam

/-- Tendons stressed to 300 MPa, bonded or not. -/
noncomputable def targs (c : Option Bool) : SteelArgs := { sargs with initialStress := some 300, compat := c }

theorem strength_value : designStrength sargs sargs.fyk = 500 / 1.15 := by
  simp [designStrength, sargs, steelArgs, gammaS, factorOf]

theorem prestrain (c : Option Bool) : Prestrain (targs c) 0.0015 := by
  refine Or.inr (Or.inr ⟨rfl, 300, rfl, by norm_num, ?_, ?_⟩)
  · show (300:ℝ) ≤ designStrength sargs sargs.fyk
    rw [strength_value]; norm_num
  · have : |(targs c).Es| = 200000 := by norm_num [targs, sargs, steelArgs]
    rw [this]; norm_num

theorem tendon_range (c : Option Bool) (scls : SteelClass) :
    TendonRange scls (targs c) 0.0015 (designUltimate scls sargs + 0.0015) (designUltimate scls sargs - 0.0015) := by
  have hu := ultimate_range scls
  refine ⟨rfl, rfl, ?_, ?_, ?_⟩ <;> norm_num at * <;> linarith [hu.1, hu.2]

/-- Bonded or not, in every combination of concrete and steel class: the beam has a strength in pure bending, which no admissible plane
exceeds, at a plane with no force beyond the tolerance `R · |n|` of the answer. -/
theorem prestressed (hl : PyLower lower) (ccls : ConcClass) (scls : SteelClass) (cmp : Option Bool) :
    ∃ c s, newConcrete lower ccls (defaultArgs 30) = some (.ok c) ∧ newSteel lower scls (targs cmp) = some (.ok s) ∧
    s.mat.initialStress = some 300 ∧ s.mat.initialStrain = some 0.0015 ∧ s.mat.law.stress 0 = 300 ∧
    s.mat.law.stress (-0.0015) = (if cmp = some false then 300 else 0) ∧
    ∃ b : BendingResult, (bendingStrength (sectionEngine RCBeam.split ((normalParts (designConcrete ccls (defaultArgs 30)) shapes).map
      ConcretePart.solid) (bars s.mat.law) 0.01) 0 0 .fresh).2 = .ok b ∧
      (concreteSection (normalParts (designConcrete ccls (defaultArgs 30)) shapes) (bars s.mat.law)).forces ![b.eps_a, b.chi.1, b.chi.2] =
        ![b.n, b.m.1, b.m.2] ∧
      (concreteSection (normalParts (designConcrete ccls (defaultArgs 30)) shapes) (bars s.mat.law)).AtLimit
        ![b.eps_a, b.chi.1, b.chi.2] := by
  obtain ⟨c, s0, hc, hs0⟩ := accepted hl ccls scls
  have hacc : ∃ s, newSteel lower scls (targs cmp) = some (.ok s) :=
    (C89_accepts hl scls (targs cmp) rfl (prestrain cmp) (gap scls)).2
      ((C89_accepts hl scls sargs rfl (p := 0) (Or.inl ⟨rfl, rfl, by simp [sargs, steelArgs], rfl⟩) (gap scls)).1 ⟨s0, hs0⟩)
  obtain ⟨s, hs⟩ := hacc
  have hu := ultimate_range scls
  have hy1 := yield_range
  have hy : designYield sargs = 500 / 1.15 / 200000 := by
    simp [designYield, sargs, steelArgs, gammaS, factorOf]
  have hr := tendon_range cmp scls
  have hEs : |sargs.Es| = 200000 := by norm_num [sargs, steelArgs]
  have hval : ∀ x, tendonStress (targs cmp) 0.0015 x = 200000 * max (-designYield sargs)
      (min (0.0015 + if cmp = some false then 0 else x) (designYield sargs)) := by
    intro x
    rw [← hEs]; rfl
  obtain ⟨hult, hst, -, -⟩ := tendon_facts hl hs rfl (prestrain cmp) (gap scls) hr
  have h0 : s.mat.law.stress 0 = 300 := by
    rw [hst 0 ⟨by linarith [hr.2.2.1], by linarith [hr.2.2.2.1]⟩, hval, hy]
    split_ifs <;> norm_num
  have h15 : s.mat.law.stress (-0.0015) = if cmp = some false then 300 else 0 := by
    rw [hst _ ⟨by linarith [hr.2.2.1], by linarith [hr.2.2.2.1]⟩, hval, hy]
    split_ifs <;> norm_num
  obtain ⟨-, -, hini⟩ := C89_tendon hl scls (targs cmp) s hs rfl (prestrain cmp) (gap scls)
    ⟨by rw [show designUltimate scls (targs cmp) = designUltimate scls sargs from rfl]; linarith [hu.1],
      by rw [show designUltimate scls (targs cmp) = designUltimate scls sargs from rfl]; linarith [hu.1]⟩
  obtain ⟨i1, i2⟩ := hini (Or.inr rfl)
  refine ⟨c, s, hc, hs, ?_, i1, h0, h15, ?_⟩
  · rw [i2, hval, hy]
    split_ifs <;> norm_num
  have hfc : designConcrete ccls (defaultArgs 30) = 20 := by
    have h1 : (1:ℝ) ≤ (40 / 30) ^ ((1:ℝ) / 3) := Real.one_le_rpow (by norm_num) (by norm_num)
    cases ccls <;> simp only [designConcrete, defaultArgs, factor, Option.getD_none] <;> rw [abs_of_pos (by norm_num : (0:ℝ) < 30)]
    · norm_num
    · norm_num
    · rw [min_eq_right h1]; norm_num
  rw [hfc]
  have harea : areaMoment 0 0 (Set.Icc (-150:ℝ) 150 ×ˢ Set.Icc (-250:ℝ) 250) = 150000 := by
    simp only [areaMoment, pow_zero, mul_one]
    rw [setIntegral_const, Measure.real, Measure.volume_eq_prod, Measure.prod_prod, Real.volume_Icc, Real.volume_Icc]
    norm_num
  set S := concreteSection (normalParts 20 shapes) (bars s.mat.law) with hS
  have hforce : ∀ u : ℝ, S.forces ![u, 0, 0] 0 =
      150000 * (ParabolaRectangle.new 20 0.002 0.0035 2).stress u + 2000 * s.mat.law.stress u := by
    intro u
    have hp : ∀ x y : ℝ, planeStrain ![u, 0, 0] x y = u := by intro x y; simp [planeStrain]
    have hi : (∫ x in Set.Icc (-150:ℝ) 150 ×ˢ Set.Icc (-250:ℝ) 250, (ParabolaRectangle.new 20 0.002 0.0035 2).stress u) =
        150000 * (ParabolaRectangle.new 20 0.002 0.0035 2).stress u := by
      rw [setIntegral_const, Measure.real, Measure.volume_eq_prod, Measure.prod_prod, Real.volume_Icc, Real.volume_Icc, smul_eq_mul]
      norm_num
    simp only [hS, CrossSection.forces, concreteSection, normalParts, shapes, bars, bar, Bar.fibre, resultants, regionResultants, lever,
      List.map_cons, List.map_nil, List.sum_cons, List.sum_nil, Pi.add_apply, Matrix.cons_val, mul_one, add_zero, hp]
    simp only [ConcretePart.law, ParabolaRectangle.law]
    rw [← hi]
    ring
  have hcrush : (ParabolaRectangle.new 20 0.002 0.0035 2).stress (-0.0035) = -20 := by
    have := block_zone3 (fc := 20) (x := 1) (z1 := 0) (y := 0) one_pos (by norm_num) le_rfl
    rw [sub_zero, mul_zero, add_zero, abs_of_pos (by norm_num)] at this
    exact this
  have htens : (ParabolaRectangle.new 20 0.002 0.0035 2).stress (designUltimate scls sargs - 0.0015) = 0 :=
    pr_stress_tension 20 0.002 0.0035 (by norm_num) (by norm_num [abs_of_pos]) (by linarith [hr.2.2.2.1])
  have hlo : s.mat.law.stress (-0.0035) ≤ 300 := by
    rw [← h0, hst 0 ⟨by linarith [hr.2.2.1], by linarith [hr.2.2.2.1]⟩, hst (-0.0035) ⟨by linarith [hr.2.2.1], by linarith [hr.2.2.2.1]⟩]
    exact tendonStress_mono _ _ (by norm_num)
  have hhi : 300 ≤ s.mat.law.stress (designUltimate scls sargs - 0.0015) := by
    rw [← h0, hst 0 ⟨by linarith [hr.2.2.1], by linarith [hr.2.2.2.1]⟩, hst _ ⟨by linarith [hr.2.2.1, hr.2.2.2.1], le_rfl⟩]
    exact tendonStress_mono _ _ (by linarith [hr.2.2.2.1])
  have hδ : (2 * |(20:ℝ)| / 0.002 * (shapes.map fun p => areaMoment 0 0 p.2).sum + |(targs cmp).Es| *
      ((bars s.mat.law).map fun b => |b.area|).sum) * 500 = 1700000000000 := by
    rw [show |(targs cmp).Es| = 200000 from hEs]
    simp only [shapes, bars, bar, List.map_cons, List.map_nil, List.sum_cons, List.sum_nil, harea]
    rw [abs_of_pos (by norm_num), abs_of_pos (by norm_num)]
    norm_num
  obtain ⟨-, -, -, C, -, hmain⟩ := C89_design_partial hl ccls (defaultArgs 30) c hc rfl ⟨rfl, rfl⟩ ⟨rfl, rfl, rfl⟩
    (fun _ => by norm_num [defaultArgs, abs_of_pos]) scls (targs cmp) s hs rfl (prestrain cmp) (gap scls) hr
    RCBeam.split 0.01 0 (fun _ _ => 0) shapes (bars s.mat.law) 1 (one_steel _)
    (by
      intro b hb
      simp only [bars, bar, List.mem_cons, List.not_mem_nil, or_false] at hb
      rcases hb with rfl | rfl | rfl | rfl <;> norm_num)
    (by intro p hp; rw [List.mem_singleton.1 hp]; exact RCBeam.ok.encloses)
    (by intro p hp; rw [List.mem_singleton.1 hp]; exact hull)
    (by intro p hp; rw [List.mem_singleton.1 hp]; exact RCBeam.ok.splits)
    (R := 250) (geometry _) (geometry _)
    (by
      intro p hp v hv
      rw [List.mem_singleton.1 hp] at hv
      rw [RCBeam.height_zero]
      rcases mem_ring hv with rfl | rfl | rfl | rfl <;> norm_num [abs_of_pos])
    20 hfc.symm _ rfl (by rw [hδ]; norm_num) S hS _ rfl
  obtain ⟨b, hb, -, hf, hlim, -⟩ := (hmain 0 [] trivial).2
    (by rw [hδ, hforce, hcrush]; norm_num at *; linarith)
    (by rw [hδ, hforce, htens]; norm_num at *; linarith)
  exact ⟨b, hb, hf, hlim⟩

end OrdinaryBeam

end SC
