import Verif.Props.HardeningDesign

/-! # C76: a beam with the default steel law, of any of the codes -/

set_option autoImplicit false

namespace SC

open Spec MeasureTheory OrdinaryRC

variable {lower : String → String}

namespace OrdinaryBeam

noncomputable def hargs : SteelArgs := steelArgs 500 200000 540 0.05

/-- Every combination of concrete and steel class, C30 and B500 with the default law: some load is carried, with the force found within
the tolerance; and for some load between the limit loads the calculation raises. -/
example (hl : PyLower lower) (ccls : ConcClass) (scls : SteelClass) :
    ∃ c s E S, newConcrete lower ccls (defaultArgs 30) = some (.ok c) ∧ newSteel lower scls hargs = some (.ok s) ∧
    S = concreteSection (normalParts (designConcrete ccls (defaultArgs 30)) shapes) (bars s.mat.law) ∧
    E = sectionEngine RCBeam.split ((normalParts (designConcrete ccls (defaultArgs 30)) shapes).map ConcretePart.solid) (bars s.mat.law) 0.01 ∧
    (∃ (n : ℝ) (b : BendingResult), (bendingStrength E 0 n .fresh).2 = .ok b ∧ |b.n - n| ≤ 1e-2) ∧
    ∃ n, S.forces ![-0.0035, 0, 0] 0 < n ∧ n < S.forces ![designUltimate scls hargs, 0, 0] 0 ∧
      (bendingStrength E 0 n .fresh).2 = .error .valueError := by
  have hinc : ¬ Inconsistent (defaultArgs 30) := by
    simp [Inconsistent, defaultArgs]
  have hc : ∃ c, newConcrete lower ccls (defaultArgs 30) = some (.ok c) := by
    by_cases h : ccls = .ec2_2023
    · subst h
      exact (C47_accepts_2023 hl (defaultArgs 30) rfl rfl rfl).2 ⟨hinc, by right; left,
        by norm_num [defaultArgs, abs_of_pos], by simp [defaultArgs]⟩
    · exact (C47_accepts hl ccls h (defaultArgs 30) rfl rfl rfl).2 hinc
  have hg : gammaS hargs = 1.15 := rfl
  have gs : strainFactorOk scls hargs := by
    cases scls <;> simp [strainFactorOk, hargs, steelArgs, factorOf] <;> norm_num
  have hy : designYield hargs = 500 / 1.15 / 200000 := by
    simp [designYield, hargs, steelArgs, gammaS, factorOf]
  have hu : 0.04 ≤ designUltimate scls hargs ∧ designUltimate scls hargs ≤ 0.05 := by
    cases scls <;> simp only [designUltimate, hargs, steelArgs, gammaS, factorOf] <;> rw [abs_of_pos (by norm_num)] <;> norm_num
  have hy1 : (0.002:ℝ) ≤ designYield hargs ∧ designYield hargs ≤ 0.003 := by rw [hy]; norm_num
  obtain ⟨s, hs⟩ := (C48_accepts hl scls hargs rfl rfl rfl).2 ⟨by rw [hg]; norm_num, gs, by norm_num [hargs, steelArgs],
    by intro h; rw [h] at hu; linarith [hu.1, hy1.2]⟩
  obtain ⟨c, hc⟩ := hc
  have hEs : |hargs.Es| = 200000 := by norm_num [hargs, steelArgs]
  have hH : 600 ≤ designHardening scls hargs ∧ designHardening scls hargs ≤ 1000 := by
    have e : designStrength hargs hargs.ftk - designStrength hargs hargs.fyk = 40 / 1.15 := by
      rw [designStrength, designStrength, hg]
      simp only [hargs, steelArgs]
      rw [abs_of_pos (by norm_num), abs_of_pos (by norm_num)]
      norm_num
    rw [designHardening, e]
    have hp : 0 < designUltimate scls hargs - designYield hargs := by linarith [hu.1, hy1.2]
    constructor
    · rw [le_div_iff₀ hp]
      have : 600 * (designUltimate scls hargs - designYield hargs) ≤ 600 * 0.05 := by linarith [hu.2, hy1.1]
      refine this.trans (by norm_num)
    · rw [div_le_iff₀ hp]
      have : 1000 * 0.037 ≤ 1000 * (designUltimate scls hargs - designYield hargs) := by linarith [hu.1, hy1.2]
      refine le_trans (by norm_num) this
  have hw : 1.4e-6 ≤ snapWidth (designUltimate scls hargs) ∧ snapWidth (designUltimate scls hargs) ≤ 1.5e-6 := by
    unfold snapWidth
    constructor <;> linarith [hu.1, hu.2]
  have hgap : designYield hargs + 1e-6 + snapWidth (designUltimate scls hargs) ≤ designUltimate scls hargs := by
    linarith [hu.1, hu.2, hy1.2, hw.2]
  have hft : |hargs.fyk| ≤ |hargs.ftk| := by
    simp only [hargs, steelArgs]
    rw [abs_of_pos (by norm_num), abs_of_pos (by norm_num)]
    norm_num
  have hslope : designHardening scls hargs ≤ |hargs.Es| := by rw [hEs]; linarith [hH.2]
  obtain ⟨l, hh, hlE, hlsy, hlEh, hst, hult⟩ := C76_steel hl scls hargs s hs rfl rfl rfl hft hslope hgap
  set fc := designConcrete ccls (defaultArgs 30) with hfc
  have hfcb : 0 < fc ∧ fc ≤ 30 := by
    rw [hfc]
    cases ccls <;> simp only [designConcrete, defaultArgs, factor, Option.getD_none] <;> rw [abs_of_pos (by norm_num : (0:ℝ) < 30)]
    · norm_num
    · norm_num
    · have : min (((40:ℝ) / 30) ^ ((1:ℝ) / 3)) 1 ≤ 1 := min_le_right _ _
      have h2 : 0 < min (((40:ℝ) / 30) ^ ((1:ℝ) / 3)) 1 := lt_min (by positivity) one_pos
      constructor
      · positivity
      · rw [div_le_iff₀ (by norm_num)]; nlinarith
  have harea : areaMoment 0 0 (Set.Icc (-150:ℝ) 150 ×ˢ Set.Icc (-250:ℝ) 250) = 150000 := by
    simp only [areaMoment, pow_zero, mul_one]
    rw [setIntegral_const, Measure.real, Measure.volume_eq_prod, Measure.prod_prod, Real.volume_Icc, Real.volume_Icc]
    norm_num
  have hδ : (2 * |fc| / 0.002 * (shapes.map fun p => areaMoment 0 0 p.2).sum + |hargs.Es| * ((bars s.mat.law).map fun b => |b.area|).sum) *
      500 ≤ 1e13 := by
    simp only [shapes, bars, bar, List.map_cons, List.map_nil, List.sum_cons, List.sum_nil, harea, hEs]
    rw [abs_of_pos hfcb.1]
    norm_num
    linarith [hfcb.2]
  have hA : ((bars s.mat.law).map fun b => |b.area|).sum = 2000 := by
    simp only [bars, bar, List.map_cons, List.map_nil, List.sum_cons, List.sum_nil]
    norm_num
  have hlen : ((bars s.mat.law).length : ℝ) = 4 := by simp [bars]
  set δ := (2 * |fc| / 0.002 * (shapes.map fun p => areaMoment 0 0 p.2).sum + |hargs.Es| * ((bars s.mat.law).map fun b => |b.area|).sum) *
      500 with hδdef
  obtain ⟨-, hgood, hbad⟩ := C76_design_partial hl ccls (defaultArgs 30) c hc rfl ⟨rfl, rfl⟩ ⟨rfl, rfl, rfl⟩
    (fun _ => by norm_num [defaultArgs, abs_of_pos]) scls hargs s hs rfl ⟨rfl, rfl⟩ hft hslope hgap ⟨by linarith [hu.1], by linarith [hu.2]⟩
    RCBeam.split 0.01 0 (fun _ _ => 0) shapes (bars s.mat.law) 1
    (by intro b hb; simp only [bars, bar, List.mem_cons, List.not_mem_nil, or_false] at hb; rcases hb with rfl | rfl | rfl | rfl <;> rfl)
    (by intro p hp; rw [List.mem_singleton.1 hp]; exact RCBeam.ok.encloses)
    (by intro p hp; rw [List.mem_singleton.1 hp]; exact hull)
    (by intro p hp; rw [List.mem_singleton.1 hp]; exact RCBeam.ok.splits)
    (geometry _) (geometry _) fc hfc δ hδdef (hδ.trans (by norm_num)) _ rfl _ rfl _ rfl
  set J := designHardening scls hargs * snapWidth (designUltimate scls hargs) with hJ
  have hJb : 600 * 1.4e-6 ≤ J ∧ J ≤ 1000 * 1.5e-6 :=
    ⟨mul_le_mul hH.1 hw.1 (by norm_num) (by linarith [hH.1]), mul_le_mul hH.2 hw.2 (by linarith [hw.1]) (by norm_num)⟩
  refine ⟨c, s, _, _, hc, hs, rfl, rfl, ?_, ?_⟩
  · obtain ⟨-, hvol⟩ := hgood (by linarith [hu.1, hw.2]) (by linarith [hw.1])
    rw [hlen, hA] at hvol
    by_contra hcon
    push Not at hcon
    have hforce : ∀ u : ℝ, (concreteSection (normalParts fc shapes) (bars s.mat.law)).forces ![u, 0, 0] 0 =
        (∫ x in Set.Icc (-150:ℝ) 150 ×ˢ Set.Icc (-250:ℝ) 250, (ParabolaRectangle.new fc 0.002 0.0035 2).stress u) + 2000 * l.stress u := by
      intro u
      rw [← hst]
      have hp : ∀ x y : ℝ, planeStrain ![u, 0, 0] x y = u := by intro x y; simp [planeStrain]
      simp only [CrossSection.forces, concreteSection, normalParts, shapes, bars, bar, Bar.fibre, resultants, regionResultants, lever,
        List.map_cons, List.map_nil, List.sum_cons, List.sum_nil, Pi.add_apply, Matrix.cons_val, mul_one, add_zero, hp]
      simp only [ConcretePart.law]
      ring
    have hc8 := C08_parabola_rectangle fc 0.002 0.0035 2 (by norm_num [abs_of_pos]) (by norm_num [abs_of_pos]) (by norm_num [abs_of_pos]) (by norm_num)
    have hsy : l.eps_sy ≤ 0.003 := by
      rw [hlsy]; exact hy1.2
    have hlo : (concreteSection (normalParts fc shapes) (bars s.mat.law)).forces ![-0.0035, 0, 0] 0 ≤ 0 := by
      rw [hforce]
      have h1 : (∫ x in Set.Icc (-150:ℝ) 150 ×ˢ Set.Icc (-250:ℝ) 250, (ParabolaRectangle.new fc 0.002 0.0035 2).stress (-0.0035)) ≤ 0 :=
        integral_nonpos fun x => (hc8.bounded _).2
      have h2 : l.stress (-0.0035) ≤ 0 := by
        rw [hh.stress_mid (by linarith [hu.1, hw.2]) (by linarith [hu.1, hw.2]), hh.core_low (by linarith [hu.1]) (by linarith)]
        have := mul_nonneg hh.Eh.1 (show (0:ℝ) ≤ 0.0035 by norm_num)
        have := mul_nonneg (sub_nonneg.2 hh.Eh.2) hh.sy_nonneg
        linarith
      linarith
    have hhi : 48000 ≤ (concreteSection (normalParts fc shapes) (bars s.mat.law)).forces ![designUltimate scls hargs, 0, 0] 0 := by
      rw [hforce]
      have h1 : (∫ x in Set.Icc (-150:ℝ) 150 ×ˢ Set.Icc (-250:ℝ) 250,
          (ParabolaRectangle.new fc 0.002 0.0035 2).stress (designUltimate scls hargs)) = 0 := by
        rw [hc8.no_tension _ (by linarith [hu.1])]; simp
      have h2 : 24 ≤ l.stress (designUltimate scls hargs) := by
        rw [hh.stress_high (by linarith [hw.1]) le_rfl, hh.core_high (by linarith [hu.1]) le_rfl]
        have h3 : 600 * 0.04 ≤ l.Eh * designUltimate scls hargs := by
          rw [hlEh]; exact mul_le_mul hH.1 hu.1 (by norm_num) (by linarith [hH.1])
        have := mul_nonneg (sub_nonneg.2 hh.Eh.2) hh.sy_nonneg
        linarith
      rw [h1]
      linarith
    have hsub : Set.Ioo (1:ℝ) 47999 ⊆ {n : ℝ | (concreteSection (normalParts fc shapes) (bars s.mat.law)).forces ![-0.0035, 0, 0] 0 + δ * 1e-13 < n ∧
        n < (concreteSection (normalParts fc shapes) (bars s.mat.law)).forces ![designUltimate scls hargs, 0, 0] 0 - δ * 1e-13 ∧
        ¬ ∀ ops : List Op, Undisturbed (sectionEngine RCBeam.split ((normalParts fc shapes).map ConcretePart.solid) (bars s.mat.law) 0.01)
          (fun _ _ => 0) ops .fresh →
          ∃ b : BendingResult, (bendingStrength (sectionEngine RCBeam.split ((normalParts fc shapes).map ConcretePart.solid) (bars s.mat.law) 0.01) 0 n
            (history (sectionEngine RCBeam.split ((normalParts fc shapes).map ConcretePart.solid) (bars s.mat.law) 0.01) (fun _ _ => 0) ops .fresh)).2 =
              .ok b ∧ |b.n - n| ≤ 1e-2} := by
      rintro n ⟨h1, h2⟩
      have hδ' : δ * 1e-13 ≤ 1 := by linarith
      refine ⟨by linarith, by linarith, fun hall => ?_⟩
      obtain ⟨b, hb, hn⟩ := hall [] trivial
      exact absurd hn (not_le.2 (hcon n b hb))
    have := (measure_mono hsub).trans hvol
    rw [Real.volume_Ioo, ENNReal.ofReal_le_ofReal_iff (by linarith [hJb.1])] at this
    linarith [hJb.2]
  · obtain ⟨n, h1, h2, h3⟩ := hbad (by
        intro b hb; simp only [bars, bar, List.mem_cons, List.not_mem_nil, or_false] at hb
        rcases hb with rfl | rfl | rfl | rfl <;> norm_num) (bar s.mat.law (-110) (-200)) (by simp [bars]) (by
        intro b hb; simp only [bars, bar, List.mem_cons, List.not_mem_nil, or_false] at hb
        rcases hb with rfl | rfl | rfl | rfl <;> simp only [bar, RCBeam.height_zero] <;> norm_num) (by
        simp only [bar]
        linarith [hJb.1])
    exact ⟨n, by linarith, by linarith, h3 [] trivial⟩

end OrdinaryBeam

end SC
