import Verif.Props.OrdinaryDrop
import Verif.Props.OrdinaryExample

/-! # C73: a beam for which the search loses the load -/

set_option autoImplicit false

namespace SC

open Spec MeasureTheory

variable {lower : String → String}

namespace OrdinaryBeam

/-- Every combination of concrete and steel class, C30 and B500, the beam of the previous example: some load lies at least 90 kN
inside the limit loads, and the state returned carries the squash load instead, up to 1.01 N. -/
example (hl : PyLower lower) (ccls : ConcClass) (scls : SteelClass) :
    ∃ c s, newConcrete lower ccls (defaultArgs 30) = some (.ok c) ∧ newSteel lower scls sargs = some (.ok s) ∧
    ∃ n lo hi, (limits (sectionEngine RCBeam.split ((normalParts (designConcrete ccls (defaultArgs 30)) shapes).map
        ConcretePart.solid) (bars s.mat.law) 0.01) .fresh).2 = .ok (lo, hi) ∧ lo + 90000 ≤ n ∧ n + 90000 ≤ hi ∧
      ∃ r : BendingResult, (bendingStrength (sectionEngine RCBeam.split ((normalParts (designConcrete ccls (defaultArgs 30)) shapes).map
        ConcretePart.solid) (bars s.mat.law) 0.01) 0 n .fresh).2 = .ok r ∧ |r.n - lo| ≤ 1.01 := by
  have hinc : ¬ Inconsistent (defaultArgs 30) := by
    simp [Inconsistent, defaultArgs]
  have hc : ∃ c, newConcrete lower ccls (defaultArgs 30) = some (.ok c) := by
    by_cases h : ccls = .ec2_2023
    · subst h
      exact (C47_accepts_2023 hl (defaultArgs 30) rfl rfl rfl).2 ⟨hinc, by right; left,
        by norm_num [defaultArgs, abs_of_pos], by simp [defaultArgs]⟩
    · exact (C47_accepts hl ccls h (defaultArgs 30) rfl rfl rfl).2 hinc
  have hg : gammaS sargs = 1.15 := rfl
  have gs : strainFactorOk scls sargs := by
    cases scls <;> simp [strainFactorOk, sargs, steelArgs, factorOf] <;> norm_num
  have hy : designYield sargs = 500 / 1.15 / 200000 := by
    simp [designYield, sargs, steelArgs, gammaS, factorOf]
  have hu : 0.04 ≤ designUltimate scls sargs ∧ designUltimate scls sargs ≤ 0.05 := by
    cases scls <;> simp only [designUltimate, sargs, steelArgs, gammaS, factorOf] <;> rw [abs_of_pos (by norm_num)] <;> norm_num
  have hy1 : (0.002:ℝ) ≤ designYield sargs ∧ designYield sargs ≤ 0.003 := by rw [hy]; norm_num
  obtain ⟨s, hs⟩ := (C48_accepts_perfect hl scls sargs rfl rfl rfl).2 ⟨by rw [hg]; norm_num, gs, by norm_num [sargs, steelArgs]⟩
  obtain ⟨c, hc⟩ := hc
  refine ⟨c, s, hc, hs, ?_⟩
  have hgap : designYield sargs + 1e-6 + 1e-5 * designUltimate scls sargs ≤ designUltimate scls sargs := by
    linarith [hu.1, hu.2, hy1.2]
  obtain ⟨hult, hst, -⟩ := C73_steel hl scls sargs s hs rfl rfl rfl hgap
  set fc := designConcrete ccls (defaultArgs 30) with hfc
  have hfcb : 0 < fc ∧ fc ≤ 30 := by
    rw [hfc]
    cases ccls <;> simp only [designConcrete, defaultArgs, factor, Option.getD_none] <;> rw [abs_of_pos (by norm_num : (0:ℝ) < 30)]
    · norm_num
    · norm_num
    · have : min (((40:ℝ) / 30) ^ ((1:ℝ) / 3)) 1 ≤ 1 := min_le_right _ _
      have h2 : 0 < min (((40:ℝ) / 30) ^ ((1:ℝ) / 3)) 1 := lt_min (by positivity) one_pos
      constructor
      · positivity
      · rw [div_le_iff₀ (by norm_num)]; nlinarith
  have harea : areaMoment 0 0 (Set.Icc (-150:ℝ) 150 ×ˢ Set.Icc (-250:ℝ) 250) = 150000 := by
    simp only [areaMoment, pow_zero, mul_one]
    rw [setIntegral_const, Measure.real, Measure.volume_eq_prod, Measure.prod_prod, Real.volume_Icc, Real.volume_Icc]
    norm_num
  have hEs : |sargs.Es| = 200000 := by norm_num [sargs, steelArgs]
  have hδ : (2 * |fc| / 0.002 * (shapes.map fun p => areaMoment 0 0 p.2).sum + |sargs.Es| * ((bars s.mat.law).map fun b => |b.area|).sum) *
      500 ≤ 1e13 := by
    simp only [shapes, bars, bar, List.map_cons, List.map_nil, List.sum_cons, List.sum_nil, harea, hEs]
    rw [abs_of_pos hfcb.1]
    norm_num
    linarith [hfcb.2]
  have hbl : ∀ b ∈ bars s.mat.law, b.law = ⟨1, s.mat.law⟩ := by
    intro b hb
    simp only [bars, bar, List.mem_cons, List.not_mem_nil, or_false] at hb
    rcases hb with rfl | rfl | rfl | rfl <;> rfl
  have hord := (geometry s.mat.law).ordinary (fc := fc) hbl hult (by linarith [hu.1]) (by linarith [hu.2])
  have hok : ∀ p ∈ normalParts fc shapes, p.Ok RCBeam.split 0 := by
    intro p hp
    obtain ⟨q, hq, rfl⟩ := List.mem_map.1 hp
    rw [List.mem_singleton.1 hq]
    exact ⟨RCBeam.ok.encloses, hull, RCBeam.ok.splits, by norm_num, by norm_num [abs_of_pos]⟩
  have hrig : OrdinaryRC.axialRigidity (normalParts fc shapes) (bars s.mat.law) 200000 * 500 ≤ 1e13 := by
    refine le_of_eq_of_le ?_ hδ
    simp only [OrdinaryRC.axialRigidity, normalParts, shapes, bars, bar, List.map_cons, List.map_nil, List.sum_cons, List.sum_nil, hEs]
    rw [abs_of_pos (by norm_num : (0:ℝ) < 0.002)]
    ring
  have hμ : 90000 ≤ (500:ℝ) * (200000 * (min (designYield sargs) 0.0035 - 0.0035 / 3 - 1e-4)) := by
    rw [hy, min_eq_left (by norm_num)]
    norm_num
  obtain ⟨n, h1, h2, h3⟩ := C73_violated RCBeam.split 0.01 (fun _ _ => 0) hord hord hok (single_ids hbl) (single_sizes hbl)
    (E := 200000) (ey := designYield sargs) (by norm_num) (by linarith [hy1.1]) (by linarith [hy1.2, hu.1]) (by linarith [hu.1])
    (by intro b hb; rw [hbl b hb]; exact ⟨hult, fun x hx => by rw [hst x hx, hEs]⟩)
    (by
      intro b hb
      simp only [bars, bar, List.mem_cons, List.not_mem_nil, or_false] at hb
      rcases hb with rfl | rfl | rfl | rfl <;> norm_num)
    (b0 := bar s.mat.law (-110) (-200)) (by simp [bars])
    (by
      intro b hb
      rw [RCBeam.height_zero, RCBeam.height_zero]
      simp only [bars, bar, List.mem_cons, List.not_mem_nil, or_false] at hb
      rcases hb with rfl | rfl | rfl | rfl <;> norm_num [bar])
    rfl (hrig.trans (by norm_num)) (by
      have : (bar s.mat.law (-110) (-200)).area = 500 := rfl
      rw [this]
      have := mul_le_mul_of_nonneg_right hrig (show (0:ℝ) ≤ 1e-13 by norm_num)
      norm_num at *
      linarith)
  obtain ⟨r, hr, hrn⟩ := h3 [] trivial
  have hlim := C73_limits RCBeam.split 0.01 hord (fun p hp => ⟨(hok p hp).encloses, (hok p hp).peak, by
      linarith [(hok p hp).plateau, abs_nonneg p.eps_u, show (0:ℝ) < 1e-6 by norm_num]⟩) (single_ids hbl) (single_sizes hbl)
  have hμ' : (bar s.mat.law (-110) (-200)).area = 500 := rfl
  rw [hμ'] at h1 h2
  refine ⟨n, _, _, hlim, le_trans (by linarith) h1, le_trans (by linarith) h2, r, hr, hrn.trans ?_⟩
  have := mul_le_mul_of_nonneg_right hrig (show (0:ℝ) ≤ 1e-13 by norm_num)
  norm_num at *
  linarith

end OrdinaryBeam

end SC
