import Verif.Props.RectDesign
import Verif.Props.OrdinaryExample

/-! # C77: a 300 × 500 beam with two bars -/

set_option autoImplicit false

namespace SC

open Spec MeasureTheory

variable {lower : String → String}

namespace RectBeam

noncomputable def bars (L : Law) : List Bar := [OrdinaryBeam.bar L (-110) (-200), OrdinaryBeam.bar L 110 (-200)]

/-- C30 and B500 of Eurocode 2 (2004), two bars of 500 mm² at 450 mm below the upper face: for all axial loads below 1 kN but
countably many, the moment is that of the textbook formula up to 6.5 Nmm. -/
example (hl : PyLower lower) :
    ∃ c s, newConcrete lower .ec2_2004 (defaultArgs 30) = some (.ok c) ∧ newSteel lower .ec2_2004 OrdinaryBeam.sargs = some (.ok s) ∧
    ∃ C : Set ℝ, C.Countable ∧ ∀ n ∉ C, |n| ≤ 1000 →
      ∃ r : BendingResult, (bendingStrength (sectionEngine RCBeam.split ((normalParts 20 (rectShape (-150) 150 (-250) 250)).map
        ConcretePart.solid) (bars s.mat.law) 0.01) 0 n .fresh).2 = .ok r ∧ |r.n - n| ≤ 1e-2 ∧
        |-r.m.1 - ((1000 * (500 / 1.15) - n) * (450 - 99 / 238 * ((1000 * (500 / 1.15) - n) / (17 / 21 * 20 * 300))) + 200 * n)| ≤ 6.5 := by
  have hinc : ¬ Inconsistent (defaultArgs 30) := by
    simp [Inconsistent, defaultArgs]
  obtain ⟨c, hc⟩ := (C47_accepts hl .ec2_2004 (by decide) (defaultArgs 30) rfl rfl rfl).2 hinc
  have hg : gammaS OrdinaryBeam.sargs = 1.15 := rfl
  have gs : strainFactorOk .ec2_2004 OrdinaryBeam.sargs := by
    simp [strainFactorOk, OrdinaryBeam.sargs, steelArgs, factorOf]
    norm_num
  have hy : designYield OrdinaryBeam.sargs = 500 / 1.15 / 200000 := by
    simp [designYield, OrdinaryBeam.sargs, steelArgs, gammaS, factorOf]
  have hu : designUltimate .ec2_2004 OrdinaryBeam.sargs = 0.045 := by
    simp only [designUltimate, OrdinaryBeam.sargs, steelArgs, gammaS, factorOf]
    norm_num
  obtain ⟨s, hs⟩ := (C48_accepts_perfect hl .ec2_2004 OrdinaryBeam.sargs rfl rfl rfl).2
    ⟨by rw [hg]; norm_num, gs, by norm_num [OrdinaryBeam.sargs, steelArgs]⟩
  refine ⟨c, s, hc, hs, ?_⟩
  have hfc : (20:ℝ) = designConcrete .ec2_2004 (defaultArgs 30) := by
    simp only [designConcrete, defaultArgs, factor, Option.getD_none]
    rw [abs_of_pos (by norm_num : (0:ℝ) < 30)]
    norm_num
  have hEs : |OrdinaryBeam.sargs.Es| = 200000 := by norm_num [OrdinaryBeam.sargs, steelArgs]
  obtain ⟨C, hC, hmain⟩ := C77_rectangular_partial hl .ec2_2004 (defaultArgs 30) c hc rfl ⟨rfl, rfl⟩ ⟨rfl, rfl, rfl⟩
    (fun _ => by norm_num [defaultArgs, abs_of_pos]) .ec2_2004 OrdinaryBeam.sargs s hs rfl ⟨rfl, rfl⟩
    (by rw [hy, hu]; norm_num) (by rw [hu]; norm_num)
    RCBeam.split 0.01 (fun _ _ => 0) (-150) 150 (-250) 250 (-200) 1000 450 20 (500 / 1.15) (bars s.mat.law) 1
    (by intro b hb; simp only [bars, OrdinaryBeam.bar, List.mem_cons, List.not_mem_nil, or_false] at hb; rcases hb with rfl | rfl <;> rfl)
    (by simp [bars])
    (by intro b hb; simp only [bars, OrdinaryBeam.bar, List.mem_cons, List.not_mem_nil, or_false] at hb; rcases hb with rfl | rfl <;> norm_num)
    (by intro b hb; simp only [bars, OrdinaryBeam.bar, List.mem_cons, List.not_mem_nil, or_false] at hb; rcases hb with rfl | rfl <;> rfl)
    (by intro b hb; simp only [bars, OrdinaryBeam.bar, List.mem_cons, List.not_mem_nil, or_false] at hb; rcases hb with rfl | rfl <;> norm_num)
    (by simp only [bars, OrdinaryBeam.bar, List.map_cons, List.map_nil, List.sum_cons, List.sum_nil]; norm_num)
    (by norm_num) (by norm_num) (by norm_num) (by norm_num) (by norm_num) (by norm_num)
    RCBeam.ok.splits hfc (by norm_num) (by rw [hEs, hy]; norm_num) (by rw [hy]; norm_num) _ rfl
    (by rw [hEs]; norm_num) (by rw [hEs, hu]; norm_num) _ rfl _ rfl
  refine ⟨C, hC, fun n hn hn1 => ?_⟩
  have := abs_le.1 hn1
  obtain ⟨r, hr, -, h1, -, h2⟩ := hmain n hn [] trivial _ _ rfl rfl (by rw [hu]; norm_num; linarith) (by rw [hy]; norm_num; linarith)
  refine ⟨r, hr, h1, ?_⟩
  have e : (450:ℝ) + |(-200:ℝ)| = 650 := by norm_num [abs_of_neg]
  rw [e] at h2
  have e3 : (150:ℝ) - -150 = 300 := by norm_num
  rw [e3] at h2
  have e4 : (1e-2:ℝ) * 650 = 6.5 := by norm_num
  rw [e4] at h2
  rw [show (200:ℝ) * n = -(n * -200) by ring, ← sub_eq_add_neg]
  exact h2

end RectBeam

end SC
