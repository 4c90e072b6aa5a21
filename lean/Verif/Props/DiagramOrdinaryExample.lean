import Verif.Props.DiagramOrdinary
import Verif.Props.DiagramExample

/-! # C70 and C78: the hypotheses hold for the first point of the diagram of a beam -/

set_option autoImplicit false

namespace SC

open Spec MeasureTheory

variable {lower : String → String}

/-- Bars in tension are never compressed. -/
theorem steel_tension (hl : PyLower lower) (cls : SteelClass) (a : SteelArgs) (b : Built Steel)
    (h : newSteel lower cls a = some (.ok b)) (hn : a.law = .name "elasticperfectlyplastic")
    (hi1 : a.initialStrain = none) (hi2 : a.initialStress = none) (hu : 1e-4 ≤ designUltimate cls a) {v : ℝ} (hv : 0 ≤ v) :
    0 ≤ b.mat.law.stress v := by
  obtain ⟨hE, law, hm, hx⟩ := C48_law hl cls a b _ h hn
  simp only [String.reduceEq, false_and, true_and, false_or, or_false] at hx
  obtain ⟨g, gs, hlaw⟩ := hx
  rw [hi1, hi2, C15_none] at hm
  simp only [Option.some.injEq, Except.ok.injEq] at hm
  have hml : b.mat.law = law := by rw [← hm]
  rw [hml, hlaw]
  change 0 ≤ ElasticPlastic.stress _ _
  have hf : 0 ≤ designStrength a a.fyk := div_nonneg (abs_nonneg _) (by linarith)
  have hu0 : 0 < designUltimate cls a := by norm_num at *; linarith
  have key : ∀ x, 0 ≤ x → 0 ≤ ElasticPlastic.core ⟨|a.Es|, designStrength a a.fyk, 0, some (designUltimate cls a)⟩ x := by
    intro x hx
    have h0 : 0 ≤ |a.Es| * x := mul_nonneg (abs_nonneg _) hx
    simp only [ElasticPlastic.core, ElasticPlastic.deltaSig]
    split_ifs
    · exact le_rfl
    · linarith
    · linarith
    · simp [hf]
    · exact h0
  have c2 : ¬ isclose v (-designUltimate cls a) := by
    simp only [isclose, abs_neg, abs_of_pos hu0, not_le]
    rw [abs_of_pos (by linarith)]
    norm_num at *; linarith
  have hs : 0 ≤ snap (-designUltimate cls a, designUltimate cls a) v := by
    simp only [snap, if_neg c2]
    split_ifs
    · exact hu0.le
    · exact hv
  exact key _ hs

namespace DiagramBeam

variable {L : Law} {A : ℝ}

/-- Under a small curvature, tensile strains at the axis do not lessen the force below that of none. -/
theorem force_up (h : Steel500 L) (ht : ∀ v, 0 ≤ v → 0 ≤ L.stress v) (hA : 100 ≤ A ∧ A ≤ 500) {c x : ℝ} (hc : c < 0) (hc' : -1e-8 ≤ c)
    (hx : 0 ≤ x) : force L A 0 c ≤ force L A x c := by
  have hey := ey_bounds
  have t0 : (-0.0035:ℝ) ≤ 0 + c * 250 := by norm_num at *; linarith
  have tx : (-0.0035:ℝ) ≤ x + c * 250 := by linarith
  by_cases hv : x - 200 * c ≤ 0.045
  · rw [force_eq, force_eq, core_integral (by norm_num) hc.le t0, core_integral (by norm_num) hc.le tx]
    have h1 : ∫ y in (-250:ℝ)..250, (ParabolaRectangle.new 20 0.002 0.0035 2).stress (0 + c * y) ≤
        ∫ y in (-250:ℝ)..250, (ParabolaRectangle.new 20 0.002 0.0035 2).stress (x + c * y) := by
      refine intervalIntegral.integral_mono_on (by norm_num) (stress_integrable (by norm_num) hc.le t0)
        (stress_integrable (by norm_num) hc.le tx) fun y hy => ?_
      refine pr_stress_mono 20 0.002 0.0035 (by norm_num) (by norm_num [abs_of_pos]) ?_ (by linarith)
      rw [abs_of_pos (by norm_num)]
      exact t0.trans (by linarith [mul_le_mul_of_nonpos_left hy.2 hc.le])
    have h2 : L.stress (0 - 200 * c) ≤ L.stress (x - 200 * c) := by
      rw [h.clamp _ (by rw [abs_of_pos (by linarith)]; linarith), h.clamp _ (by rw [abs_of_pos (by linarith)]; exact hv)]
      exact mul_le_mul_of_nonneg_left (max_le_max_left _ (min_le_min_right _ (by linarith))) (by norm_num)
    have h3 : 2 * A * L.stress (0 - 200 * c) ≤ 2 * A * L.stress (x - 200 * c) := mul_le_mul_of_nonneg_left h2 (by linarith [hA.1])
    linarith
  · push Not at hv
    refine (force_low (e := 0) ⟨by linarith [hA.1], hA.2⟩ h.clamp hc (by norm_num at *; linarith) t0 le_rfl).trans ?_
    rw [force_eq, core_integral (by norm_num) hc.le tx]
    have hz : ∫ y in (-250:ℝ)..250, (ParabolaRectangle.new 20 0.002 0.0035 2).stress (x + c * y) = 0 := by
      rw [← intervalIntegral.integral_zero (a := (-250:ℝ)) (b := 250) (μ := volume)]
      refine intervalIntegral.integral_congr fun y hy => ?_
      rw [Set.uIcc_of_le (by norm_num)] at hy
      refine pr_stress_tension 20 0.002 0.0035 (by norm_num) (by norm_num [abs_of_pos]) ?_
      have : c * 250 ≤ c * y := mul_le_mul_of_nonpos_left hy.2 hc.le
      norm_num at *
      linarith
    rw [hz]
    have := mul_nonneg (by linarith [hA.1] : 0 ≤ 2 * A) (ht (x - 200 * c) (by linarith))
    linarith

theorem hull_corners : ∀ p ∈ rectShape (-150) 150 (-250) 250, ∀ v ∈ p.1.ext, |height 0 v| ≤ 250 := by
  intro p hp v hv
  rw [List.mem_singleton.1 hp] at hv
  rw [RCBeam.height_zero]
  rcases (rect_vertex hv).2 with e | e <;> rw [e] <;> norm_num [abs_of_pos]

/-- Planes of small strains are admissible. -/
theorem small_admissible (h : Steel500 L) {e c : ℝ} (he : 0 ≤ e) (he' : e ≤ 1e-3) (hc : c < 0) (hc' : -1e-8 ≤ c) :
    (concreteSection (normalParts 20 (rectShape (-150) 150 (-250) 250)) (bars L A)).Admissible ![e, c, 0] := by
  have hstr : ∀ x y : ℝ, planeStrain ![e, c, 0] x y = e + c * y := by intro x y; simp [planeStrain]
  have hb : ∀ y, -250 ≤ y → y ≤ 250 → -0.0035 ≤ e + c * y ∧ e + c * y ≤ 0.0035 := by
    intro y h1 h2
    have a1 := mul_le_mul_of_nonpos_left h1 hc.le
    have a2 := mul_le_mul_of_nonpos_left h2 hc.le
    constructor <;> norm_num at * <;> linarith
  constructor
  · intro p hp x hx
    simp only [concreteSection, normalParts, rectShape, List.map_cons, List.map_nil, List.mem_singleton] at hp
    subst hp
    have hy : x.2 ∈ Set.Icc (-250:ℝ) 250 := by
      have : convexHull ℝ {v | v ∈ rectRing (-150) 150 (-250) 250} ⊆ Set.Icc (-150:ℝ) 150 ×ˢ Set.Icc (-250:ℝ) 250 := by
        refine convexHull_min ?_ ((convex_Icc _ _).prod (convex_Icc _ _))
        intro v hv
        obtain ⟨h1, h2⟩ := rect_vertex hv
        refine ⟨?_, ?_⟩
        · rcases h1 with e | e <;> rw [e] <;> norm_num
        · rcases h2 with e | e <;> rw [e] <;> norm_num
      exact (this hx).2
    rw [hstr, part_ult]
    have := hb x.2 hy.1 hy.2
    refine ⟨?_, ?_⟩ <;> norm_num [abs_of_pos] at * <;> linarith [this.1, this.2]
  · intro r hr
    simp only [concreteSection, List.mem_map] at hr
    obtain ⟨b, hb', rfl⟩ := hr
    rw [hstr, bars_law L A b hb', h.ult]
    simp only [Bar.fibre, bars_y L A b hb']
    have := hb (-200) (by norm_num) (by norm_num)
    constructor <;> norm_num at * <;> linarith [this.1, this.2]

/-- The beam of `C78_beam_violated`: the first point of its diagram is in equilibrium and within the limit strains. -/
example (hl : PyLower lower) :
    ∃ c s, newConcrete lower .ec2_2004 (defaultArgs 30) = some (.ok c) ∧ newSteel lower .ec2_2004 OrdinaryBeam.sargs = some (.ok s) ∧
    ∃ C : Set ℝ, C.Countable ∧ ∀ n ∉ C, 0 < n → n < 1 → ∃ (r : BendingResult) (p : MCPoint) (pts : List MCPoint),
      (bendingStrength (engine s.mat.law 500) 0 n .fresh).2 = .ok r ∧
      (momentCurvature (engine s.mat.law 500) 0 n 1e-8 2 1 none .fresh).2 = .ok (p :: pts) ∧
      (concreteSection (normalParts 20 (rectShape (-150) 150 (-250) 250)) (bars s.mat.law 500)).Admissible p.plane ∧
      |(concreteSection (normalParts 20 (rectShape (-150) 150 (-250) 250)) (bars s.mat.law 500)).forces p.plane 0 - n| ≤ 1e-2 := by
  obtain ⟨c, s, hc, hs, C1, hC1, hmain⟩ := C78_beam_violated hl
  refine ⟨c, s, hc, hs, ?_⟩
  have h := steel_made hl hs
  have hey := ey_bounds
  have ht : ∀ v, 0 ≤ v → 0 ≤ s.mat.law.stress v := fun v hv =>
    steel_tension hl .ec2_2004 OrdinaryBeam.sargs s hs rfl rfl rfl (by rw [hud]; norm_num) hv
  obtain ⟨-, C2, hC2, h2⟩ := C70_design_partial hl .ec2_2004 (defaultArgs 30) c hc rfl ⟨rfl, rfl⟩ ⟨rfl, rfl, rfl⟩
    (fun _ => by norm_num [defaultArgs, abs_of_pos]) .ec2_2004 OrdinaryBeam.sargs s hs rfl ⟨rfl, rfl⟩ hgap (by rw [hud]; norm_num)
    (by rw [hyd]; norm_num at *; linarith)
    RCBeam.split 0.01 0 (fun _ _ => 0) (rectShape (-150) 150 (-250) 250) (bars s.mat.law 500) 1 (bars_law _ _)
    (fun p hp => by rw [List.mem_singleton.1 hp]; exact encloses_rect (by norm_num) (by norm_num))
    (fun p hp => by rw [List.mem_singleton.1 hp]; exact rect_hull (by norm_num) (by norm_num))
    (fun p hp => by rw [List.mem_singleton.1 hp]; exact RCBeam.ok.splits) (geometry s.mat.law 500) 20 hfc20 _ rfl _ rfl
    (engine s.mat.law 500) rfl 1e-8 (by norm_num) 2 1 le_rfl le_rfl
  refine ⟨C1 ∪ C2, hC1.union hC2, fun n hn hn0 hn1 => ?_⟩
  rw [Set.mem_union, not_or] at hn
  obtain ⟨r, pts, p, hr, hcu, hpts, -⟩ := hmain n hn.1 hn0 hn1
  obtain ⟨-, -, -, -, -, -, -, -, hadm, hbal⟩ := h2 n hn.2 [] pts trivial hpts
  obtain ⟨c1, c2, e1, e2, lim, hc1n, hc2n, -, -, ⟨g1, g2, g3⟩, hch, hrun⟩ := diagram h (A := 500) (by norm_num) ⟨hn0, hn1⟩ hr
    (by norm_num at *; linarith)
  rw [hpts] at hrun
  have hloop : mcLoop (engine s.mat.law 500) 0 n 0 [c1, c2, r.chi.1] ⟨some ((groupBars (bars s.mat.law 500)).map (rotGroup (-0))), lim⟩ =
    (_, .ok pts) := Prod.ext rfl hrun.symm
  obtain ⟨hch', hcs, -⟩ := mcLoop_chain (S := section' s.mat.law 500) n lim _ _ _ _ (fun c hc => answers _ _ c (by
    simp only [List.mem_cons, List.not_mem_nil, or_false] at hc
    rcases hc with rfl | rfl | rfl
    · exact hc1n
    · exact hc2n
    · norm_num at *; linarith)) hloop
  match pts, hpts, hadm, hbal, hch', hcs with
  | [], _, _, _, _, hcs => simp at hcs
  | p :: pts, hpts, hadm, hbal, hch', hcs =>
    simp only [List.map_cons, Real.cos_zero, Real.sin_zero, mul_one, mul_zero, List.cons.injEq] at hcs
    obtain ⟨hp2, -⟩ := hcs
    have hp1 : p.1 = e1 := by
      simp only [List.map_cons] at hch'
      cases hch' with
      | cons f1 _ => cases hch with
        | cons f2 _ =>
          rw [f1] at f2
          simp only [Option.some.injEq, Prod.mk.injEq, Except.ok.injEq] at f2
          exact f2.1.1
    have hpl : p.plane = ![e1, c1, 0] := by rw [MCPoint.plane, hp1, hp2]
    have ha : (concreteSection (normalParts 20 (rectShape (-150) 150 (-250) 250)) (bars s.mat.law 500)).Admissible p.plane := by
      rw [hpl]; exact small_admissible h g2 g3 hc1n g1
    refine ⟨r, p, pts, hr, hpts, ha, ?_⟩
    rw [hadm p (by simp) ha]
    rcases hbal (0, p) (by simp) with hb | ⟨x, d1, d2, d3⟩
    · exact hb
    · exfalso
      simp only [hp2] at d1 d2 d3
      have hF : ∀ x, (crossSection ((normalParts 20 (rectShape (-150) 150 (-250) 250)).map ConcretePart.solid)
          (bars s.mat.law 500)).forces ![x, c1, 0] 0 = force s.mat.law 500 x c1 := by
        intro x
        rw [force, planeForce, Real.cos_zero, Real.sin_zero, mul_one, mul_zero, section']
      rw [hF, sub_zero] at d1
      rw [hF, hF] at d2 d3
      have k0 := force_low (e := 0) (A := 500) (by norm_num) h.clamp hc1n (by norm_num at *; linarith) (by norm_num at *; linarith) le_rfl
      have hx : 0 < x := by
        by_contra hcon
        have := mul_nonneg_of_nonpos_of_nonpos (by linarith : force s.mat.law 500 0 c1 - n ≤ 0) (not_lt.1 hcon)
        linarith
      have k1 := force_up h ht (A := 500) (by norm_num) hc1n g1 hx.le
      have k2 : force s.mat.law 500 x c1 - n ≤ 0 := by
        by_contra hcon
        have := mul_neg_of_neg_of_pos (by linarith : force s.mat.law 500 0 c1 - n < 0) (not_le.1 hcon)
        linarith
      rw [abs_of_nonpos k2, abs_of_neg (by linarith)] at d3
      linarith

end DiagramBeam

end SC
