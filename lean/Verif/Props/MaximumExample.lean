import Verif.Props.MaximumDesign
import Verif.Props.CurvatureExample
import Verif.Props.OrdinaryExample

/-! # C74: a beam -/

set_option autoImplicit false

namespace SC.RCBeam

open Spec MeasureTheory

theorem ordinaryRC : OrdinaryRC 0 [concrete] bars 0.0035 0.0415 500 := by
  refine ⟨?_, ?_, by norm_num, by norm_num, ?_, ?_, by norm_num, ?_⟩
  · intro p hp
    rw [List.mem_singleton.1 hp]
    norm_num [concrete, abs_of_pos]
  · intro b hb
    simp only [bars, List.mem_cons, List.not_mem_nil, or_false] at hb
    rcases hb with rfl | rfl | rfl | rfl <;> (simp only [bar, limits_steel]; norm_num)
  · intro b hb
    refine ⟨concrete, by simp, ok.inHull ?_⟩
    simp only [bars, bar, List.mem_cons, List.not_mem_nil, or_false] at hb
    rcases hb with rfl | rfl | rfl | rfl <;> constructor <;> constructor <;> norm_num
  · intro c hc d hd
    have key : ∀ c ∈ (concreteSection [concrete] bars).corners, -250 ≤ c.1.2 ∧ c.1.2 ≤ 250 := by
      intro c hc
      rcases corner_cases hc with ⟨-, h, h'⟩ | ⟨-, h, h'⟩ <;> constructor <;> linarith
    rw [height_zero, height_zero]
    linarith [(key c hc).1, (key c hc).2, (key d hd).1, (key d hd).2]
  · refine ⟨bar (-110) (-200), by simp [bars], concrete, by simp, (150, 250), by simp [concrete, rectRing, closeRing], ?_⟩
    rw [height_zero, height_zero]
    norm_num [bar]

theorem bars_mono : ∀ b ∈ bars, MonotoneOn b.law.law.stress (Set.Icc (b.law.law.ult false).1 (b.law.law.ult false).2) := by
  have key : MonotoneOn steel.law.stress (Set.Icc (-0.0415) 0.0415) := by
    intro x hx y hy hxy
    rw [steel_stress hx.1 hx.2, steel_stress hy.1 hy.2]
    exact mul_le_mul_of_nonneg_left (max_le_max_left _ (min_le_min_right _ hxy)) (by norm_num)
  intro b hb
  simp only [bars, List.mem_cons, List.not_mem_nil, or_false] at hb
  rcases hb with rfl | rfl | rfl | rfl <;> (simp only [bar, limits_steel]; exact key)

theorem areas : ∀ b ∈ bars, 0 ≤ b.area := by
  intro b hb
  simp only [bars, List.mem_cons, List.not_mem_nil, or_false] at hb
  rcases hb with rfl | rfl | rfl | rfl <;> norm_num [bar]

theorem radius : ∀ p ∈ [concrete], ∀ v ∈ p.polygon.ext, |height 0 v| ≤ 250 := by
  intro p hp v hv
  rw [List.mem_singleton.1 hp] at hv
  rw [height_zero]
  rcases OrdinaryBeam.mem_ring hv with rfl | rfl | rfl | rfl <;> norm_num

theorem oks : ∀ p ∈ [concrete], p.Ok split 0 := by
  intro p hp
  rw [List.mem_singleton.1 hp]
  exact ok

theorem strength_returns (lu : Matrix (Fin 3) (Fin 3) ℝ → (Fin 3 → ℝ) → (Fin 3 → ℝ)) :
    ∃ b, (bendingStrength engine 0 0 (history engine lu [] .fresh)).2 = .ok b := by
  have hbal : (sectionEngine split ([concrete].map ConcretePart.solid) bars 0.01).balanced (-0) false =
      .ok (250, -200, ![0.0215, -1e-4, 0]) := by
    rw [neg_zero]; exact balanced
  exact C66_returns split [concrete] bars 0.01 0 0 lu [] trivial oks ids sizes lim flat hbal gov K stiff accepted low high

/-- The strength in pure bending is not exceeded by the moment under a curvature of `-1e-5` (all hypotheses of `C74_strength`). -/
example (lu : Matrix (Fin 3) (Fin 3) ℝ → (Fin 3 → ℝ) → (Fin 3 → ℝ)) :
    ∃ b, (bendingStrength engine 0 0 .fresh).2 = .ok b ∧ ∀ e, 0 ≤ e → e ≤ 0.004 →
      -(concreteSection [concrete] bars).forces ![e, -1e-5, 0] 1 ≤ -b.m.1 +
        250 * |(concreteSection [concrete] bars).forces ![e, -1e-5, 0] 0 - b.n| := by
  obtain ⟨b, hb⟩ := strength_returns lu
  refine ⟨b, hb, fun e h0 h1 => ?_⟩
  have ha := admissible h0 h1
  rw [← planeThrough_curvature] at ha
  have := C74_strength ordinaryRC oks ids sizes areas bars_mono radius 0 [] b (lu := lu) trivial hb e (-1e-5) ha
  rw [planeThrough_curvature] at this
  simpa [bendingMoment] using this

/-- The domain of the beam (31 of its 35 default points: those of fields 1-5) agrees with its strength in pure bending. -/
example (lu : Matrix (Fin 3) (Fin 3) ℝ → (Fin 3 → ℝ) → (Fin 3 → ℝ)) : ∃ (b : BendingResult) (pts : List (Fin 3 → ℝ)) (labels : List ℕ),
    (bendingStrength engine 0 0 .fresh).2 = .ok b ∧ pts.length = 35 ∧
    (nmDomain engine ((nmProfiles engine.balanced (sectionMinY ([concrete].map ConcretePart.polygon)) true 0 defaultNum
      ![.linear, .linear, .geometric, .linear, .linear, .linear] false).map Prod.fst) .fresh).2 = .ok (pts.map .forces) ∧
    labels.count 6 = 4 ∧
    ∀ q ∈ pts.zip labels, q.2 ≤ 5 → |q.1 1 - b.m.1| ≤ 250 * |q.1 0 - b.n| := by
  obtain ⟨b, hb⟩ := strength_returns lu
  obtain ⟨⟨q, k⟩, h1⟩ := profiles true
  simp only [if_true] at h1
  have hprof : nmProfiles engine.balanced (sectionMinY ([concrete].map ConcretePart.polygon)) true 0 defaultNum
      ![.linear, .linear, .geometric, .linear, .linear, .linear] false = .ok (q, k) := by
    unfold nmProfiles
    rw [h1]
    simp
  have o1 := ordinary true
  simp only [if_true] at o1
  obtain ⟨pts, e1, e2, -, e4⟩ := C74_domain_partial split 0.01 lu [] [] trivial trivial ordinaryRC oks ids sizes areas bars_mono radius
    (by intro p hp; rw [List.mem_singleton.1 hp]; exact sound) true _ _ hprof o1
    (by intro p hp v; rw [List.mem_singleton.1 hp]; exact cuts v) 0 b hb
  obtain ⟨-, -, c1, c2, -, c3⟩ := C38_count _ _ _ _ _ _ _ _ h1
  refine ⟨b, pts, k, hb, ?_, e2, ?_, fun q hq hk => ?_⟩
  · rw [e1, c2]
    have : (∑ i, defaultNum i : ℤ) = 35 := by simp [Fin.sum_univ_succ, defaultNum]
    rw [this] at c1
    exact_mod_cast c1
  · have := c3 5
    simp [defaultNum] at this
    exact_mod_cast this
  · have := e4 q hq hk
    simp only [bendingMoment, Real.cos_zero, Real.sin_zero, mul_one, mul_zero, add_zero, Matrix.cons_val] at this
    rwa [← neg_sub', abs_neg] at this

/-- The hypotheses of `C74_default_partial` hold for the beam and the default numbers of points: the moments of the diagram grow. -/
example (lu : Matrix (Fin 3) (Fin 3) ℝ → (Fin 3 → ℝ) → (Fin 3 → ℝ)) :
    ∃ C : Set ℝ, C.Countable ∧ ∀ n ∉ C, ∀ pts : List MCPoint, (momentCurvature engine 0 n 1e-8 10 10 none .fresh).2 = .ok pts →
      pts.Pairwise fun p q => (concreteSection [concrete] bars).Admissible p.plane → (concreteSection [concrete] bars).Admissible q.plane →
        -p.2.1.1 ≤ -q.2.1.1 +
          250 * |(concreteSection [concrete] bars).forces p.plane 0 - (concreteSection [concrete] bars).forces q.plane 0| := by
  obtain ⟨b1, b2⟩ := failures true
  obtain ⟨C, hC, h⟩ := C74_default_partial split 0.01 lu ordinaryRC oks ids sizes areas bars_mono radius b1 b2 (by norm_num) (by norm_num)
    1e-8 (by norm_num) 10 10 (by norm_num) (by norm_num)
  refine ⟨C, hC, fun n hn pts hp => (h n hn [] pts trivial hp).1.imp fun hpq hpa hqa => ?_⟩
  simpa [bendingMoment] using hpq hpa hqa

/-- All hypotheses of `C74_curvature_partial` hold together for some load, the diagram is returned, and its point at the curvature
`-1e-5`, if within the limits, does not exceed the strength. -/
example (lu : Matrix (Fin 3) (Fin 3) ℝ → (Fin 3 → ℝ) → (Fin 3 → ℝ)) :
    ∃ n ∈ Set.Ioc (0:ℝ) 1, ∃ (pts : List MCPoint) (r : BendingResult),
      (momentCurvature engine 0 n 1e-8 10 10 (some [-1e-5]) .fresh).2 = .ok pts ∧ (bendingStrength engine 0 0 .fresh).2 = .ok r ∧
      ∀ p ∈ pts, (concreteSection [concrete] bars).Admissible p.plane →
        -p.2.1.1 ≤ -r.m.1 + 250 * |(concreteSection [concrete] bars).forces p.plane 0 - r.n| := by
  obtain ⟨C, hC, h⟩ := C74_curvature_partial split 0.01 lu ordinaryRC oks ids sizes areas bars_mono radius [-1e-5] (by norm_num)
    (by rintro ⟨c, hc, h⟩; rw [List.mem_singleton.1 hc] at h; norm_num at h)
  obtain ⟨n, hn, hnC⟩ : (Set.Ioc (0:ℝ) 1 \ C).Nonempty := by
    have hnc : ¬ (Set.Ioc (0:ℝ) 1).Countable := fun h => by
      have := h.measure_zero volume
      rw [Real.volume_Ioc] at this
      norm_num at this
    by_contra hcon
    rw [Set.not_nonempty_iff_eq_empty, Set.sdiff_eq_empty] at hcon
    exact hnc (hC.mono hcon)
  obtain ⟨pts, hp⟩ := diagram_returns hn.1 hn.2
  obtain ⟨r, hr⟩ := strength_returns lu
  refine ⟨n, hn, pts, r, hp, hr, fun p hpm hpa => ?_⟩
  have := (h n hnC 1e-8 10 10 [] pts trivial hp).2 p hpm hpa 0 [] r trivial hr
  simpa [bendingMoment] using this

end SC.RCBeam

namespace SC.OrdinaryBeam

open Spec MeasureTheory

variable {lower : String → String}

/-- The hypotheses of `C74_design_partial` hold for every combination of concrete and steel class, C30 and B500. -/
example (hl : PyLower lower) (ccls : ConcClass) (scls : SteelClass) (lu : Matrix (Fin 3) (Fin 3) ℝ → (Fin 3 → ℝ) → (Fin 3 → ℝ)) :
    ∃ c s, newConcrete lower ccls (defaultArgs 30) = some (.ok c) ∧ newSteel lower scls sargs = some (.ok s) ∧
    ∀ S E, S = concreteSection (normalParts (designConcrete ccls (defaultArgs 30)) shapes) (bars s.mat.law) →
      E = sectionEngine RCBeam.split ((normalParts (designConcrete ccls (defaultArgs 30)) shapes).map ConcretePart.solid)
        (bars s.mat.law) 0.01 →
    ∃ C : Set ℝ, C.Countable ∧ ∃ δ ≤ 1e13, ∀ n ∉ C,
      S.forces ![-0.0035, 0, 0] 0 + δ * 1e-13 < n → n < S.forces ![designUltimate scls sargs, 0, 0] 0 - δ * 1e-13 →
        ∃ b : BendingResult, (bendingStrength E 0 n (history E lu [] .fresh)).2 = .ok b ∧ |b.n - n| ≤ 1e-2 ∧
          ∀ v c, S.Admissible (planeThrough 0 0 v c) → S.forces (planeThrough 0 0 v c) 0 = n →
            bendingMoment 0 (S.forces (planeThrough 0 0 v c)) ≤ bendingMoment 0 ![b.n, b.m.1, b.m.2] + 250 * 1e-2 := by
  have hinc : ¬ Inconsistent (defaultArgs 30) := by
    simp [Inconsistent, defaultArgs]
  have hc : ∃ c, newConcrete lower ccls (defaultArgs 30) = some (.ok c) := by
    by_cases h : ccls = .ec2_2023
    · subst h
      exact (C47_accepts_2023 hl (defaultArgs 30) rfl rfl rfl).2 ⟨hinc, by right; left,
        by norm_num [defaultArgs, abs_of_pos], by simp [defaultArgs]⟩
    · exact (C47_accepts hl ccls h (defaultArgs 30) rfl rfl rfl).2 hinc
  have hg : gammaS sargs = 1.15 := rfl
  have gs : strainFactorOk scls sargs := by
    cases scls <;> simp [strainFactorOk, sargs, steelArgs, factorOf] <;> norm_num
  have hy : designYield sargs = 500 / 1.15 / 200000 := by
    simp [designYield, sargs, steelArgs, gammaS, factorOf]
  have hu : 0.04 ≤ designUltimate scls sargs ∧ designUltimate scls sargs ≤ 0.05 := by
    cases scls <;> simp only [designUltimate, sargs, steelArgs, gammaS, factorOf] <;> rw [abs_of_pos (by norm_num)] <;> norm_num
  have hy1 : (0.002:ℝ) ≤ designYield sargs ∧ designYield sargs ≤ 0.003 := by rw [hy]; norm_num
  obtain ⟨s, hs⟩ := (C48_accepts_perfect hl scls sargs rfl rfl rfl).2 ⟨by rw [hg]; norm_num, gs, by norm_num [sargs, steelArgs]⟩
  obtain ⟨c, hc⟩ := hc
  refine ⟨c, s, hc, hs, fun S E hS hE => ?_⟩
  have hgap : designYield sargs + 1e-6 + 1e-5 * designUltimate scls sargs ≤ designUltimate scls sargs := by
    linarith [hu.1, hu.2, hy1.2]
  set fc := designConcrete ccls (defaultArgs 30) with hfc
  have hfcb : 0 < fc ∧ fc ≤ 30 := by
    rw [hfc]
    cases ccls <;> simp only [designConcrete, defaultArgs, factor, Option.getD_none] <;> rw [abs_of_pos (by norm_num : (0:ℝ) < 30)]
    · norm_num
    · norm_num
    · have : min (((40:ℝ) / 30) ^ ((1:ℝ) / 3)) 1 ≤ 1 := min_le_right _ _
      have h2 : 0 < min (((40:ℝ) / 30) ^ ((1:ℝ) / 3)) 1 := lt_min (by positivity) one_pos
      constructor
      · positivity
      · rw [div_le_iff₀ (by norm_num)]; nlinarith
  have harea : areaMoment 0 0 (Set.Icc (-150:ℝ) 150 ×ˢ Set.Icc (-250:ℝ) 250) = 150000 := by
    simp only [areaMoment, pow_zero, mul_one]
    rw [setIntegral_const, Measure.real, Measure.volume_eq_prod, Measure.prod_prod, Real.volume_Icc, Real.volume_Icc]
    norm_num
  have hEs : |sargs.Es| = 200000 := by norm_num [sargs, steelArgs]
  have hδ : (2 * |fc| / 0.002 * (shapes.map fun p => areaMoment 0 0 p.2).sum + |sargs.Es| * ((bars s.mat.law).map fun b => |b.area|).sum) *
      500 ≤ 1e13 := by
    simp only [shapes, bars, bar, List.map_cons, List.map_nil, List.sum_cons, List.sum_nil, harea, hEs]
    rw [abs_of_pos hfcb.1]
    norm_num
    linarith [hfcb.2]
  obtain ⟨-, C, hC, hmain⟩ := C74_design_partial hl ccls (defaultArgs 30) c hc rfl ⟨rfl, rfl⟩ ⟨rfl, rfl, rfl⟩
    (fun _ => by norm_num [defaultArgs, abs_of_pos]) scls sargs s hs rfl ⟨rfl, rfl⟩ hgap ⟨by linarith [hu.1], by linarith [hu.2]⟩
    RCBeam.split 0.01 0 lu shapes (bars s.mat.law) 1
    (by intro b hb; simp only [bars, bar, List.mem_cons, List.not_mem_nil, or_false] at hb; rcases hb with rfl | rfl | rfl | rfl <;> rfl)
    (by intro b hb; simp only [bars, bar, List.mem_cons, List.not_mem_nil, or_false] at hb; rcases hb with rfl | rfl | rfl | rfl <;> norm_num)
    (by intro p hp; rw [List.mem_singleton.1 hp]; exact RCBeam.ok.encloses)
    (by intro p hp; rw [List.mem_singleton.1 hp]; exact hull)
    (by intro p hp; rw [List.mem_singleton.1 hp]; exact RCBeam.ok.splits)
    (geometry _) (geometry _) (R := 250) (by
      intro p hp v hv
      rw [List.mem_singleton.1 hp] at hv
      rw [RCBeam.height_zero]
      rcases mem_ring hv with rfl | rfl | rfl | rfl <;> norm_num) fc hfc _ rfl (hδ.trans (by norm_num)) S hS E hE
  refine ⟨C, hC, _, hδ, fun n hn h1 h2 => ?_⟩
  obtain ⟨b, hb, ht, -, hm⟩ := hmain n [] hn trivial h1 h2
  exact ⟨b, hb, ht, hm⟩

end SC.OrdinaryBeam
