import Verif.Props.OrdinaryMaterials

/-! # C73: a beam from material objects of any of the codes -/

set_option autoImplicit false

namespace SC

open Spec MeasureTheory

variable {lower : String → String}

namespace OrdinaryBeam

noncomputable def sargs : SteelArgs := { steelArgs 500 200000 540 0.05 with law := .name "elasticperfectlyplastic" }

noncomputable def bar (L : Law) (x y : ℝ) : Bar := ⟨x, y, 500, ⟨1, L⟩⟩

noncomputable def bars (L : Law) : List Bar := [bar L (-110) (-200), bar L 110 (-200), bar L (-110) 200, bar L 110 200]

noncomputable def shapes : List (Polygon × Set (ℝ × ℝ)) :=
  [(⟨rectRing (-150) 150 (-250) 250, []⟩, Set.Icc (-150) 150 ×ˢ Set.Icc (-250) 250)]

theorem mem_ring {v : ℝ × ℝ} : v ∈ rectRing (-150) 150 (-250) 250 →
    (v = (-150, -250) ∨ v = (150, -250) ∨ v = (150, 250) ∨ v = (-150, 250)) := by
  intro hv
  simp only [rectRing, closeRing, List.cons_append, List.nil_append,
        List.take_succ_cons, List.take_zero, List.mem_cons, List.not_mem_nil, or_false] at hv
  tauto

theorem hull : Set.Icc (-150:ℝ) 150 ×ˢ Set.Icc (-250:ℝ) 250 ⊆ convexHull ℝ {v | v ∈ rectRing (-150) 150 (-250) 250} :=
  RCBeam.ok.inHull

theorem geometry (L : Law) : RCGeometry 0 shapes ((bars L).map fun b => (b.x, b.y)) 500 := by
  refine ⟨?_, ?_, by norm_num, ?_⟩
  · intro b hb
    refine ⟨_, List.mem_singleton.2 rfl, hull ?_⟩
    simp only [bars, bar, List.map_cons, List.map_nil, List.mem_cons, List.not_mem_nil, or_false] at hb
    rcases hb with rfl | rfl | rfl | rfl <;> constructor <;> constructor <;> norm_num
  · intro s hs v hv t ht w hw
    rw [List.mem_singleton.1 hs] at hv
    rw [List.mem_singleton.1 ht] at hw
    rw [RCBeam.height_zero, RCBeam.height_zero]
    rcases mem_ring hv with rfl | rfl | rfl | rfl <;> rcases mem_ring hw with rfl | rfl | rfl | rfl <;> norm_num
  · refine ⟨(-110, -200), by simp [bars, bar], _, List.mem_singleton.2 rfl, (150, 250), ?_, ?_⟩
    · simp [rectRing, closeRing]
    · rw [RCBeam.height_zero, RCBeam.height_zero]; norm_num

theorem accepted (hl : PyLower lower) (ccls : ConcClass) (scls : SteelClass) :
    ∃ c s, newConcrete lower ccls (defaultArgs 30) = some (.ok c) ∧ newSteel lower scls sargs = some (.ok s) := by
  have hinc : ¬ Inconsistent (defaultArgs 30) := by
    simp [Inconsistent, defaultArgs]
  have hc : ∃ c, newConcrete lower ccls (defaultArgs 30) = some (.ok c) := by
    by_cases h : ccls = .ec2_2023
    · subst h
      exact (C47_accepts_2023 hl (defaultArgs 30) rfl rfl rfl).2 ⟨hinc, by right; left,
        by norm_num [defaultArgs, abs_of_pos], by simp [defaultArgs]⟩
    · exact (C47_accepts hl ccls h (defaultArgs 30) rfl rfl rfl).2 hinc
  have hg : gammaS sargs = 1.15 := rfl
  have gs : strainFactorOk scls sargs := by
    cases scls <;> simp [strainFactorOk, sargs, steelArgs, factorOf] <;> norm_num
  obtain ⟨s, hs⟩ := (C48_accepts_perfect hl scls sargs rfl rfl rfl).2 ⟨by rw [hg]; norm_num, gs, by norm_num [sargs, steelArgs]⟩
  obtain ⟨c, hc⟩ := hc
  exact ⟨c, s, hc, hs⟩

theorem yield_range : (0.002:ℝ) ≤ designYield sargs ∧ designYield sargs ≤ 0.003 := by
  have hy : designYield sargs = 500 / 1.15 / 200000 := by
    simp [designYield, sargs, steelArgs, gammaS, factorOf]
  rw [hy]; norm_num

theorem ultimate_range (scls : SteelClass) : 0.04 ≤ designUltimate scls sargs ∧ designUltimate scls sargs ≤ 0.05 := by
  cases scls <;> simp only [designUltimate, sargs, steelArgs, gammaS, factorOf] <;> rw [abs_of_pos (by norm_num)] <;> norm_num

theorem gap (scls : SteelClass) : designYield sargs + 1e-6 + 1e-5 * designUltimate scls sargs ≤ designUltimate scls sargs := by
  have h1 := yield_range
  have h2 := ultimate_range scls
  norm_num at *
  linarith

theorem margins_wide (hl : PyLower lower) (ccls : ConcClass) (scls : SteelClass) (s : Built Steel)
    (hs : newSteel lower scls sargs = some (.ok s)) (fc : ℝ) (hfc : fc = designConcrete ccls (defaultArgs 30)) (δ : ℝ)
    (hδ : δ = (2 * |fc| / 0.002 * (shapes.map fun p => areaMoment 0 0 p.2).sum + |sargs.Es| * ((bars s.mat.law).map fun b => |b.area|).sum) *
      500) : δ ≤ 1e13 ∧
    (concreteSection (normalParts fc shapes) (bars s.mat.law)).forces ![-0.0035, 0, 0] 0 + 100 < 0 ∧
    0 < (concreteSection (normalParts fc shapes) (bars s.mat.law)).forces ![designUltimate scls sargs, 0, 0] 0 - 100 := by
  have hu := ultimate_range scls
  have hy1 := yield_range
  obtain ⟨-, hst, -⟩ := C73_steel hl scls sargs s hs rfl rfl rfl (gap scls)
  have hfcb : 0 < fc ∧ fc ≤ 30 := by
    rw [hfc]
    cases ccls <;> simp only [designConcrete, defaultArgs, factor, Option.getD_none] <;> rw [abs_of_pos (by norm_num : (0:ℝ) < 30)]
    · norm_num
    · norm_num
    · have : min (((40:ℝ) / 30) ^ ((1:ℝ) / 3)) 1 ≤ 1 := min_le_right _ _
      have h2 : 0 < min (((40:ℝ) / 30) ^ ((1:ℝ) / 3)) 1 := lt_min (by positivity) one_pos
      constructor
      · positivity
      · rw [div_le_iff₀ (by norm_num)]; nlinarith
  have harea : areaMoment 0 0 (Set.Icc (-150:ℝ) 150 ×ˢ Set.Icc (-250:ℝ) 250) = 150000 := by
    simp only [areaMoment, pow_zero, mul_one]
    rw [setIntegral_const, Measure.real, Measure.volume_eq_prod, Measure.prod_prod, Real.volume_Icc, Real.volume_Icc]
    norm_num
  have hEs : |sargs.Es| = 200000 := by norm_num [sargs, steelArgs]
  have hδ' : (2 * |fc| / 0.002 * (shapes.map fun p => areaMoment 0 0 p.2).sum + |sargs.Es| * ((bars s.mat.law).map fun b => |b.area|).sum) *
      500 ≤ 1e13 := by
    simp only [shapes, bars, bar, List.map_cons, List.map_nil, List.sum_cons, List.sum_nil, harea, hEs]
    rw [abs_of_pos hfcb.1]
    norm_num
    linarith [hfcb.2]
  have hforce : ∀ u : ℝ, |u| ≤ designUltimate scls sargs →
      (concreteSection (normalParts fc shapes) (bars s.mat.law)).forces ![u, 0, 0] 0 =
      (∫ x in Set.Icc (-150:ℝ) 150 ×ˢ Set.Icc (-250:ℝ) 250, (ParabolaRectangle.new fc 0.002 0.0035 2).stress u) +
        2000 * (200000 * max (-designYield sargs) (min u (designYield sargs))) := by
    intro u hu'
    have e := hst u hu'
    rw [hEs] at e
    rw [← e]
    have hp : ∀ x y : ℝ, planeStrain ![u, 0, 0] x y = u := by intro x y; simp [planeStrain]
    simp only [CrossSection.forces, concreteSection, normalParts, shapes, bars, bar, Bar.fibre, resultants, regionResultants, lever,
      List.map_cons, List.map_nil, List.sum_cons, List.sum_nil, Pi.add_apply, Matrix.cons_val, mul_one, add_zero, hp]
    simp only [ConcretePart.law]
    ring
  have hc8 := C08_parabola_rectangle fc 0.002 0.0035 2 (by norm_num [abs_of_pos]) (by norm_num [abs_of_pos]) (by norm_num [abs_of_pos]) (by norm_num)
  rw [← hδ] at hδ'
  refine ⟨hδ', ?_, ?_⟩
  · rw [hforce _ (by rw [abs_neg, abs_of_pos (by norm_num)]; linarith [hu.1])]
    have h1 : (∫ x in Set.Icc (-150:ℝ) 150 ×ˢ Set.Icc (-250:ℝ) 250, (ParabolaRectangle.new fc 0.002 0.0035 2).stress (-0.0035)) ≤ 0 :=
      integral_nonpos fun x => (hc8.bounded _).2
    rw [min_eq_left (by linarith [hy1.1]), max_eq_left (by linarith [hy1.2])]
    linarith [hy1.1]
  · rw [hforce _ (by rw [abs_of_pos (by linarith [hu.1])])]
    have h1 : (∫ x in Set.Icc (-150:ℝ) 150 ×ˢ Set.Icc (-250:ℝ) 250,
        (ParabolaRectangle.new fc 0.002 0.0035 2).stress (designUltimate scls sargs)) = 0 := by
      rw [hc8.no_tension _ (by linarith [hu.1])]; simp
    rw [min_eq_right (by linarith [hy1.2, hu.1]), max_eq_right (by linarith [hy1.1]), h1]
    linarith [hy1.1]

theorem margins (hl : PyLower lower) (ccls : ConcClass) (scls : SteelClass) (s : Built Steel)
    (hs : newSteel lower scls sargs = some (.ok s)) (fc : ℝ) (hfc : fc = designConcrete ccls (defaultArgs 30)) (δ : ℝ)
    (hδ : δ = (2 * |fc| / 0.002 * (shapes.map fun p => areaMoment 0 0 p.2).sum + |sargs.Es| * ((bars s.mat.law).map fun b => |b.area|).sum) *
      500) : δ ≤ 1e13 ∧
    (concreteSection (normalParts fc shapes) (bars s.mat.law)).forces ![-0.0035, 0, 0] 0 + δ * 1e-13 < 0 ∧
    0 < (concreteSection (normalParts fc shapes) (bars s.mat.law)).forces ![designUltimate scls sargs, 0, 0] 0 - δ * 1e-13 := by
  obtain ⟨h1, h2, h3⟩ := margins_wide hl ccls scls s hs fc hfc δ hδ
  exact ⟨h1, by linarith, by linarith⟩

theorem one_steel (L : Law) : ∀ b ∈ bars L, b.law = ⟨1, L⟩ := by
  intro b hb
  simp only [bars, bar, List.mem_cons, List.not_mem_nil, or_false] at hb
  rcases hb with rfl | rfl | rfl | rfl <;> rfl

/-- Every combination of concrete and steel class, C30 and B500: the beam has a strength in pure bending. -/
theorem pure_bending (hl : PyLower lower) (ccls : ConcClass) (scls : SteelClass) :
    ∃ c s, newConcrete lower ccls (defaultArgs 30) = some (.ok c) ∧ newSteel lower scls sargs = some (.ok s) ∧
    ∃ b : BendingResult, (bendingStrength (sectionEngine RCBeam.split ((normalParts (designConcrete ccls (defaultArgs 30)) shapes).map
      ConcretePart.solid) (bars s.mat.law) 0.01) 0 0 .fresh).2 = .ok b ∧
      (concreteSection (normalParts (designConcrete ccls (defaultArgs 30)) shapes) (bars s.mat.law)).forces ![b.eps_a, b.chi.1, b.chi.2] =
        ![b.n, b.m.1, b.m.2] := by
  obtain ⟨c, s, hc, hs⟩ := accepted hl ccls scls
  refine ⟨c, s, hc, hs, ?_⟩
  have hu := ultimate_range scls
  obtain ⟨m1, m2, m3⟩ := margins hl ccls scls s hs _ rfl _ rfl
  obtain ⟨-, C, -, hmain⟩ := C73_design_partial hl ccls (defaultArgs 30) c hc rfl ⟨rfl, rfl⟩ ⟨rfl, rfl, rfl⟩
    (fun _ => by norm_num [defaultArgs, abs_of_pos]) scls sargs s hs rfl ⟨rfl, rfl⟩ (gap scls) ⟨by linarith [hu.1], by linarith [hu.2]⟩
    RCBeam.split 0.01 0 (fun _ _ => 0) shapes (bars s.mat.law) 1 (one_steel _)
    (by intro p hp; rw [List.mem_singleton.1 hp]; exact RCBeam.ok.encloses)
    (by intro p hp; rw [List.mem_singleton.1 hp]; exact hull)
    (by intro p hp; rw [List.mem_singleton.1 hp]; exact RCBeam.ok.splits)
    (geometry _) (geometry _) _ rfl _ rfl (m1.trans (by norm_num)) _ rfl _ rfl
  obtain ⟨b, hb, -, hf, -⟩ := (hmain 0 [] trivial).2 m2 m3
  exact ⟨b, hb, hf⟩

end OrdinaryBeam

end SC
