import Verif.Props.AddedDesign
import Verif.Props.OrdinaryExample

/-! # C79: a beam and a fifth bar -/

set_option autoImplicit false

namespace SC.OrdinaryBeam

open Spec MeasureTheory

variable {lower : String → String}

theorem concrete_range (ccls : ConcClass) : 0 < designConcrete ccls (defaultArgs 30) ∧ designConcrete ccls (defaultArgs 30) ≤ 30 := by
  cases ccls <;> simp only [designConcrete, defaultArgs, factor, Option.getD_none] <;> rw [abs_of_pos (by norm_num : (0:ℝ) < 30)]
  · norm_num
  · norm_num
  · have : min (((40:ℝ) / 30) ^ ((1:ℝ) / 3)) 1 ≤ 1 := min_le_right _ _
    have h2 : 0 < min (((40:ℝ) / 30) ^ ((1:ℝ) / 3)) 1 := lt_min (by positivity) one_pos
    constructor
    · positivity
    · rw [div_le_iff₀ (by norm_num)]; nlinarith

theorem rect_area : areaMoment 0 0 (Set.Icc (-150:ℝ) 150 ×ˢ Set.Icc (-250:ℝ) 250) = 150000 := by
  simp only [areaMoment, pow_zero, mul_one]
  rw [setIntegral_const, Measure.real, Measure.volume_eq_prod, Measure.prod_prod, Real.volume_Icc, Real.volume_Icc]
  norm_num

/-- Loads of up to 2 N are within the limits for up to five bars of 500 mm². -/
theorem margins_strength (hl : PyLower lower) {fc : ℝ} (hfcb : 0 < fc ∧ fc ≤ 40) (scls : SteelClass) (s : Built Steel)
    (hs : newSteel lower scls sargs = some (.ok s)) (l : List Bar) (hb : ∀ b ∈ l, b.law = ⟨1, s.mat.law⟩ ∧ b.area = 500)
    (hl4 : 4 ≤ l.length) (hl5 : l.length ≤ 5) :
    (2 * |fc| / 0.002 * (shapes.map fun p => areaMoment 0 0 p.2).sum +
      |sargs.Es| * (l.map fun b => |b.area|).sum) * 500 ≤ 1e13 ∧
    (concreteSection (normalParts (fc) shapes) l).forces ![-0.0035, 0, 0] 0 + 1 < 0 ∧
    3 < (concreteSection (normalParts (fc) shapes) l).forces ![designUltimate scls sargs, 0, 0] 0 := by
  have hu := ultimate_range scls
  have hy1 := yield_range
  obtain ⟨-, hst, -⟩ := C73_steel hl scls sargs s hs rfl rfl rfl (gap scls)
  have hEs : |sargs.Es| = 200000 := by norm_num [sargs, steelArgs]
  have hsum : ∀ t : ℝ, (l.map fun b => |b.area| * t).sum = l.length * (500 * t) := by
    intro t
    rw [List.map_congr_left (g := fun _ => 500 * t) fun b hm => by rw [(hb b hm).2, abs_of_pos (by norm_num : (0:ℝ) < 500)]]
    simp
  have hlen : (4:ℝ) ≤ l.length ∧ (l.length:ℝ) ≤ 5 := ⟨by exact_mod_cast hl4, by exact_mod_cast hl5⟩
  have hforce : ∀ u : ℝ, |u| ≤ designUltimate scls sargs →
      (concreteSection (normalParts fc shapes) l).forces ![u, 0, 0] 0 =
      (∫ x in Set.Icc (-150:ℝ) 150 ×ˢ Set.Icc (-250:ℝ) 250, (ParabolaRectangle.new fc 0.002 0.0035 2).stress u) +
        l.length * (500 * (200000 * max (-designYield sargs) (min u (designYield sargs)))) := by
    intro u hu'
    have e := hst u hu'
    rw [hEs] at e
    have hp : ∀ x y : ℝ, planeStrain ![u, 0, 0] x y = u := by intro x y; simp [planeStrain]
    rw [force_split (bars := l), ← hsum]
    congr 1
    · simp only [CrossSection.forces, concreteSection, normalParts, shapes, resultants, regionResultants, lever,
        List.map_cons, List.map_nil, List.sum_cons, List.sum_nil, Pi.add_apply, Matrix.cons_val, mul_one, add_zero, hp]
      rfl
    · congr 1
      refine List.map_congr_left fun b hm => ?_
      rw [hp, (hb b hm).1, e, (hb b hm).2, abs_of_pos (by norm_num : (0:ℝ) < 500)]
  have hc8 := C08_parabola_rectangle fc 0.002 0.0035 2 (by norm_num [abs_of_pos]) (by norm_num [abs_of_pos]) (by norm_num [abs_of_pos]) (by norm_num)
  refine ⟨?_, ?_, ?_⟩
  · have h1 := hsum 1
    simp only [mul_one] at h1
    rw [h1]
    simp only [shapes, List.map_cons, List.map_nil, List.sum_cons, List.sum_nil, rect_area, hEs]
    rw [abs_of_pos hfcb.1]
    norm_num
    linarith [hfcb.2]
  · rw [hforce _ (by rw [abs_neg, abs_of_pos (by norm_num)]; linarith [hu.1])]
    have h1 : (∫ x in Set.Icc (-150:ℝ) 150 ×ˢ Set.Icc (-250:ℝ) 250, (ParabolaRectangle.new fc 0.002 0.0035 2).stress (-0.0035)) ≤ 0 :=
      integral_nonpos fun x => (hc8.bounded _).2
    rw [min_eq_left (by linarith [hy1.1]), max_eq_left (by linarith [hy1.2])]
    nlinarith [hy1.1]
  · rw [hforce _ (by rw [abs_of_pos (by linarith [hu.1])])]
    have h1 : (∫ x in Set.Icc (-150:ℝ) 150 ×ˢ Set.Icc (-250:ℝ) 250,
        (ParabolaRectangle.new fc 0.002 0.0035 2).stress (designUltimate scls sargs)) = 0 := by
      rw [hc8.no_tension _ (by linarith [hu.1])]; simp
    rw [min_eq_right (by linarith [hy1.2, hu.1]), max_eq_right (by linarith [hy1.1]), h1]
    nlinarith [hy1.1]

theorem margins_bars (hl : PyLower lower) (ccls : ConcClass) (scls : SteelClass) (s : Built Steel)
    (hs : newSteel lower scls sargs = some (.ok s)) (l : List Bar) (hb : ∀ b ∈ l, b.law = ⟨1, s.mat.law⟩ ∧ b.area = 500)
    (hl4 : 4 ≤ l.length) (hl5 : l.length ≤ 5) :
    (2 * |designConcrete ccls (defaultArgs 30)| / 0.002 * (shapes.map fun p => areaMoment 0 0 p.2).sum +
      |sargs.Es| * (l.map fun b => |b.area|).sum) * 500 ≤ 1e13 ∧
    (concreteSection (normalParts (designConcrete ccls (defaultArgs 30)) shapes) l).forces ![-0.0035, 0, 0] 0 + 1 < 0 ∧
    3 < (concreteSection (normalParts (designConcrete ccls (defaultArgs 30)) shapes) l).forces ![designUltimate scls sargs, 0, 0] 0 :=
  margins_strength hl ⟨(concrete_range ccls).1, by linarith [(concrete_range ccls).2]⟩ scls s hs l hb hl4 hl5

/-- With the upper face at the crushing strain and no strain in the lower layer the beam is compressed. -/
theorem crush_nonpos (hl : PyLower lower) (ccls : ConcClass) (scls : SteelClass) (s : Built Steel)
    (hs : newSteel lower scls sargs = some (.ok s)) :
    (concreteSection (normalParts (designConcrete ccls (defaultArgs 30)) shapes) (bars s.mat.law)).forces
      (planeThrough 0 250 (-0.0035) (-(0.0035 / (250 - -200)))) 0 ≤ 0 := by
  have hu := ultimate_range scls
  have hall : ∀ b ∈ bars s.mat.law, b.law = ⟨1, s.mat.law⟩ ∧ b.area = 500 := by
    intro b hb
    simp only [bars, bar, List.mem_cons, List.not_mem_nil, or_false] at hb
    rcases hb with rfl | rfl | rfl | rfl <;> exact ⟨rfl, rfl⟩
  set fc := designConcrete ccls (defaultArgs 30) with hfc
  obtain ⟨-, hst, -⟩ := C73_steel hl scls sargs s hs rfl rfl rfl (gap scls)
  have hc8 := C08_parabola_rectangle fc 0.002 0.0035 2 (by norm_num [abs_of_pos]) (by norm_num [abs_of_pos]) (by norm_num [abs_of_pos])
    (by norm_num)
  rw [force_split (bars := bars s.mat.law)]
  have e1 : (concreteSection (normalParts fc shapes) []).forces (planeThrough 0 250 (-0.0035) (-(0.0035 / (250 - -200)))) 0 ≤ 0 := by
    simp only [CrossSection.forces, concreteSection, normalParts, shapes, resultants, regionResultants, lever,
      List.map_cons, List.map_nil, List.sum_cons, List.sum_nil, Pi.add_apply, Matrix.cons_val, mul_one, add_zero]
    exact integral_nonpos fun x => (hc8.bounded _).2
  have e2 : ∀ b ∈ bars s.mat.law, b.area * b.law.law.stress
      (planeStrain (planeThrough 0 250 (-0.0035) (-(0.0035 / (250 - -200)))) b.x b.y) ≤ 0 := by
    intro b hb
    rw [(hall b hb).1, (hall b hb).2]
    refine mul_nonpos_of_nonneg_of_nonpos (by norm_num) ?_
    have hy := yield_range
    have hp := planeThrough_height 0 250 (-0.0035) (-(0.0035 / (250 - -200))) (b.x, b.y)
    rw [RCBeam.height_zero] at hp
    simp only at hp
    rw [hp]
    have hby : b.y = -200 ∨ b.y = 200 := by
      simp only [bars, bar, List.mem_cons, List.not_mem_nil, or_false] at hb
      rcases hb with rfl | rfl | rfl | rfl <;> norm_num
    have hs1 : -0.0035 + -(0.0035 / (250 - -200)) * (b.y - 250) ≤ (0:ℝ) ∧
        -(0.0035:ℝ) ≤ -0.0035 + -(0.0035 / (250 - -200)) * (b.y - 250) := by
      rcases hby with e | e <;> rw [e] <;> norm_num
    rw [hst _ (by rw [abs_of_nonpos hs1.1]; linarith [hu.1, hs1.2])]
    refine mul_nonpos_of_nonneg_of_nonpos (abs_nonneg _) (max_le (by linarith [hy.1]) ((min_le_left _ _).trans hs1.1))
  have e3 : ((bars s.mat.law).map fun b => b.area * b.law.law.stress
      (planeStrain (planeThrough 0 250 (-0.0035) (-(0.0035 / (250 - -200)))) b.x b.y)).sum ≤ 0 := by
    have := List.sum_le_sum (g := fun _ => (0:ℝ)) e2
    simpa using this
  linarith

/-- The hypotheses of `C79_design_partial` hold together: a fifth bar of 500 mm² in the lower layer of the beam, for every combination
of classes, does not reduce the strength under some axial load between 1 N and 2 N by more than 5 N mm. -/
example (hl : PyLower lower) (ccls : ConcClass) (scls : SteelClass) (lu : Matrix (Fin 3) (Fin 3) ℝ → (Fin 3 → ℝ) → (Fin 3 → ℝ)) :
    ∃ c s, newConcrete lower ccls (defaultArgs 30) = some (.ok c) ∧ newSteel lower scls sargs = some (.ok s) ∧
    ∀ E : List Bar → Engine, (∀ l, E l = sectionEngine RCBeam.split
        ((normalParts (designConcrete ccls (defaultArgs 30)) shapes).map ConcretePart.solid) l 0.01) →
    ∃ n ∈ Set.Ioc (1:ℝ) 2, ∃ b b' : BendingResult,
      (bendingStrength (E (bars s.mat.law)) 0 n (history (E (bars s.mat.law)) lu [] .fresh)).2 = .ok b ∧
      (bendingStrength (E (bars s.mat.law ++ [bar s.mat.law 0 (-200)])) 0 n
        (history (E (bars s.mat.law ++ [bar s.mat.law 0 (-200)])) lu [] .fresh)).2 = .ok b' ∧
      -b.m.1 ≤ -b'.m.1 + 5 := by
  obtain ⟨c, s, hc, hs⟩ := accepted hl ccls scls
  refine ⟨c, s, hc, hs, fun E hE => ?_⟩
  have hu := ultimate_range scls
  set more : List Bar := [bar s.mat.law 0 (-200)] with hmore
  have hall : ∀ b ∈ bars s.mat.law ++ more, b.law = ⟨1, s.mat.law⟩ ∧ b.area = 500 := by
    intro b hb
    simp only [bars, bar, hmore, List.cons_append, List.nil_append, List.mem_cons, List.not_mem_nil, or_false] at hb
    rcases hb with rfl | rfl | rfl | rfl | rfl <;> exact ⟨rfl, rfl⟩
  have hsub : ∀ b ∈ bars s.mat.law, b ∈ bars s.mat.law ++ more := fun b hb => List.mem_append_left _ hb
  have hlow : ∀ b ∈ bars s.mat.law, -200 ≤ height 0 (b.x, b.y) := by
    intro b hb
    rw [RCBeam.height_zero]
    simp only [bars, bar, List.mem_cons, List.not_mem_nil, or_false] at hb
    rcases hb with rfl | rfl | rfl | rfl <;> norm_num
  obtain ⟨a1, a2, a3⟩ := margins_bars hl ccls scls s hs (bars s.mat.law) (fun b hb => hall b (hsub b hb)) (by simp [bars]) (by simp [bars])
  obtain ⟨b1, b2, b3⟩ := margins_bars hl ccls scls s hs (bars s.mat.law ++ more) hall (by simp [bars]) (by simp [bars, hmore])
  set fc := designConcrete ccls (defaultArgs 30) with hfc
  obtain ⟨-, C, hC, hmain⟩ := C79_design_partial hl ccls (defaultArgs 30) c hc rfl ⟨rfl, rfl⟩ ⟨rfl, rfl, rfl⟩
    (fun _ => by norm_num [defaultArgs, abs_of_pos]) scls sargs s hs rfl ⟨rfl, rfl⟩ (gap scls) ⟨by linarith [hu.1], by linarith [hu.2]⟩
    RCBeam.split 0.01 0 lu shapes (bars s.mat.law) more 1 (fun b hb => (hall b hb).1) (fun b hb => by rw [(hall b hb).2]; norm_num)
    (by intro p hp; rw [List.mem_singleton.1 hp]; exact RCBeam.ok.encloses)
    (by intro p hp; rw [List.mem_singleton.1 hp]; exact hull)
    (by intro p hp; rw [List.mem_singleton.1 hp]; exact RCBeam.ok.splits)
    (geometry _) (geometry _)
    (by
      intro b hb
      rw [List.mem_singleton.1 hb]
      refine ⟨_, List.mem_singleton.2 rfl, hull ?_⟩
      constructor <;> constructor <;> norm_num [bar])
    (R := 250) (by
      intro p hp v hv
      rw [List.mem_singleton.1 hp] at hv
      rw [RCBeam.height_zero]
      rcases mem_ring hv with rfl | rfl | rfl | rfl <;> norm_num)
    (-200) 250 hlow ⟨bar s.mat.law (-110) (-200), by simp [bars], by rw [RCBeam.height_zero]; rfl⟩
    (by intro b hb; rw [List.mem_singleton.1 hb, RCBeam.height_zero]; rfl)
    (by
      intro p hp v hv
      rw [List.mem_singleton.1 hp] at hv
      rw [RCBeam.height_zero]
      rcases mem_ring hv with rfl | rfl | rfl | rfl <;> norm_num) (by norm_num) fc hfc _ (fun _ => rfl) (b1.trans (by norm_num)) _
    (fun _ => rfl) E hE
  obtain ⟨n, hn, hnC⟩ : (Set.Ioc (1:ℝ) 2 \ C).Nonempty := by
    have hnc : ¬ (Set.Ioc (1:ℝ) 2).Countable := fun h => by
      have := h.measure_zero volume
      rw [Real.volume_Ioc] at this
      norm_num at this
    by_contra hcon
    rw [Set.not_nonempty_iff_eq_empty, Set.sdiff_eq_empty] at hcon
    exact hnc (hC.mono hcon)
  obtain ⟨b, b', h1, h2, h3⟩ := hmain n [] [] hnC trivial trivial (by
    intro l hl
    simp only [List.mem_cons, List.not_mem_nil, or_false] at hl
    have := hn.1
    have := hn.2
    rcases hl with rfl | rfl
    · constructor <;> norm_num at * <;> linarith
    · constructor <;> norm_num at * <;> linarith) (by
    have hnon := crush_nonpos hl ccls scls s hs
    rw [← hfc] at hnon
    have := hn.1
    have : (1e-2:ℝ) < 1 := by norm_num
    linarith)
  refine ⟨n, hn, b, b', h1, h2, ?_⟩
  simp only [bendingMoment, Real.cos_zero, Real.sin_zero, Matrix.cons_val, mul_one, mul_zero, add_zero] at h3
  norm_num at h3
  linarith

end SC.OrdinaryBeam
