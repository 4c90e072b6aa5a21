import Verif.Props.FiberDesign
import Verif.Props.AddedExample
import Verif.Props.FiberStrengthExample

/-! # C80: the beam of C73 meshed with finer and finer cells -/

set_option autoImplicit false

namespace SC.OrdinaryBeam

open Spec MeasureTheory MeshedConcrete

variable {lower : String → String}

/-- Squares of side `50 / (k + 1)`, each cut into two triangles. -/
noncomputable def fineMesh (k : ℕ) : List ((ℝ × ℝ) × (ℝ × ℝ) × (ℝ × ℝ)) :=
  cellGrid (-150) (-250) (50 / (k + 1)) (6 * k + 5) (10 * k + 9)

theorem fineMesh_ok (k : ℕ) : Triangulates (fineMesh k) (Set.Icc (-150:ℝ) 150 ×ˢ Set.Icc (-250:ℝ) 250) ∧
    Quality (150000 * (0.01 / ((k:ℝ) + 1) ^ 2)) (fineMesh k) := by
  have hk : (0:ℝ) < (k:ℝ) + 1 := by positivity
  constructor
  · have h := cellGrid_triangulates (-150) (-250) (50 / ((k:ℝ) + 1)) (by positivity) (6 * k + 5) (10 * k + 9)
    have e : box (-150) (-250) (((6 * k + 5 : ℕ) + 1) * (50 / ((k:ℝ) + 1))) (((10 * k + 9 : ℕ) + 1) * (50 / ((k:ℝ) + 1))) =
        Set.Icc (-150:ℝ) 150 ×ˢ Set.Icc (-250:ℝ) 250 := by
      have e1 : (((6 * k + 5 : ℕ):ℝ) + 1) * (50 / ((k:ℝ) + 1)) = 300 := by push_cast; field_simp; ring
      have e2 : (((10 * k + 9 : ℕ):ℝ) + 1) * (50 / ((k:ℝ) + 1)) = 500 := by push_cast; field_simp; ring
      rw [e1, e2]
      simp only [box]
      norm_num
    rw [e] at h
    exact h
  · refine cellGrid_quality _ _ _ _ (by positivity) ?_ _ _
    rw [div_pow]
    have h2 : (0:ℝ) < ((k:ℝ) + 1) ^ 2 := by positivity
    rw [div_div, mul_div_assoc', div_le_div_iff₀ (by positivity) h2]
    nlinarith

theorem weight_bounds (ccls : ConcClass) :
    weight (normalParts (designConcrete ccls (defaultArgs 30)) shapes) 0 ≤ 3.3e12 ∧
    weight (normalParts (designConcrete ccls (defaultArgs 30)) shapes) 1 ≤ 8.25e14 := by
  have hfcb := concrete_range ccls
  set fc := designConcrete ccls (defaultArgs 30) with hfc
  have h0 : (∫ x in Set.Icc (-150:ℝ) 150 ×ˢ Set.Icc (-250:ℝ) 250, |lever x.1 x.2 0|) = 150000 := by
    rw [← rect_area]; simp [lever, areaMoment]
  have hb : Bornology.IsBounded (Set.Icc (-150:ℝ) 150 ×ˢ Set.Icc (-250:ℝ) 250) := by
    exact (Metric.isBounded_Icc _ _).prod (Metric.isBounded_Icc _ _)
  have h1 : (∫ x in Set.Icc (-150:ℝ) 150 ×ˢ Set.Icc (-250:ℝ) 250, |lever x.1 x.2 1|) ≤ 250 * 150000 := by
    have hm : (∫ x in Set.Icc (-150:ℝ) 150 ×ˢ Set.Icc (-250:ℝ) 250, |lever x.1 x.2 1|) ≤
        ∫ _ in Set.Icc (-150:ℝ) 150 ×ˢ Set.Icc (-250:ℝ) 250, (250:ℝ) := by
      refine setIntegral_mono_on (continuous_integrableOn (by simp only [lever]; fun_prop) hb)
        (continuous_integrableOn continuous_const hb) (measurableSet_Icc.prod measurableSet_Icc) fun x hx => ?_
      simp only [lever, Matrix.cons_val]
      exact abs_le.2 hx.2
    refine hm.trans_eq ?_
    rw [← rect_area]
    simp only [areaMoment, pow_zero, mul_one]
    rw [← integral_const_mul]
    simp
  have hsq : √(8 * 150000) ≤ 1100 := by
    rw [Real.sqrt_le_left (by norm_num)]; norm_num
  have key : ∀ I J : ℝ, 0 ≤ I → I ≤ J → 2 / 3 * (2 * |fc| / |(0.002:ℝ)| * √(8 * 150000) * I) ≤ 2 / 3 * (30000 * 1100 * J) := by
    intro I J hI hIJ
    rw [abs_of_pos hfcb.1, abs_of_pos (by norm_num : (0:ℝ) < 0.002)]
    have h1 : 2 * fc / 0.002 ≤ 30000 := by
      rw [div_le_iff₀ (by norm_num)]; linarith [hfcb.2]
    have h2 : 0 ≤ 2 * fc / 0.002 := div_nonneg (by linarith [hfcb.1]) (by norm_num)
    have := mul_le_mul (mul_le_mul h1 hsq (Real.sqrt_nonneg _) (by norm_num)) hIJ hI (by norm_num)
    linarith
  constructor
  · simp only [weight, normalParts, shapes, List.map_cons, List.map_nil, List.sum_cons, List.sum_nil, add_zero, rect_area, h0]
    refine (key 150000 150000 (by norm_num) le_rfl).trans (by norm_num)
  · simp only [weight, normalParts, shapes, List.map_cons, List.map_nil, List.sum_cons, List.sum_nil, add_zero, rect_area]
    refine (key _ (250 * 150000) (integral_nonneg fun _ => abs_nonneg _) h1).trans (by norm_num)

/-- The hypotheses of `C80_design_partial` hold together for every combination of classes and every mesh of squares: for some axial load
of at most 1 N both integrators return a strength, and the difference vanishes with the side of the squares, up to 5 N mm. -/
example (hl : PyLower lower) (ccls : ConcClass) (scls : SteelClass) (lu : Matrix (Fin 3) (Fin 3) ℝ → (Fin 3 → ℝ) → (Fin 3 → ℝ)) :
    ∃ c s, newConcrete lower ccls (defaultArgs 30) = some (.ok c) ∧ newSteel lower scls sargs = some (.ok s) ∧
    ∀ (k : ℕ) (E E' : Engine),
      E = engine (fun _ => []) (normalMeshed (designConcrete ccls (defaultArgs 30)) shapes 7 fun _ _ => fineMesh k) (bars s.mat.law)
        (0.01 / ((k:ℝ) + 1) ^ 2) →
      E' = sectionEngine RCBeam.split
        ((normalParts (designConcrete ccls (defaultArgs 30)) shapes).map ConcretePart.solid) (bars s.mat.law) 0.01 →
    ∃ n ∈ Set.Ioc (0.8:ℝ) 1, ∃ b b' : BendingResult,
      (bendingStrength E 0 n (history E lu [] .fresh)).2 = .ok b ∧ (bendingStrength E' 0 n (history E' lu [] .fresh)).2 = .ok b' ∧
      |b.m.1 - b'.m.1| ≤ 5 + 2e10 / ((k:ℝ) + 1) := by
  obtain ⟨c, s, hc, hs⟩ := accepted hl ccls scls
  refine ⟨c, s, hc, hs, fun k E E' hE hE' => ?_⟩
  have hk : (1:ℝ) ≤ (k:ℝ) + 1 := by linarith [(Nat.cast_nonneg k : (0:ℝ) ≤ k)]
  have hk2 : (1:ℝ) ≤ ((k:ℝ) + 1) ^ 2 := by nlinarith
  have hu := ultimate_range scls
  have hall : ∀ b ∈ bars s.mat.law, b.law = ⟨1, s.mat.law⟩ ∧ b.area = 500 := by
    intro b hb
    simp only [bars, bar, List.mem_cons, List.not_mem_nil, or_false] at hb
    rcases hb with rfl | rfl | rfl | rfl <;> exact ⟨rfl, rfl⟩
  obtain ⟨-, a2, a3⟩ := margins_bars hl ccls scls s hs (bars s.mat.law) hall (by simp [bars]) (by simp [bars])
  have hfcb := concrete_range ccls
  obtain ⟨w0, w1⟩ := weight_bounds ccls
  set fc := designConcrete ccls (defaultArgs 30) with hfc
  have hEs : |sargs.Es| = 200000 := by norm_num [sargs, steelArgs]
  have hmax : max (2 * |fc| / 0.002) |sargs.Es| = 200000 := by
    rw [hEs, abs_of_pos hfcb.1]
    refine max_eq_right ?_
    rw [div_le_iff₀ (by norm_num)]
    linarith [hfcb.2]
  have hsum : ((bars s.mat.law).map fun b => |b.area|).sum = 2000 := by
    simp only [bars, bar, List.map_cons, List.map_nil, List.sum_cons, List.sum_nil]
    norm_num
  have hδ : max (2 * |fc| / 0.002) |sargs.Es| * ((shapes.map fun p => areaMoment 0 0 p.2).sum +
      ((bars s.mat.law).map fun b => |b.area|).sum) * 500 = 1.52e13 := by
    rw [hmax, hsum]
    simp only [shapes, List.map_cons, List.map_nil, List.sum_cons, List.sum_nil, rect_area]
    norm_num
  have hroot : √(0.01 / ((k:ℝ) + 1) ^ 2) = 0.1 / ((k:ℝ) + 1) := by
    rw [show (0.01:ℝ) / ((k:ℝ) + 1) ^ 2 = (0.1 / ((k:ℝ) + 1)) ^ 2 by rw [div_pow]; norm_num, Real.sqrt_sq (by positivity)]
  have hms0 : (0:ℝ) < 0.01 / ((k:ℝ) + 1) ^ 2 := by positivity
  have hms1 : (0.01:ℝ) / ((k:ℝ) + 1) ^ 2 ≤ 1 := by
    rw [div_le_one (by positivity)]; linarith
  obtain ⟨-, C, hC, hmain⟩ := C80_design_partial hl ccls (defaultArgs 30) c hc rfl ⟨rfl, rfl⟩ ⟨rfl, rfl, rfl⟩
    (fun _ => by norm_num [defaultArgs, abs_of_pos]) scls sargs s hs rfl ⟨rfl, rfl⟩ (gap scls) ⟨by linarith [hu.1], by linarith [hu.2]⟩
    RCBeam.split (fun _ => []) hms0 hms1 0.01 0 lu lu shapes (bars s.mat.law) 1 (fun b hb => (hall b hb).1)
    (fun b hb => by rw [(hall b hb).2]; norm_num) 7 (fun _ _ => fineMesh k)
    (by intro p hp; rw [List.mem_singleton.1 hp, rect_area]; exact fineMesh_ok k)
    (by intro p hp; rw [List.mem_singleton.1 hp]; exact RCBeam.ok.encloses)
    (by intro p hp; rw [List.mem_singleton.1 hp]; exact hull)
    (by intro p hp; rw [List.mem_singleton.1 hp]; exact RCBeam.ok.splits)
    (geometry _) (geometry _) (R := 250) (D := 450) (by
      intro p hp v hv
      rw [List.mem_singleton.1 hp] at hv
      rw [RCBeam.height_zero]
      rcases mem_ring hv with rfl | rfl | rfl | rfl <;> norm_num) (by norm_num)
    ⟨bar s.mat.law (-110) (-200), by simp [bars], _, List.mem_singleton.2 rfl, (150, 250), by simp [rectRing, closeRing], by
      rw [RCBeam.height_zero, RCBeam.height_zero]; norm_num [bar]⟩
    fc hfc _ rfl (by rw [hδ]; norm_num) _ rfl E E' hE hE' _ rfl
  rw [hδ, hroot] at hmain
  have hW0 := weight_nonneg (normalParts fc shapes) 0
  have hW1 := weight_nonneg (normalParts fc shapes) 1
  have hsmall : 0.1 / ((k:ℝ) + 1) ≤ 0.1 := div_le_self (by norm_num) hk
  have hpos : 0 ≤ 0.1 / ((k:ℝ) + 1) := by positivity
  have hm : (1.52e13 + 2 * (0.1 / ((k:ℝ) + 1) * weight (normalParts fc shapes) 0)) * 1e-13 ≤ 1.6 := by
    have := mul_le_mul hsmall w0 hW0 (by norm_num)
    norm_num at *
    linarith
  obtain ⟨n, hn, hnC⟩ : (Set.Ioc (0.8:ℝ) 1 \ C).Nonempty := by
    have hnc : ¬ (Set.Ioc (0.8:ℝ) 1).Countable := fun h => by
      have := h.measure_zero volume
      rw [Real.volume_Ioc] at this
      norm_num at this
    by_contra hcon
    rw [Set.not_nonempty_iff_eq_empty, Set.sdiff_eq_empty] at hcon
    exact hnc (hC.mono hcon)
  obtain ⟨b, b', h1, h2, h3⟩ := hmain n [] [] hnC (Or.inl rfl) trivial trivial (by
    have := hn.1
    norm_num at *
    linarith) (by
    have := hn.2
    norm_num at *
    linarith)
  refine ⟨n, hn, b, b', h1, h2, ?_⟩
  have e : bendingMoment 0 ![b.n, b.m.1, b.m.2] - bendingMoment 0 ![b'.n, b'.m.1, b'.m.2] = -(b.m.1 - b'.m.1) := by
    simp only [bendingMoment, Real.cos_zero, Real.sin_zero, Matrix.cons_val, mul_one, mul_zero, add_zero]
    ring
  rw [e, abs_neg] at h3
  refine h3.trans ?_
  have hw : momentWeight (normalParts fc shapes) 0 0.0035 (designUltimate scls sargs) 450 250 ≤ 2e11 := by
    simp only [momentWeight, Real.cos_zero, Real.sin_zero, abs_one, abs_zero, zero_mul, add_zero, one_mul]
    have e1 : (0.0035 + designUltimate scls sargs) / 450 ≤ 0.0535 / 450 := by
      rw [div_le_div_iff_of_pos_right (by norm_num)]
      have := hu.2
      norm_num at *
      linarith
    have e2 : 250 * weight (normalParts fc shapes) 0 + weight (normalParts fc shapes) 1 ≤ 1.65e15 := by
      norm_num at *
      linarith
    refine (mul_le_mul e1 e2 (by positivity) (by norm_num)).trans (by norm_num)
  have h4 := mul_le_mul_of_nonneg_right hw hpos
  have e5 : (2e11:ℝ) * (0.1 / ((k:ℝ) + 1)) = 2e10 / ((k:ℝ) + 1) := by
    rw [mul_div_assoc']; norm_num
  rw [e5] at h4
  norm_num at *
  linarith

end SC.OrdinaryBeam
