import Verif.Props.FiberScaleDesign
import Verif.Props.FiberCompareExample
import Verif.Props.OrdinaryExample

/-! # C93 for the beam of C73 and the beam of twice the size -/

set_option autoImplicit false

namespace SC.OrdinaryBeam

open Spec MeasureTheory MeshedConcrete

variable {lower : String → String}

theorem weight_scaled (sc : Scale) (fc : ℝ) (shapes : List (Polygon × Set (ℝ × ℝ))) :
    weight (normalParts fc (shapes.map (scaledShape sc))) 0 = sc.len ^ 3 * weight (normalParts fc shapes) 0 := by
  have hl := sc.len_pos
  have hint : ∀ R : Set (ℝ × ℝ), (∫ x in R, |lever x.1 x.2 0|) = areaMoment 0 0 R := by
    intro R; simp [lever, areaMoment]
  simp only [weight, normalParts, List.map_map]
  rw [mul_left_comm]
  congr 1
  rw [← List.sum_map_mul_left]
  congr 1
  refine List.map_congr_left fun p _ => ?_
  simp only [Function.comp_apply, scaledShape, hint, areaMoment_scaled]
  rw [show 8 * (sc.len ^ (0 + 0 + 2) * areaMoment 0 0 p.2) = sc.len ^ 2 * (8 * areaMoment 0 0 p.2) by ring,
    Real.sqrt_mul (sq_nonneg _), Real.sqrt_sq hl.le]
  ring

/-- Squares of the beam of twice the size. -/
noncomputable def twiceMesh (k : ℕ) : List ((ℝ × ℝ) × (ℝ × ℝ) × (ℝ × ℝ)) :=
  cellGrid (-300) (-500) (100 / (k + 1)) (6 * k + 5) (10 * k + 9)

theorem twiceMesh_ok (k : ℕ) : Triangulates (twiceMesh k) (Set.Icc (-300:ℝ) 300 ×ˢ Set.Icc (-500:ℝ) 500) ∧
    Quality (600000 * (0.01 / ((k:ℝ) + 1) ^ 2)) (twiceMesh k) := by
  have hk : (0:ℝ) < (k:ℝ) + 1 := by positivity
  constructor
  · have h := cellGrid_triangulates (-300) (-500) (100 / ((k:ℝ) + 1)) (by positivity) (6 * k + 5) (10 * k + 9)
    have e : box (-300) (-500) (((6 * k + 5 : ℕ) + 1) * (100 / ((k:ℝ) + 1))) (((10 * k + 9 : ℕ) + 1) * (100 / ((k:ℝ) + 1))) =
        Set.Icc (-300:ℝ) 300 ×ˢ Set.Icc (-500:ℝ) 500 := by
      have e1 : (((6 * k + 5 : ℕ):ℝ) + 1) * (100 / ((k:ℝ) + 1)) = 600 := by push_cast; field_simp; ring
      have e2 : (((10 * k + 9 : ℕ):ℝ) + 1) * (100 / ((k:ℝ) + 1)) = 1000 := by push_cast; field_simp; ring
      rw [e1, e2]
      simp only [box]
      norm_num
    rw [e] at h
    exact h
  · refine cellGrid_quality _ _ _ _ (by positivity) ?_ _ _
    rw [div_pow]
    have h2 : (0:ℝ) < ((k:ℝ) + 1) ^ 2 := by positivity
    rw [div_div, mul_div_assoc', div_le_div_iff₀ (by positivity) h2]
    nlinarith

/-- The meshes of both beams get finer: the strength of the beam of twice the size is eight times the strength, up to 25 Nmm (the
tolerances of the axial force) and an error that vanishes with the size of the cells. -/
example (hl : PyLower lower) (ccls : ConcClass) (scls : SteelClass) :
    ∃ c s, newConcrete lower ccls (defaultArgs 30) = some (.ok c) ∧ newSteel lower scls sargs = some (.ok s) ∧
    ∃ K : ℝ, ∀ k : ℕ, ∃ n ∈ Set.Ioc (0:ℝ) 1, ∃ b b' : BendingResult,
      FibreResult (fun _ => []) (normalMeshed (designConcrete ccls (defaultArgs 30)) shapes 7 fun _ _ => fineMesh k) (bars s.mat.law)
        (fineSize k) 0 n b ∧
      FibreResult (fun _ => []) (normalMeshed (designConcrete ccls (defaultArgs 30))
        [(⟨rectRing (-300) 300 (-500) 500, []⟩, Set.Icc (-300) 300 ×ˢ Set.Icc (-500) 500)] 3 fun _ _ => twiceMesh k)
        ((bars s.mat.law).map fun b => ⟨2 * b.x, 2 * b.y, 4 * b.area, b.law⟩) (fineSize k) 0 (4 * n) b' ∧
      |bendingMoment 0 ![b'.n, b'.m.1, b'.m.2] - 8 * bendingMoment 0 ![b.n, b.m.1, b.m.2]| ≤ 25 + K / ((k:ℝ) + 1) := by
  obtain ⟨c, s, hc, hs⟩ := accepted hl ccls scls
  have hu := ultimate_range scls
  have htl : twice.len = 2 := rfl
  have htw : shapes.map (scaledShape twice) =
      [(⟨rectRing (-300) 300 (-500) 500, []⟩, Set.Icc (-300) 300 ×ˢ Set.Icc (-500) 500)] := by
    simp only [shapes, List.map_cons, List.map_nil, scaledShape, twice_ring, twice_region]
  set fc := designConcrete ccls (defaultArgs 30) with hfc
  refine ⟨c, s, hc, hs, 0.1 * (8 * momentWeight (normalParts fc shapes) 0 0.0035 (designUltimate scls sargs) 450 250 +
    momentWeight (normalParts fc (shapes.map (scaledShape twice))) 0 0.0035 (designUltimate scls sargs) (2 * 450) (2 * 250)), fun k => ?_⟩
  have hk : (1:ℝ) ≤ (k:ℝ) + 1 := by linarith [(Nat.cast_nonneg k : (0:ℝ) ≤ k)]
  have hk2 : (1:ℝ) ≤ ((k:ℝ) + 1) ^ 2 := by nlinarith
  have hall : ∀ b ∈ bars s.mat.law, b.law = ⟨1, s.mat.law⟩ ∧ b.area = 500 := by
    intro b hb
    simp only [bars, bar, List.mem_cons, List.not_mem_nil, or_false] at hb
    rcases hb with rfl | rfl | rfl | rfl <;> exact ⟨rfl, rfl⟩
  obtain ⟨-, a2, a3⟩ := margins_wide hl ccls scls s hs _ rfl _ rfl
  have hfcb := concrete_range ccls
  rw [← hfc] at hfcb a2 a3
  obtain ⟨w0, -⟩ := weight_bounds ccls
  rw [← hfc] at w0
  have hEs : |sargs.Es| = 200000 := by norm_num [sargs, steelArgs]
  have hmax : max (2 * |fc| / 0.002) |sargs.Es| = 200000 := by
    rw [hEs, abs_of_pos hfcb.1]
    refine max_eq_right ?_
    rw [div_le_iff₀ (by norm_num)]
    linarith [hfcb.2]
  set δ := max (2 * |fc| / 0.002) |sargs.Es| * ((shapes.map fun p => areaMoment 0 0 p.2).sum +
      ((bars s.mat.law).map fun b => |b.area|).sum) * 500 with hδd
  have hδ : δ ≤ 1.53e13 := by
    rw [hδd, hmax]
    simp only [shapes, bars, bar, List.map_cons, List.map_nil, List.sum_cons, List.sum_nil, rect_area]
    norm_num
  have hms0 : 0 < fineSize k := by rw [fineSize]; positivity
  have hms1 : fineSize k ≤ 1 := by
    rw [fineSize, div_le_one (by positivity)]; linarith
  have hsmall : √(fineSize k) ≤ 0.1 := by
    rw [fineSize_root]; exact div_le_self (by norm_num) hk
  have hw := weight_nonneg (normalParts fc shapes) 0
  have hprod : √(fineSize k) * weight (normalParts fc shapes) 0 ≤ 0.1 * 3.3e12 := mul_le_mul hsmall w0 hw (by norm_num)
  have hmv : ∀ p ∈ shapes.map (scaledShape twice), p.2 = Set.Icc (-300:ℝ) 300 ×ˢ Set.Icc (-500:ℝ) 500 ∧ areaMoment 0 0 p.2 = 600000 := by
    intro p hp
    obtain ⟨q, hq, rfl⟩ := List.mem_map.1 hp
    rw [List.mem_singleton.1 hq]
    refine ⟨twice_region, ?_⟩
    simp only [scaledShape, areaMoment_scaled, rect_area, htl]
    norm_num
  obtain ⟨C, hC, hmain⟩ := C93_scaled_design_partial hl ccls (defaultArgs 30) c hc rfl ⟨rfl, rfl⟩ ⟨rfl, rfl, rfl⟩
    (fun _ => by norm_num [defaultArgs, abs_of_pos]) scls sargs s hs rfl ⟨rfl, rfl⟩ (gap scls) ⟨by linarith [hu.1], by linarith [hu.2]⟩
    (fun _ => []) (fun _ => []) hms0 hms1 hms0 hms1 0 shapes (bars s.mat.law) 1 (fun b hb => (hall b hb).1)
    (fun b hb => by rw [(hall b hb).2]; norm_num) 7 3 (fun _ _ => fineMesh k) (fun _ _ => twiceMesh k) twice rfl
    (by intro p hp; rw [List.mem_singleton.1 hp, rect_area]; exact fineMesh_ok k)
    (by intro p hp; rw [(hmv p hp).2, (hmv p hp).1]; exact twiceMesh_ok k)
    (by intro p hp; rw [List.mem_singleton.1 hp]; exact RCBeam.ok.encloses)
    (by intro p hp; rw [List.mem_singleton.1 hp]; exact hull)
    (geometry _) (geometry _) (by norm_num [twice]) (by norm_num [twice]) (R := 250) (D := 450) (by
      intro p hp v hv
      rw [List.mem_singleton.1 hp] at hv
      rw [RCBeam.height_zero]
      rcases mem_ring hv with rfl | rfl | rfl | rfl <;> norm_num [abs_le]) (by norm_num)
    ⟨bar s.mat.law (-110) (-200), by simp [bars], _, List.mem_singleton.2 rfl, (150, 250),
      by simp [rectRing, closeRing], by rw [RCBeam.height_zero, RCBeam.height_zero]; norm_num [bar]⟩
    _ rfl δ hδd (hδ.trans (by norm_num)) (by rw [htl]; linarith) _ rfl 90
    (by
      rw [← hfc]
      have : (1.53e13 + 2 * (0.1 * 3.3e12) : ℝ) * 1e-13 ≤ 90 := by norm_num
      refine le_trans (mul_le_mul_of_nonneg_right ?_ (by norm_num)) this
      linarith) (by
      rw [← hfc, weight_scaled, htl]
      have : (2 ^ 3 * 1.53e13 + 2 * (8 * (0.1 * 3.3e12)) : ℝ) * 1e-13 ≤ 2 ^ 2 * 90 := by norm_num
      refine le_trans (mul_le_mul_of_nonneg_right ?_ (by norm_num)) this
      linarith)
  obtain ⟨n, hn, hnC⟩ := avoid hC (show (0:ℝ) < 1 by norm_num)
  have hn1 := hn.1
  have hn2 := hn.2
  obtain ⟨b, b', r, r', -, -, key⟩ := hmain n hnC (by linarith) (by linarith)
  rw [← hfc, htw] at r'
  simp only [htl] at r' key
  rw [show (2:ℝ) ^ 2 = 4 by norm_num] at r'
  refine ⟨n, hn, b, b', r, r', ?_⟩
  rw [← hfc, fineSize_root] at key
  norm_num at key ⊢
  refine key.trans (le_of_eq ?_)
  ring

end SC.OrdinaryBeam
