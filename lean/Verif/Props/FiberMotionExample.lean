import Verif.Props.FiberMotionDesign
import Verif.Props.FiberCompareExample
import Verif.Props.DomainShiftExample

/-! # C93 for the beam of C73, shifted by 1 m and 2 m -/

set_option autoImplicit false

namespace SC.OrdinaryBeam

open Spec MeasureTheory MeshedConcrete

variable {lower : String → String}

/-- Squares of the shifted beam. -/
noncomputable def awayMesh (k : ℕ) : List ((ℝ × ℝ) × (ℝ × ℝ) × (ℝ × ℝ)) :=
  cellGrid 850 1750 (50 / (k + 1)) (6 * k + 5) (10 * k + 9)

theorem awayMesh_ok (k : ℕ) : Triangulates (awayMesh k) (Set.Icc (850:ℝ) 1150 ×ˢ Set.Icc (1750:ℝ) 2250) ∧
    Quality (150000 * (0.01 / ((k:ℝ) + 1) ^ 2)) (awayMesh k) := by
  have hk : (0:ℝ) < (k:ℝ) + 1 := by positivity
  constructor
  · have h := cellGrid_triangulates 850 1750 (50 / ((k:ℝ) + 1)) (by positivity) (6 * k + 5) (10 * k + 9)
    have e : box 850 1750 (((6 * k + 5 : ℕ) + 1) * (50 / ((k:ℝ) + 1))) (((10 * k + 9 : ℕ) + 1) * (50 / ((k:ℝ) + 1))) =
        Set.Icc (850:ℝ) 1150 ×ˢ Set.Icc (1750:ℝ) 2250 := by
      have e1 : (((6 * k + 5 : ℕ):ℝ) + 1) * (50 / ((k:ℝ) + 1)) = 300 := by push_cast; field_simp; ring
      have e2 : (((10 * k + 9 : ℕ):ℝ) + 1) * (50 / ((k:ℝ) + 1)) = 500 := by push_cast; field_simp; ring
      rw [e1, e2]
      simp only [box]
      norm_num
    rw [e] at h
    exact h
  · refine cellGrid_quality _ _ _ _ (by positivity) ?_ _ _
    rw [div_pow]
    have h2 : (0:ℝ) < ((k:ℝ) + 1) ^ 2 := by positivity
    rw [div_div, mul_div_assoc', div_le_div_iff₀ (by positivity) h2]
    nlinarith

theorem away_geometry (L : Law) : RCGeometry 0 (shapes.map (movedShape away)) (((bars L).map fun b => (b.x, b.y)).map away.point) 500 := by
  have := (geometry L).moved away
  simpa [Motion.inclination, away, Motion.sign] using this

/-- The meshes of both beams get finer: the moments of the shifted beam are those of the beam, plus those of the axial force, up to
45 Nmm (that is 2.25 m times the tolerance of the axial force, twice) and an error that vanishes with the size of the squares. -/
example (hl : PyLower lower) (ccls : ConcClass) (scls : SteelClass) :
    ∃ c s, newConcrete lower ccls (defaultArgs 30) = some (.ok c) ∧ newSteel lower scls sargs = some (.ok s) ∧
    ∃ K : ℝ, ∀ k : ℕ, ∃ n ∈ Set.Ioc (0.8:ℝ) 1, ∃ b b' : BendingResult,
      FibreResult (fun _ => []) (fineBeam ccls k) (bars s.mat.law) (fineSize k) 0 n b ∧
      FibreResult (fun _ => []) (normalMeshed (designConcrete ccls (defaultArgs 30)) (shapes.map (movedShape away)) 3 fun _ _ => awayMesh k)
        ((bars s.mat.law).map (Bar.moved away)) (fineSize k) 0 n b' ∧
      |b'.m.1 - (b.m.1 + 2000 * b.n)| ≤ 45 + K / ((k:ℝ) + 1) := by
  obtain ⟨c, s, hc, hs⟩ := accepted hl ccls scls
  have hu := ultimate_range scls
  have hinc : away.inclination 0 = 0 := by simp [Motion.inclination, away, Motion.sign]
  have hz : height 0 away.shift = 2000 := by rw [RCBeam.height_zero]; rfl
  set fc := designConcrete ccls (defaultArgs 30) with hfc
  refine ⟨c, s, hc, hs, 0.1 * (momentWeight (normalParts fc shapes) 0 0.0035 (designUltimate scls sargs) 450 (2250 + |2000|) +
    momentWeight (normalParts fc (shapes.map (movedShape away))) 0 0.0035 (designUltimate scls sargs) 450 2250), fun k => ?_⟩
  have hk : (1:ℝ) ≤ (k:ℝ) + 1 := by linarith [(Nat.cast_nonneg k : (0:ℝ) ≤ k)]
  have hk2 : (1:ℝ) ≤ ((k:ℝ) + 1) ^ 2 := by nlinarith
  have hall : ∀ b ∈ bars s.mat.law, b.law = ⟨1, s.mat.law⟩ ∧ b.area = 500 := by
    intro b hb
    simp only [bars, bar, List.mem_cons, List.not_mem_nil, or_false] at hb
    rcases hb with rfl | rfl | rfl | rfl <;> exact ⟨rfl, rfl⟩
  obtain ⟨-, a2, a3⟩ := margins_bars hl ccls scls s hs (bars s.mat.law) hall (by simp [bars]) (by simp [bars])
  have hfcb := concrete_range ccls
  rw [← hfc] at hfcb a2 a3
  obtain ⟨w0, -⟩ := weight_bounds ccls
  rw [← hfc] at w0
  have hEs : |sargs.Es| = 200000 := by norm_num [sargs, steelArgs]
  have hmax : max (2 * |fc| / 0.002) |sargs.Es| = 200000 := by
    rw [hEs, abs_of_pos hfcb.1]
    refine max_eq_right ?_
    rw [div_le_iff₀ (by norm_num)]
    linarith [hfcb.2]
  have hδ : max (2 * |fc| / 0.002) |sargs.Es| * ((shapes.map fun p => areaMoment 0 0 p.2).sum +
      ((bars s.mat.law).map fun b => |b.area|).sum) * 500 ≤ 1.53e13 := by
    rw [hmax]
    simp only [shapes, bars, bar, List.map_cons, List.map_nil, List.sum_cons, List.sum_nil, rect_area]
    norm_num
  have hms0 : 0 < fineSize k := by rw [fineSize]; positivity
  have hms1 : fineSize k ≤ 1 := by
    rw [fineSize, div_le_one (by positivity)]; linarith
  have hsmall : √(fineSize k) ≤ 0.1 := by
    rw [fineSize_root]; exact div_le_self (by norm_num) hk
  have hmv : ∀ p ∈ shapes.map (movedShape away), p.2 = Set.Icc (850:ℝ) 1150 ×ˢ Set.Icc (1750:ℝ) 2250 ∧ areaMoment 0 0 p.2 = 150000 := by
    intro p hp
    obtain ⟨q, hq, rfl⟩ := List.mem_map.1 hp
    rw [List.mem_singleton.1 hq]
    exact ⟨away_region, (areaMoment_moved away RCBeam.ok.encloses.measurable).trans rect_area⟩
  obtain ⟨C, hC, hmain⟩ := C93_design_partial hl ccls (defaultArgs 30) c hc rfl ⟨rfl, rfl⟩ ⟨rfl, rfl, rfl⟩
    (fun _ => by norm_num [defaultArgs, abs_of_pos]) scls sargs s hs rfl ⟨rfl, rfl⟩ (gap scls) ⟨by linarith [hu.1], by linarith [hu.2]⟩
    (fun _ => []) (fun _ => []) hms0 hms1 hms0 hms1 0 shapes (bars s.mat.law) 1 (fun b hb => (hall b hb).1)
    (fun b hb => by rw [(hall b hb).2]; norm_num) 7 3 (fun _ _ => fineMesh k) (fun _ _ => awayMesh k) away
    (by intro p hp; rw [List.mem_singleton.1 hp, rect_area]; exact fineMesh_ok k)
    (by intro p hp; rw [(hmv p hp).2, (hmv p hp).1]; exact awayMesh_ok k)
    (by intro p hp; rw [List.mem_singleton.1 hp]; exact RCBeam.ok.encloses)
    (by intro p hp; rw [List.mem_singleton.1 hp]; exact hull)
    (geometry _) (away_geometry _) (geometry _) (R := 250) (R' := 2250) (D := 450) (by
      intro p hp v hv
      rw [List.mem_singleton.1 hp] at hv
      rw [RCBeam.height_zero]
      rcases mem_ring hv with rfl | rfl | rfl | rfl <;> norm_num) (by
      intro p hp v hv
      rw [List.mem_singleton.1 hp] at hv
      rw [hinc, RCBeam.height_zero, away_point]
      rcases mem_ring hv with rfl | rfl | rfl | rfl <;> norm_num [abs_of_pos]) (by norm_num)
    ⟨bar s.mat.law (-110) (-200), by simp [bars], _, List.mem_singleton.2 rfl, (150, 250),
      by simp [rectRing, closeRing], by rw [RCBeam.height_zero, RCBeam.height_zero]; norm_num [bar]⟩
    _ rfl _ rfl (hδ.trans (by norm_num)) _ rfl _ rfl
  obtain ⟨n, hn, hnC⟩ := avoid hC (show (0.8:ℝ) < 1 by norm_num)
  have hm : (max (2 * |fc| / 0.002) |sargs.Es| * ((shapes.map fun p => areaMoment 0 0 p.2).sum +
      ((bars s.mat.law).map fun b => |b.area|).sum) * 500 +
      2 * (max √(fineSize k) √(fineSize k) * weight (normalParts fc shapes) 0)) * 1e-13 ≤ 1.6 := by
    rw [max_self]
    have h1 := mul_le_mul hsmall w0 (weight_nonneg _ _) (by norm_num)
    have h2 : (1.53e13 + 2 * (0.1 * 3.3e12) : ℝ) * 1e-13 ≤ 1.6 := by norm_num
    refine le_trans (mul_le_mul_of_nonneg_right ?_ (by norm_num)) h2
    linarith
  have hn1 := hn.1
  have hn2 := hn.2
  obtain ⟨b, b', r, r', -, -, key⟩ := hmain n hnC (by
    have h3 : (-1:ℝ) + 1.6 < 0.8 := by norm_num
    linarith) (by
    norm_num at a3 hm hn2 ⊢
    linarith)
  rw [hinc] at r' key
  refine ⟨n, hn, b, b', r, r', ?_⟩
  have e1 : bendingMoment 0 ![b'.n, b'.m.1, b'.m.2] - bendingMoment 0 (away.forces ![b.n, b.m.1, b.m.2]) =
      -(b'.m.1 - (b.m.1 + 2000 * b.n)) := by
    simp [bendingMoment, Motion.forces, Motion.turn, Motion.sign, away]
    ring
  rw [e1, abs_neg, fineSize_root, hz] at key
  have e2 : ∀ x y : ℝ, 0.1 * (x + y) / ((k:ℝ) + 1) = x * (0.1 / ((k:ℝ) + 1)) + y * (0.1 / ((k:ℝ) + 1)) := by
    intro x y; ring
  rw [e2]
  refine key.trans (add_le_add_left ?_ _)
  norm_num

end SC.OrdinaryBeam
