import Verif.Props.FiberMotionDomain
import Verif.Props.FiberMotionExample
import Verif.Props.FiberDomainExample

/-! # C93: the complete domain of the beam shifted by 1 m and 2 m, with finer and finer cells -/

set_option autoImplicit false

namespace SC.OrdinaryBeam

open Spec MeasureTheory MeshedConcrete

variable {lower : String → String}

/-- The hypotheses of `C93_domain_partial` hold together for every combination of classes and every mesh of squares: both domains have
68 points, and the axial forces of the shifted beam are those of the beam up to errors that vanish with the size of the squares. -/
example (hl : PyLower lower) (ccls : ConcClass) (scls : SteelClass) (lu : Matrix (Fin 3) (Fin 3) ℝ → (Fin 3 → ℝ) → (Fin 3 → ℝ)) :
    ∃ c s, newConcrete lower ccls (defaultArgs 30) = some (.ok c) ∧ newSteel lower scls sargs = some (.ok s) ∧
    ∃ K : ℝ, ∀ (k : ℕ) (E E' : Engine),
      E = engine (fun _ => []) (normalMeshed (designConcrete ccls (defaultArgs 30)) shapes 7 fun _ _ => fineMesh k) (bars s.mat.law)
        (fineSize k) →
      E' = engine (fun _ => []) (normalMeshed (designConcrete ccls (defaultArgs 30)) (shapes.map (movedShape away)) 3
        fun _ _ => awayMesh k) ((bars s.mat.law).map (Bar.moved away)) (fineSize k) →
    ∃ (pts pts' : List (Fin 3 → ℝ)), pts.length = 68 ∧
      (nmDomain E ((nmProfiles E.balanced (sectionMinY (shapes.map Prod.fst)) true 0 defaultNum
        ![.linear, .linear, .geometric, .linear, .linear, .linear] true).map Prod.fst) (history E lu [] .fresh)).2 = .ok (pts.map .forces) ∧
      (nmDomain E' ((nmProfiles E'.balanced (sectionMinY ((shapes.map (movedShape away)).map Prod.fst)) true 0 defaultNum
        ![.linear, .linear, .geometric, .linear, .linear, .linear] true).map Prod.fst) (history E' lu [] .fresh)).2 =
          .ok (pts'.map .forces) ∧
      List.Forall₂ (fun f f' => |f' 0 - f 0| ≤ K / ((k:ℝ) + 1) ∧ |f' 1 - (f 1 + 2000 * f 0)| ≤ K / ((k:ℝ) + 1)) pts pts' := by
  obtain ⟨c, s, hc, hs⟩ := accepted hl ccls scls
  have hu := ultimate_range scls
  have hy := yield_range
  have hinc : away.inclination 0 = 0 := by simp [Motion.inclination, away, Motion.sign]
  set fc := designConcrete ccls (defaultArgs 30) with hfc
  set q := (0.0035 + designUltimate scls sargs) / 450 with hq
  have hq0 : 0 ≤ q := div_nonneg (by linarith [hu.1]) (by norm_num)
  set W := weight (normalParts fc shapes) with hW
  set W' := weight (normalParts fc (shapes.map (movedShape away))) with hW'
  have hw : ∀ i, 0 ≤ W i := fun i => weight_nonneg _ _
  have hw' : ∀ i, 0 ≤ W' i := fun i => weight_nonneg _ _
  refine ⟨c, s, hc, hs, 0.1 * (q * (W' 0 + W' 1 + W 1 + W 2 + 3001 * W 0)), fun k E E' hE hE' => ?_⟩
  have hk : (1:ℝ) ≤ (k:ℝ) + 1 := by linarith [(Nat.cast_nonneg k : (0:ℝ) ≤ k)]
  have hk2 : (1:ℝ) ≤ ((k:ℝ) + 1) ^ 2 := by nlinarith
  have hms0 : 0 < fineSize k := by rw [fineSize]; positivity
  have hms1 : fineSize k ≤ 1 := by
    rw [fineSize, div_le_one (by positivity)]; linarith
  have hmv : ∀ p ∈ shapes.map (movedShape away), p.2 = Set.Icc (850:ℝ) 1150 ×ˢ Set.Icc (1750:ℝ) 2250 ∧ areaMoment 0 0 p.2 = 150000 := by
    intro p hp
    obtain ⟨q, hq, rfl⟩ := List.mem_map.1 hp
    rw [List.mem_singleton.1 hq]
    exact ⟨away_region, (areaMoment_moved away RCBeam.ok.encloses.measurable).trans rect_area⟩
  obtain ⟨planes, labels, pts, pts', h1, -, h3, h3', hlen, h5⟩ := C93_domain_partial hl ccls (defaultArgs 30) c hc rfl ⟨rfl, rfl⟩ ⟨rfl, rfl, rfl⟩
    (fun _ => by norm_num [defaultArgs, abs_of_pos]) scls sargs s hs rfl ⟨rfl, rfl⟩ (gap scls) (by norm_num at *; linarith)
    ⟨by linarith [hu.1], by linarith [hu.2]⟩ RCBeam.split awaySplit (fun _ => []) (fun _ => []) hms0 hms1 hms0 hms1 0 lu lu away
    shapes (bars s.mat.law) 1 (one_steel _) 7 3 (fun _ _ => fineMesh k) (fun _ _ => awayMesh k)
    (by intro p hp; rw [List.mem_singleton.1 hp, rect_area]; exact fineMesh_ok k)
    (by intro p hp; rw [(hmv p hp).2, (hmv p hp).1]; exact awayMesh_ok k)
    (by intro p hp; rw [List.mem_singleton.1 hp]; exact RCBeam.ok.encloses)
    (by intro p hp; rw [List.mem_singleton.1 hp]; exact hull)
    cuts (by rw [hinc]; exact away_cuts) (by simpa using direction s.mat.law true)
    (by rw [hinc, RCBeam.height_zero]; norm_num [away]) true
    (fun _ => ⟨by simpa using direction s.mat.law false, by rw [hinc, RCBeam.height_zero]; norm_num [away]⟩) (D := 450) (by norm_num)
    ⟨bar s.mat.law (-110) (-200), by simp [bars], _, List.mem_singleton.2 rfl, (150, 250), by simp [rectRing, closeRing], by
      rw [RCBeam.height_zero, RCBeam.height_zero]; norm_num [bar]⟩
    (fun _ => ⟨bar s.mat.law (-110) 200, by simp [bars], _, List.mem_singleton.2 rfl, (150, -250), by simp [rectRing, closeRing], by
      rw [RCBeam.height_zero, RCBeam.height_zero]; norm_num [bar]⟩)
    defaultNum ![.linear, .linear, .geometric, .linear, .linear, .linear] default_args _ rfl E E' hE hE' [] [] (Or.inl rfl) (Or.inl rfl)
    trivial trivial _ _ rfl rfl
  rw [hinc] at h3'
  refine ⟨pts, pts', ?_, h3, h3', h5.imp fun f f' hf => ?_⟩
  · rw [hlen, (C38_domain_count _ _ _ _ _ _ _ _ _ h1).2]
    simp [Fin.sum_univ_succ, defaultNum]
  · have a0 := hf 0
    have a1 := hf 1
    have e0 : away.forces f 0 = f 0 := by simp [Motion.forces]
    have e1 : away.forces f 1 = f 1 + 2000 * f 0 := by
      simp [Motion.forces, Motion.turn, Motion.sign, away]; ring
    rw [e0] at a0
    rw [e1] at a1
    have x1 : |away.shift.1| = 1000 := by simp [away]
    have x2 : |away.shift.2| = 2000 := by simp [away]
    simp only [x1, x2, fineSize_root, ← hW, ← hW', ← hq] at a0 a1
    have hd : 0 < 0.1 / ((k:ℝ) + 1) := by positivity
    have eK : ∀ x : ℝ, 0.1 * (q * x) / ((k:ℝ) + 1) = q * (0.1 / ((k:ℝ) + 1)) * x := by intro x; ring
    have hp : 0 ≤ q * (0.1 / ((k:ℝ) + 1)) := by positivity
    rw [eK]
    constructor
    · refine a0.trans (le_of_eq_of_le ?_ (mul_le_mul_of_nonneg_left (show W' 0 + W 1 + W 2 + 3001 * W 0 ≤ _ by linarith [hw' 1]) hp))
      ring
    · refine a1.trans (le_of_eq_of_le ?_ (mul_le_mul_of_nonneg_left (show W' 1 + W 1 + W 2 + 3001 * W 0 ≤ _ by linarith [hw' 0]) hp))
      ring

end SC.OrdinaryBeam
