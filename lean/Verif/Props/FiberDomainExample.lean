import Verif.Props.FiberDomain
import Verif.Props.FiberDesignExample
import Verif.Props.OrdinaryDomainExample

/-! # C91: the complete domain of the beam with finer and finer cells -/

set_option autoImplicit false

namespace SC.OrdinaryBeam

open Spec MeasureTheory MeshedConcrete

variable {lower : String → String}

/-- The hypotheses of `C91_design_partial` hold together for every combination of classes and every mesh of squares: the fibre
integrator returns 68 points, whose axial forces and moments converge to those of the section as the squares get smaller. -/
example (hl : PyLower lower) (ccls : ConcClass) (scls : SteelClass) (lu : Matrix (Fin 3) (Fin 3) ℝ → (Fin 3 → ℝ) → (Fin 3 → ℝ)) :
    ∃ c s, newConcrete lower ccls (defaultArgs 30) = some (.ok c) ∧ newSteel lower scls sargs = some (.ok s) ∧
    ∃ S : CrossSection, S = concreteSection (normalParts (designConcrete ccls (defaultArgs 30)) shapes) (bars s.mat.law) ∧
    ∀ (k : ℕ) (E : Engine),
      E = engine (fun _ => []) (normalMeshed (designConcrete ccls (defaultArgs 30)) shapes 7 fun _ _ => fineMesh k) (bars s.mat.law)
        (0.01 / ((k:ℝ) + 1) ^ 2) →
    ∃ (planes pts : List (Fin 3 → ℝ)), pts.length = 68 ∧
      (nmDomain E ((nmProfiles E.balanced (sectionMinY (shapes.map Prod.fst)) true 0 defaultNum
        ![.linear, .linear, .geometric, .linear, .linear, .linear] true).map Prod.fst) (history E lu [] .fresh)).2 = .ok (pts.map .forces) ∧
      List.Forall₂ (fun v f => |S.forces v 0 - f 0| ≤ 4e7 / ((k:ℝ) + 1) ∧ |S.forces v 1 - f 1| ≤ 1e10 / ((k:ℝ) + 1)) planes pts := by
  obtain ⟨c, s, hc, hs⟩ := accepted hl ccls scls
  refine ⟨c, s, hc, hs, _, rfl, fun k E hE => ?_⟩
  have hk : (1:ℝ) ≤ (k:ℝ) + 1 := by linarith [(Nat.cast_nonneg k : (0:ℝ) ≤ k)]
  have hk2 : (1:ℝ) ≤ ((k:ℝ) + 1) ^ 2 := by nlinarith
  have hu := ultimate_range scls
  have hy := yield_range
  obtain ⟨w0, w1⟩ := weight_bounds ccls
  have hroot : √(0.01 / ((k:ℝ) + 1) ^ 2) = 0.1 / ((k:ℝ) + 1) := by
    rw [show (0.01:ℝ) / ((k:ℝ) + 1) ^ 2 = (0.1 / ((k:ℝ) + 1)) ^ 2 by rw [div_pow]; norm_num, Real.sqrt_sq (by positivity)]
  have hms0 : (0:ℝ) < 0.01 / ((k:ℝ) + 1) ^ 2 := by positivity
  have hms1 : (0.01:ℝ) / ((k:ℝ) + 1) ^ 2 ≤ 1 := by
    rw [div_le_one (by positivity)]; linarith
  obtain ⟨-, planes, labels, pts, h1, -, h3, -, h5⟩ := C91_design_partial hl ccls (defaultArgs 30) c hc rfl ⟨rfl, rfl⟩ ⟨rfl, rfl, rfl⟩
    (fun _ => by norm_num [defaultArgs, abs_of_pos]) scls sargs s hs rfl ⟨rfl, rfl⟩ (gap scls) (by norm_num at *; linarith)
    ⟨by linarith [hu.1], by linarith [hu.2]⟩ RCBeam.split (fun _ => []) hms0 hms1 0.01 0 lu lu shapes (bars s.mat.law) 1 (one_steel _)
    7 (fun _ _ => fineMesh k) (by intro p hp; rw [List.mem_singleton.1 hp, rect_area]; exact fineMesh_ok k)
    (by intro p hp; rw [List.mem_singleton.1 hp]; exact RCBeam.ok.encloses)
    (by intro p hp; rw [List.mem_singleton.1 hp]; exact hull)
    cuts (by simpa using direction s.mat.law true) true (fun _ => by simpa using direction s.mat.law false) (D := 450) (by norm_num)
    ⟨bar s.mat.law (-110) (-200), by simp [bars], _, List.mem_singleton.2 rfl, (150, 250), by simp [rectRing, closeRing], by
      rw [RCBeam.height_zero, RCBeam.height_zero]; norm_num [bar]⟩
    (fun _ => ⟨bar s.mat.law (-110) 200, by simp [bars], _, List.mem_singleton.2 rfl, (150, -250), by simp [rectRing, closeRing], by
      rw [RCBeam.height_zero, RCBeam.height_zero]; norm_num [bar]⟩)
    defaultNum ![.linear, .linear, .geometric, .linear, .linear, .linear] default_args _ rfl _ rfl E _ hE rfl [] [] (Or.inl rfl) trivial trivial
  refine ⟨planes, pts, ?_, h3, h5.imp fun v f hf => ?_⟩
  · rw [← h5.length_eq, (C38_domain_count _ _ _ _ _ _ _ _ _ h1).2]
    simp [Fin.sum_univ_succ, defaultNum]
  · have a0 := hf.2 0
    have a1 := hf.2 1
    rw [hroot] at a0 a1
    have hc : (0.0035 + designUltimate scls sargs) / 450 ≤ 0.0535 / 450 := by
      rw [div_le_div_iff_of_pos_right (by norm_num)]
      linarith [hu.2]
    have hc0 : 0 ≤ 0.1 / ((k:ℝ) + 1) := by positivity
    have hb := mul_le_mul_of_nonneg_right hc hc0
    have hb0 : 0 ≤ 0.0535 / 450 * (0.1 / ((k:ℝ) + 1)) := by positivity
    constructor
    · refine a0.trans ((mul_le_mul hb w0 (weight_nonneg _ _) hb0).trans ?_)
      rw [show (0.0535:ℝ) / 450 * (0.1 / ((k:ℝ) + 1)) * 3.3e12 = 0.0535 / 450 * 0.1 * 3.3e12 / ((k:ℝ) + 1) by ring]
      exact div_le_div_of_nonneg_right (by norm_num) (by linarith)
    · refine a1.trans ((mul_le_mul hb w1 (weight_nonneg _ _) hb0).trans ?_)
      rw [show (0.0535:ℝ) / 450 * (0.1 / ((k:ℝ) + 1)) * 8.25e14 = 0.0535 / 450 * 0.1 * 8.25e14 / ((k:ℝ) + 1) by ring]
      exact div_le_div_of_nonneg_right (by norm_num) (by linarith)

/-- The My-Mz domain of the fibre integrator in pure bending, upper and lower face compressed. -/
example (hl : PyLower lower) (ccls : ConcClass) (scls : SteelClass) (lu : Matrix (Fin 3) (Fin 3) ℝ → (Fin 3 → ℝ) → (Fin 3 → ℝ)) :
    ∃ c s, newConcrete lower ccls (defaultArgs 30) = some (.ok c) ∧ newSteel lower scls sargs = some (.ok s) ∧
    ∀ E : Engine, E = engine (fun _ => []) (normalMeshed (designConcrete ccls (defaultArgs 30)) shapes 7 fun _ _ => fineMesh 0)
      (bars s.mat.law) defaultMesh → ∃ bs, (mmDomain E 1 [0, 0 + Real.pi] .fresh).2 = .ok bs ∧ bs.length = 2 := by
  obtain ⟨c, s, hc, hs⟩ := accepted hl ccls scls
  refine ⟨c, s, hc, hs, fun E hE => ?_⟩
  have hu := ultimate_range scls
  have hall : ∀ b ∈ bars s.mat.law, b.law = ⟨1, s.mat.law⟩ ∧ b.area = 500 := by
    intro b hb
    simp only [bars, bar, List.mem_cons, List.not_mem_nil, or_false] at hb
    rcases hb with rfl | rfl | rfl | rfl <;> exact ⟨rfl, rfl⟩
  obtain ⟨-, a2, a3⟩ := margins_bars hl ccls scls s hs (bars s.mat.law) hall (by simp [bars]) (by simp [bars])
  have hfcb := concrete_range ccls
  obtain ⟨w0, -⟩ := weight_bounds ccls
  obtain ⟨hult, hst, hlip⟩ := C73_steel hl scls sargs s hs rfl rfl rfl (gap scls)
  set fc := designConcrete ccls (defaultArgs 30) with hfc
  have hEs : |sargs.Es| = 200000 := by norm_num [sargs, steelArgs]
  set qs := normalMeshed fc shapes 7 (fun _ _ => fineMesh 0) with hqs
  have hpart : qs.map MeshedConcrete.part = normalParts fc shapes := normalMeshed_part ..
  have hq : ∀ q ∈ qs, ∃ p ∈ shapes, q = ⟨⟨p.1, p.2, fc, 0.002, 0.0035⟩, 7, fun _ => fineMesh 0⟩ := by
    intro q hq
    obtain ⟨p, hp, rfl⟩ := List.mem_map.1 hq
    exact ⟨p, hp, rfl⟩
  have g : ∀ th ∈ [(0:ℝ), 0 + Real.pi], OrdinaryRC th (qs.map MeshedConcrete.part) (bars s.mat.law) 0.0035 (designUltimate scls sargs) 500 := by
    have d0 := (direction s.mat.law true).geometry
    have d1 := (direction s.mat.law false).geometry
    simp only [if_true, Bool.false_eq_true, if_false] at d0 d1
    rw [show (250:ℝ) - -250 = 500 by norm_num] at d0 d1
    intro th hth
    rw [hpart]
    simp only [List.mem_cons, List.not_mem_nil, or_false] at hth
    rcases hth with rfl | rfl
    · exact d0.ordinary (fc := fc) (L := ⟨1, s.mat.law⟩) (fun b hb => (hall b hb).1) hult (by norm_num at *; linarith) (by linarith [hu.2])
    · exact d1.ordinary (fc := fc) (L := ⟨1, s.mat.law⟩) (fun b hb => (hall b hb).1) hult (by norm_num at *; linarith) (by linarith [hu.2])
  have hsum : ((bars s.mat.law).map fun b => |b.area|).sum = 2000 := by
    simp only [bars, bar, List.map_cons, List.map_nil, List.sum_cons, List.sum_nil]
    norm_num
  have hmod : totalModulus (qs.map MeshedConcrete.part) (bars s.mat.law) 200000 * 500 = 1.52e13 := by
    simp only [totalModulus, hpart, normalParts, List.map_map, Function.comp_def, hsum, shapes, List.map_cons, List.map_nil, List.sum_cons,
      List.sum_nil, rect_area]
    norm_num
  have hroot : √defaultMesh = (0.1:ℝ) := by
    rw [show defaultMesh = ((0.1:ℝ)) ^ 2 by norm_num [defaultMesh], Real.sqrt_sq (by norm_num)]
  obtain ⟨C, -, hmain⟩ := C91_mm_partial (fun _ => []) qs (bars := bars s.mat.law) lu [0, 0 + Real.pi] (g 0 (by simp)) g (by
      intro q hq'
      obtain ⟨p, hp, rfl⟩ := hq q hq'
      rw [List.mem_singleton.1 hp]
      exact ⟨RCBeam.ok.encloses, hull, by norm_num, by norm_num [abs_of_pos]⟩) (by
      intro q hq'
      obtain ⟨p, hp, rfl⟩ := hq q hq'
      rw [List.mem_singleton.1 hp]
      have := fineMesh_ok 0
      norm_num at this
      constructor <;> simp only [rect_area, defaultMesh] <;> norm_num
      · exact this.1
      · exact this.2) (single_ids fun b hb => (hall b hb).1) (L := 200000) (by norm_num) (by
      intro q hq'
      obtain ⟨p, hp, rfl⟩ := hq q hq'
      simp only
      rw [abs_of_pos hfcb.1, abs_of_pos (by norm_num : (0:ℝ) < 0.002), div_le_iff₀ (by norm_num)]
      linarith [hfcb.2]) (by
      intro b hb x hx y hy
      rw [(hall b hb).1] at hx hy ⊢
      have := hlip x hx y hy
      rwa [hEs] at this) (by
      intro b hb x hx y hy hxy
      rw [(hall b hb).1] at hx hy ⊢
      simp only [hult] at hx hy
      rw [hst x (abs_le.2 hx), hst y (abs_le.2 hy)]
      exact mul_le_mul_of_nonneg_left (max_le_max_left _ (min_le_min_right _ hxy)) (abs_nonneg _)) (by rw [hmod]; norm_num)
    (D := 450) (by norm_num) (by
      intro th hth
      simp only [List.mem_cons, List.not_mem_nil, or_false] at hth
      have hm : (⟨⟨_, _, fc, 0.002, 0.0035⟩, 7, fun _ => fineMesh 0⟩ : MeshedConcrete) ∈ qs := List.mem_map_of_mem (List.mem_singleton.2 rfl)
      rcases hth with rfl | rfl
      · exact ⟨bar s.mat.law (-110) (-200), by simp [bars], _, hm, (150, 250), by simp [rectRing, closeRing], by
          rw [RCBeam.height_zero, RCBeam.height_zero]; norm_num [bar]⟩
      · exact ⟨bar s.mat.law (-110) 200, by simp [bars], _, hm, (150, -250), by simp [rectRing, closeRing], by
          rw [height_flip, height_flip]; norm_num [bar]⟩)
    rfl rfl hE
  obtain ⟨bs, h1, h2⟩ := hmain 1 [] trivial (by
      rw [hmod, hroot, hpart]
      norm_num at *
      linarith) (by
      rw [hmod, hroot, hpart]
      norm_num at *
      linarith)
  exact ⟨bs, h1, by rw [← h2.length_eq]; rfl⟩

end SC.OrdinaryBeam
