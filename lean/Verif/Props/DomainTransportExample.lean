import Verif.Props.DomainTransport
import Verif.Props.OrdinaryDomainExample

/-! # C72, C90: domains of the beam of twice the size and of the turned beam -/

set_option autoImplicit false

namespace SC

open Spec MeasureTheory

variable {lower : String → String}

namespace OrdinaryBeam

theorem steel_facts (hl : PyLower lower) (scls : SteelClass) (s : Built Steel) (hs : newSteel lower scls sargs = some (.ok s)) :
    s.mat.law.ult false = (-designUltimate scls sargs, designUltimate scls sargs) ∧ (s.mat.law.ult true).2 = designYield sargs := by
  obtain ⟨hult, -, -⟩ := C73_steel hl scls sargs s hs rfl rfl rfl (gap scls)
  exact ⟨hult, steel_yield hl scls sargs s hs rfl rfl rfl⟩

theorem half_turn_region {a : ℝ} (h : Real.sin a = 0) (x y : ℝ) :
    rotPt a '' (Set.Icc (-x) x ×ˢ Set.Icc (-y) y) = Set.Icc (-x) x ×ˢ Set.Icc (-y) y := by
  rcases turn_cases h with e | e
  · rw [e, show rotPt 0 = id from funext rotPt_zero, Set.image_id]
  · rw [e]
    ext z
    constructor
    · rintro ⟨w, ⟨h1, h2⟩, rfl⟩
      rw [RCBeam.rot_pi]
      exact ⟨⟨by linarith [h1.2], by linarith [h1.1]⟩, ⟨by linarith [h2.2], by linarith [h2.1]⟩⟩
    · rintro ⟨h1, h2⟩
      refine ⟨(-z.1, -z.2), ⟨⟨by linarith [h1.2], by linarith [h1.1]⟩, ⟨by linarith [h2.2], by linarith [h2.1]⟩⟩, ?_⟩
      rw [RCBeam.rot_pi]; simp

/-- The complete domain of the beam of twice the size: 68 points, axial forces times 4, moments times 8. -/
theorem twice_the_domain (hl : PyLower lower) (scls : SteelClass) (s : Built Steel) (hs : newSteel lower scls sargs = some (.ok s)) (fc : ℝ) :
    ∃ E E' : Engine, E = sectionEngine RCBeam.split ((normalParts fc shapes).map ConcretePart.solid) (bars s.mat.law) 0.01 ∧
      E' = sectionEngine (rectSplit (-300) 300 (-500) 500) ((normalParts (1 * fc) (shapes.map (scaledShape twice))).map ConcretePart.solid)
        ((bars s.mat.law).map fun b => ⟨2 * b.x, 2 * b.y, 2 ^ 2 * b.area, ⟨1, s.mat.law⟩⟩) 0.01 ∧
      ∃ pts : List (Fin 3 → ℝ), pts.length = 68 ∧
        (nmDomain E ((nmProfiles E.balanced (sectionMinY (shapes.map Prod.fst)) true 0 defaultNum
          ![.linear, .linear, .geometric, .linear, .linear, .linear] true).map Prod.fst) .fresh).2 = .ok (pts.map .forces) ∧
        (nmDomain E' ((nmProfiles E'.balanced (sectionMinY ((shapes.map (scaledShape twice)).map Prod.fst)) true 0 defaultNum
          ![.linear, .linear, .geometric, .linear, .linear, .linear] true).map Prod.fst) .fresh).2 =
          .ok (pts.map fun F => .forces ![4 * F 0, 8 * F 1, 8 * F 2]) := by
  obtain ⟨hu, hy⟩ := steel_facts hl scls s hs
  have h1 := ultimate_range scls
  have h2 := yield_range
  obtain ⟨planes, labels, hp, -, hd, hd'⟩ := C90_domain_partial (fc := fc) (L := ⟨1, s.mat.law⟩) (L' := ⟨1, s.mat.law⟩) twice hu hu hy hy
    (fun e => by simp [twice]) (by norm_num at *; linarith) (by norm_num at *; linarith) (by norm_num at *; linarith)
    (by norm_num at *; linarith) RCBeam.split (rectSplit (-300) 300 (-500) 500) 0.01 0.01 0 (fun _ _ => 0) (fun _ _ => 0) shapes
    (bars s.mat.law) (one_steel _) (by intro p hp; rw [List.mem_singleton.1 hp]; exact RCBeam.ok.encloses)
    (by intro p hp; rw [List.mem_singleton.1 hp]; exact hull) cuts
    (by
      intro p hp a ha
      rw [List.mem_singleton.1 hp]
      simp only [scaledShape]
      rw [twice_region, half_turn_region (by rwa [add_zero] at ha)]
      exact rectSplit_exact (by norm_num) _)
    (by simpa using direction s.mat.law true) (by norm_num [twice]) (by norm_num [twice]) true
    (fun _ => ⟨by simpa using direction s.mat.law false, by norm_num [twice], by norm_num [twice]⟩)
    defaultNum ![.linear, .linear, .geometric, .linear, .linear, .linear] default_args _ rfl _ _ rfl rfl [] [] trivial trivial
  refine ⟨_, _, rfl, rfl, planes.map fun v => (concreteSection (normalParts fc shapes) (bars s.mat.law)).forces v, ?_, ?_, ?_⟩
  · rw [List.length_map, (C38_domain_count _ _ _ _ _ _ _ _ _ hp).2]
    simp [Fin.sum_univ_succ, defaultNum]
  · rw [List.map_map]
    exact hd
  · refine hd'.trans ?_
    congr 1
    rw [List.map_map]
    refine List.map_congr_left fun v _ => ?_
    simp only [Scale.forces, twice, Function.comp_apply]
    norm_num

/-- The complete domain of the beam turned by any angle: the points of the beam, with their moments turned. -/
theorem turned_domain (hl : PyLower lower) (scls : SteelClass) (s : Built Steel) (hs : newSteel lower scls sargs = some (.ok s)) (fc φ : ℝ) :
    ∃ E E' : Engine, E = sectionEngine RCBeam.split ((normalParts fc shapes).map ConcretePart.solid) (bars s.mat.law) 0.01 ∧
      E' = sectionEngine RCBeam.split ((normalParts fc (shapes.map (movedShape ⟨φ, false, 0⟩))).map ConcretePart.solid)
        ((bars s.mat.law).map (Bar.moved ⟨φ, false, 0⟩)) 0.01 ∧
      ∃ pts : List (Fin 3 → ℝ), pts.length = 68 ∧
        (nmDomain E ((nmProfiles E.balanced (sectionMinY (shapes.map Prod.fst)) true 0 defaultNum
          ![.linear, .linear, .geometric, .linear, .linear, .linear] true).map Prod.fst) .fresh).2 = .ok (pts.map .forces) ∧
        (nmDomain E' ((nmProfiles E'.balanced (sectionMinY ((shapes.map (movedShape ⟨φ, false, 0⟩)).map Prod.fst)) true φ defaultNum
          ![.linear, .linear, .geometric, .linear, .linear, .linear] true).map Prod.fst) .fresh).2 =
          .ok (pts.map fun F => .forces ![F 0, Real.cos φ * F 1 - Real.sin φ * F 2, Real.sin φ * F 1 + Real.cos φ * F 2]) := by
  obtain ⟨hu, hy⟩ := steel_facts hl scls s hs
  have h1 := ultimate_range scls
  have h2 := yield_range
  have hinc : Motion.inclination ⟨φ, false, 0⟩ 0 = φ := by simp [Motion.inclination]
  have hz : height φ (0 : ℝ × ℝ) = 0 := by simp [height]
  have hpt : Motion.point ⟨φ, false, 0⟩ = rotPt φ := by
    funext x
    simp [Motion.point, Motion.sign, rotPt]
  obtain ⟨planes, labels, hp, -, hd, hd'⟩ := C72_domain_partial (fc := fc) (L := ⟨1, s.mat.law⟩) ⟨φ, false, 0⟩ hu hy
    (by norm_num at *; linarith) (by norm_num at *; linarith) (by norm_num at *; linarith)
    (by norm_num at *; linarith) RCBeam.split RCBeam.split 0.01 0.01 0 (fun _ _ => 0) (fun _ _ => 0) shapes
    (bars s.mat.law) (one_steel _) (by intro p hp; rw [List.mem_singleton.1 hp]; exact RCBeam.ok.encloses)
    (by intro p hp; rw [List.mem_singleton.1 hp]; exact hull) cuts
    (by
      intro p hp a ha
      rw [hinc] at ha
      rw [List.mem_singleton.1 hp]
      simp only [movedShape]
      rw [hpt, Set.image_image]
      simp only [rotPt_add]
      rw [half_turn_region ha]
      exact rectSplit_exact (by norm_num) _)
    (by simpa using direction s.mat.law true) (by rw [hinc]; simp only [hz]; norm_num) true
    (fun _ => ⟨by simpa using direction s.mat.law false, by rw [hinc]; simp only [hz]; norm_num⟩)
    defaultNum ![.linear, .linear, .geometric, .linear, .linear, .linear] default_args _ rfl _ _ rfl rfl [] [] trivial trivial
  rw [hinc] at hd'
  refine ⟨_, _, rfl, rfl, planes.map fun v => (concreteSection (normalParts fc shapes) (bars s.mat.law)).forces v, ?_, ?_, ?_⟩
  · rw [List.length_map, (C38_domain_count _ _ _ _ _ _ _ _ _ hp).2]
    simp [Fin.sum_univ_succ, defaultNum]
  · rw [List.map_map]
    exact hd
  · refine hd'.trans ?_
    congr 1
    rw [List.map_map]
    refine List.map_congr_left fun v _ => ?_
    simp [Motion.forces, Motion.turn, Motion.sign]

end OrdinaryBeam

end SC
