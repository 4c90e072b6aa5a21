import Verif.Props.DomainTransport3D

/-! # C72: the N-My-Mz domain of the beam shifted by 1 m and 2 m -/

set_option autoImplicit false

namespace SC

open Spec MeasureTheory

variable {lower : String → String}

namespace OrdinaryBeam

/-- The shift. -/
def away : Motion := ⟨0, false, (1000, 2000)⟩

open Classical in
/-- Cuts the shifted rectangle and the one turned by 180 degrees. -/
noncomputable def awaySplit (p : Polygon) : ℝ → ℝ → ShapelyResult :=
  if ∀ v ∈ p.ext, 0 ≤ v.2 then rectSplit 850 1150 1750 2250 p else rectSplit (-1150) (-850) (-2250) (-1750) p

theorem away_point (x : ℝ × ℝ) : away.point x = (x.1 + 1000, x.2 + 2000) := by
  simp [Motion.point, Motion.sign, away]

theorem away_region : away.point '' (Set.Icc (-150:ℝ) 150 ×ˢ Set.Icc (-250:ℝ) 250) = Set.Icc 850 1150 ×ˢ Set.Icc 1750 2250 := by
  ext z
  constructor
  · rintro ⟨w, ⟨h1, h2⟩, rfl⟩
    rw [away_point]
    exact ⟨⟨by linarith [h1.1], by linarith [h1.2]⟩, ⟨by linarith [h2.1], by linarith [h2.2]⟩⟩
  · rintro ⟨h1, h2⟩
    refine ⟨(z.1 - 1000, z.2 - 2000), ⟨⟨?_, ?_⟩, ⟨?_, ?_⟩⟩, ?_⟩
    · simp only; linarith [h1.1]
    · simp only; linarith [h1.2]
    · simp only; linarith [h2.1]
    · simp only; linarith [h2.2]
    · rw [away_point]; simp

theorem away_cuts : CutsExactly awaySplit 0 (shapes.map (movedShape away)) := by
  intro p hp a ha
  simp only [shapes, List.map_cons, List.map_nil, List.mem_singleton] at hp
  rw [hp]
  simp only [movedShape]
  rw [away_region]
  rw [add_zero] at ha
  rcases turn_cases ha with h | h
  · rw [h, show rotPt 0 = id from funext rotPt_zero, Set.image_id]
    have hs : ∀ q : Polygon, (∀ v ∈ q.ext, 0 ≤ v.2) → awaySplit q = rectSplit 850 1150 1750 2250 q := fun q hq => if_pos hq
    intro y0 y1 hy
    rw [hs]
    · exact rectSplit_exact (a := 850) (b := 1150) (c := 1750) (d := 2250) (by norm_num) _ y0 y1 hy
    · intro v hv
      simp only [Polygon.rotate, h, List.map_map, List.mem_map] at hv
      obtain ⟨w, hw, rfl⟩ := hv
      rcases mem_ring hw with rfl | rfl | rfl | rfl <;> simp only [Function.comp_apply, away_point, rotPt_zero] <;> norm_num
  · rw [h]
    have hs : ∀ q : Polygon, (¬ ∀ v ∈ q.ext, 0 ≤ v.2) → awaySplit q = rectSplit (-1150) (-850) (-2250) (-1750) q := fun q hq => if_neg hq
    have hreg : rotPt (-Real.pi) '' (Set.Icc (850:ℝ) 1150 ×ˢ Set.Icc (1750:ℝ) 2250) = Set.Icc (-1150) (-850) ×ˢ Set.Icc (-2250) (-1750) := by
      ext z
      constructor
      · rintro ⟨w, ⟨h1, h2⟩, rfl⟩
        rw [RCBeam.rot_pi]
        exact ⟨⟨by linarith [h1.2], by linarith [h1.1]⟩, ⟨by linarith [h2.2], by linarith [h2.1]⟩⟩
      · rintro ⟨h1, h2⟩
        refine ⟨(-z.1, -z.2), ⟨⟨by linarith [h1.2], by linarith [h1.1]⟩, ⟨by linarith [h2.2], by linarith [h2.1]⟩⟩, ?_⟩
        rw [RCBeam.rot_pi]; simp
    rw [hreg]
    intro y0 y1 hy
    rw [hs]
    · exact rectSplit_exact (a := -1150) (b := -850) (c := -2250) (d := -1750) (by norm_num) _ y0 y1 hy
    · intro hcon
      have hm : rotPt a (away.point (-150, -250)) ∈ (Polygon.rotate a
          ⟨(rectRing (-150) 150 (-250) 250).map away.point, ([] : List (List (ℝ × ℝ))).map (List.map away.point)⟩).ext :=
        List.mem_map_of_mem (List.mem_map_of_mem (ring_mem _ (Or.inl rfl)))
      have := hcon _ hm
      rw [h, away_point, RCBeam.rot_pi] at this
      norm_num at this

/-- Two angles, 34 profiles each: the moments of the shifted beam are those of the beam plus the axial force times the shift. -/
example (hl : PyLower lower) (scls : SteelClass) (s : Built Steel) (hs : newSteel lower scls sargs = some (.ok s)) (fc : ℝ) :
    ∃ E E' : Engine, E = sectionEngine RCBeam.split ((normalParts fc shapes).map ConcretePart.solid) (bars s.mat.law) 0.01 ∧
      E' = sectionEngine awaySplit ((normalParts fc (shapes.map (movedShape away))).map ConcretePart.solid)
        ((bars s.mat.law).map (Bar.moved away)) 0.01 ∧
      ∃ pts : List (Fin 3 → ℝ),
        (nmmDomain E ((nmmProfiles E.balanced (sectionMinY (shapes.map Prod.fst)) true 2 defaultNum
          ![.linear, .linear, .geometric, .linear, .linear, .linear]).map Prod.fst) .fresh).2 = .ok (pts.map .forces) ∧
        (nmmDomain E' ((nmmProfiles E'.balanced (sectionMinY ((shapes.map (movedShape away)).map Prod.fst)) true 2 defaultNum
          ![.linear, .linear, .geometric, .linear, .linear, .linear]).map Prod.fst) .fresh).2 =
          .ok (pts.map fun F => .forces ![F 0, F 1 + F 0 * 2000, F 2 - F 0 * 1000]) := by
  obtain ⟨hu, hy⟩ := steel_facts hl scls s hs
  have h1 := ultimate_range scls
  have h2 := yield_range
  have hturn : ∀ th ∈ linspace 0 (Real.pi * 2) 2 true, Real.sin th = 0 ∧ Real.cos th = 1 := by
    rw [RCBeam.angles]
    simp only [List.mem_cons, List.not_mem_nil, or_false]
    rintro th (rfl | rfl)
    · simp
    · rw [mul_comm, Real.sin_two_pi, Real.cos_two_pi]; simp
  have hcut : ∀ {split : Polygon → ℝ → ℝ → ShapelyResult} {l : List (Polygon × Set (ℝ × ℝ))}, CutsExactly split 0 l →
      ∀ th ∈ linspace 0 (Real.pi * 2) 2 true, CutsExactly split th l := by
    intro split l hc th hth p hp a ha
    obtain ⟨t1, t2⟩ := hturn th hth
    refine hc p hp a ?_
    rwa [Real.sin_add, t1, t2, mul_one, mul_zero, add_zero, ← add_zero a] at ha
  obtain ⟨planes, labels, hp, hd, hd'⟩ := C72_nmm_partial (fc := fc) (L := ⟨1, s.mat.law⟩) away ⟨rfl, rfl⟩ hu hy
    (by norm_num at *; linarith) (by norm_num at *; linarith) (by norm_num at *; linarith)
    (by norm_num at *; linarith) RCBeam.split awaySplit 0.01 0.01 (fun _ _ => 0) (fun _ _ => 0) shapes
    (bars s.mat.law) (one_steel _) (by intro p hp; rw [List.mem_singleton.1 hp]; exact RCBeam.ok.encloses)
    (by intro p hp; rw [List.mem_singleton.1 hp]; exact hull) 2 (by norm_num) (hcut cuts) (hcut away_cuts)
    (by
      intro th hth
      obtain ⟨t1, t2⟩ := hturn th hth
      have hh : ∀ x : ℝ × ℝ, height th x = height 0 x := by intro x; simp [height, t1, t2]
      obtain ⟨a1, a2, a3, a4, a5, a6, a7, a8⟩ := direction s.mat.law true
      refine ⟨-250, 250, ?_, by rw [hh, RCBeam.height_zero]; norm_num [away]⟩
      simp only [if_true] at a2 a3 a6 a7 a8
      have hh' : height th = height 0 := funext hh
      refine ⟨a1, ?_, ?_, a4, a5, ?_, ?_, ?_⟩ <;> rw [hh'] <;> first | exact a2 | exact a3 | exact a6 | exact a7 | exact a8)
    defaultNum ![.linear, .linear, .geometric, .linear, .linear, .linear] default_args _ rfl _ _ rfl rfl [] [] trivial trivial
  refine ⟨_, _, rfl, rfl, planes.map fun v => (concreteSection (normalParts fc shapes) (bars s.mat.law)).forces v, ?_, ?_⟩
  · rw [List.map_map]
    exact hd
  · refine hd'.trans ?_
    rw [List.map_map]
    rfl

end OrdinaryBeam

end SC
