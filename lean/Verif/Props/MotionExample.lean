import Verif.Props.MotionConcrete

/-! # C72: examples -/

set_option autoImplicit false

namespace SC

open Spec MeasureTheory

namespace RCBeam

open TwoSteels (upsideDown)

theorem okay : ∀ p ∈ [concrete], p.Ok split 0 := by
  intro p hp
  rw [List.mem_singleton.1 hp]
  exact ok

theorem strength_returns (lu : Matrix (Fin 3) (Fin 3) ℝ → (Fin 3 → ℝ) → (Fin 3 → ℝ)) :
    ∃ b, (bendingStrength engine 0 0 (history engine lu [] .fresh)).2 = .ok b := by
  have hbal : (sectionEngine split ([concrete].map ConcretePart.solid) bars 0.01).balanced (-0) false =
      .ok (250, -200, ![0.0215, -1e-4, 0]) := by
    rw [neg_zero]; exact balanced
  exact C66_returns split [concrete] bars 0.01 0 0 lu [] trivial okay ids sizes lim flat hbal gov K stiff accepted low high

/-- The beam upside down. -/
noncomputable def turned : Engine :=
  sectionEngine split (([concrete].map (ConcretePart.moved upsideDown)).map ConcretePart.solid) (bars.map (Bar.moved upsideDown)) 0.01

theorem turned_region : upsideDown.point '' concrete.region = concrete.region := by
  ext x
  constructor
  · rintro ⟨y, ⟨h1, h2⟩, rfl⟩
    rw [TwoSteels.point]
    exact ⟨⟨by linarith [h1.2], by linarith [h1.1]⟩, ⟨by linarith [h2.2], by linarith [h2.1]⟩⟩
  · rintro ⟨h1, h2⟩
    refine ⟨(-x.1, -x.2), ⟨⟨by linarith [h1.2], by linarith [h1.1]⟩, ⟨by linarith [h2.2], by linarith [h2.1]⟩⟩, ?_⟩
    rw [TwoSteels.point]; simp

theorem pi_region : rotPt (-Real.pi) '' concrete.region = concrete.region := by
  refine Eq.trans ?_ turned_region
  refine Set.image_congr fun x _ => ?_
  rw [rot_pi, TwoSteels.point]

theorem turned_okay : ∀ p ∈ [concrete], (p.moved upsideDown).Ok split (upsideDown.inclination 0) := by
  intro p hp
  rw [List.mem_singleton.1 hp]
  refine ok_moved upsideDown ok ?_
  have h1 : upsideDown.inclination 0 = Real.pi := by simp [Motion.inclination, upsideDown]
  have h2 : (concrete.moved upsideDown).region = concrete.region := turned_region
  rw [h1, h2, pi_region, pi_region]
  exact rectSplit_exact (by norm_num) _

theorem turned_balanced : turned.balanced 0 false = .ok (250, -200, ![0.0215, -1e-4, 0]) := by
  have hp : ((concrete.moved upsideDown).solid).part 0 = ⟨true, true, -250, 250, concrete.law.ult⟩ := by
    have : (concrete.moved upsideDown).law = concrete.law := rfl
    simp only [Solid.part, ConcretePart.solid, ConcretePart.surf, Surf.ofMarin, polygon_rotate_zero, Polygon.bounds, this]
    simp only [ConcretePart.moved, concrete, rectRing, closeRing, List.take_succ_cons, List.take_zero, List.cons_append, List.nil_append,
      List.map_cons, List.map_nil, TwoSteels.point]
    norm_num [listMin, listMax]
  have hpar : (([concrete].map (ConcretePart.moved upsideDown)).map ConcretePart.solid).map (Solid.part 0) ++
      ((bars.map (Bar.moved upsideDown)).map (Bar.rotate 0)).map Bar.part =
      [⟨true, true, -250, 250, concrete.law.ult⟩, ⟨false, false, 200, 200, steel.law.ult⟩, ⟨false, false, 200, 200, steel.law.ult⟩,
       ⟨false, false, -200, -200, steel.law.ult⟩, ⟨false, false, -200, -200, steel.law.ult⟩] := by
    simp [bars, bar, hp, Bar.part, Bar.rotate, rotPt_zero, Bar.moved, TwoSteels.point]
  have hany : (([concrete].map (ConcretePart.moved upsideDown)).map ConcretePart.solid).any Solid.concrete = true := rfl
  change balancedFailure ((([concrete].map (ConcretePart.moved upsideDown)).map ConcretePart.solid).map (Solid.part 0) ++
      ((bars.map (Bar.moved upsideDown)).map (Bar.rotate 0)).map Bar.part)
    ((([concrete].map (ConcretePart.moved upsideDown)).map ConcretePart.solid).any Solid.concrete) false = _
  rw [hpar, hany]
  unfold balancedFailure
  norm_num [balStep, Part.posLimit, Part.negLimit, limits_concrete, limits_steel]

theorem turned_limits : (limits turned .fresh).2 = (limits engine .fresh).2 := by
  have h1 : (![0.0215, -1e-4, 0] : Fin 3 → ℝ) 0 + (![0.0215, -1e-4, 0] : Fin 3 → ℝ) 1 * 250 = -0.0035 := by norm_num
  have h2 : (![0.0215, -1e-4, 0] : Fin 3 → ℝ) 0 + (![0.0215, -1e-4, 0] : Fin 3 → ℝ) 1 * (-200) = 0.0415 := by norm_num
  have henc : ∀ p ∈ [concrete], Encloses p.polygon.ext p.polygon.ints p.region := by
    intro p hp
    rw [List.mem_singleton.1 hp]
    exact ok.encloses
  have := C66_limits_partial split ([concrete].map (ConcretePart.moved upsideDown)) (bars.map (Bar.moved upsideDown)) 0.01 (by
      intro p hp
      obtain ⟨q, hq, rfl⟩ := List.mem_map.1 hp
      rw [List.mem_singleton.1 hq]
      exact ⟨encloses_moved _ ok.encloses, ok.peak, by norm_num [ConcretePart.moved, concrete, abs_of_pos]⟩)
    (by rw [List.map_map]; exact ids) (equalSizes_moved _ sizes) turned_balanced (by
      intro p hp
      obtain ⟨q, hq, rfl⟩ := List.mem_map.1 hp
      rw [List.mem_singleton.1 hq, h1, h2]
      exact snaps)
  rw [h1, h2, concreteSection_moved, uniform_moved _ henc, uniform_moved _ henc, ← limit_loads] at this
  exact this

/-- The beam upside down, bent about the axis turned by 180 degrees: curvatures and moments change their signs. -/
example (lu lu' : Matrix (Fin 3) (Fin 3) ℝ → (Fin 3 → ℝ) → (Fin 3 → ℝ)) :
    ∃ b, (bendingStrength engine 0 0 (history engine lu [] .fresh)).2 = .ok b ∧
      (bendingStrength turned Real.pi 0 (history turned lu' [] .fresh)).2 = .ok ⟨b.n, (-b.chi.1, -b.chi.2), b.eps_a, (-b.m.1, -b.m.2)⟩ := by
  obtain ⟨b, hb⟩ := strength_returns lu
  refine ⟨b, hb, ?_⟩
  have h := (C72_reinforced_concrete split [concrete] bars 0.01 0 0 upsideDown lu lu' [] [] okay turned_okay ids sizes lim flat
    (E := engine) (E' := turned) rfl rfl trivial trivial accepted ((check_limits turned_limits 0).trans accepted)).1 b hb
  have h1 : upsideDown.inclination 0 = Real.pi := by simp [Motion.inclination, upsideDown]
  rw [h1] at h
  rw [h]
  simp [BendingResult.moved, Motion.plane, Motion.forces, Motion.turn, upsideDown, Motion.sign]

/-- The beam is symmetric: no moment about the vertical axis. -/
example (lu : Matrix (Fin 3) (Fin 3) ℝ → (Fin 3 → ℝ) → (Fin 3 → ℝ)) {b : BendingResult}
    (hb : (bendingStrength engine 0 0 (history engine lu [] .fresh)).2 = .ok b) : b.m.2 = 0 := by
  have := C72_symmetric_vertical split [concrete] bars 0.01 0 0 lu [] ?_ ?_ okay ids sizes lim flat trivial hb
  · simpa using this
  · intro p hp
    rw [List.mem_singleton.1 hp]
    ext x
    constructor
    · rintro ⟨y, ⟨h1, h2⟩, rfl⟩
      rw [Motion.mirrorAt_point]
      exact ⟨⟨by linarith [h1.2], by linarith [h1.1]⟩, h2⟩
    · rintro ⟨h1, h2⟩
      refine ⟨(-x.1, x.2), ⟨⟨by linarith [h1.2], by linarith [h1.1]⟩, h2⟩, ?_⟩
      rw [Motion.mirrorAt_point]; simp
  · have e : ∀ x y, (bar x y).moved (Motion.mirrorAt 0) = bar (-x) y := by
      intro x y
      simp [Bar.moved, Motion.mirrorAt_point, bar]
    simp only [bars, List.map_cons, List.map_nil, e, neg_neg]
    exact (List.Perm.swap _ _ _).trans (((List.Perm.swap _ _ _).cons _).cons _)

end RCBeam

end SC
