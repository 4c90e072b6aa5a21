import Verif.Props.DomainForces
import Verif.Props.RCExample

/-! # C67: the complete N-M domain of the beam of `RCExample` -/

set_option autoImplicit false

namespace SC.RCBeam

open Spec MeasureTheory

theorem yields_concrete : concrete.law.ult true = (-0.002, 100) := by
  norm_num [concrete, ConcretePart.law, ParabolaRectangle.ult, ParabolaRectangle.new, abs_of_pos]

theorem yields_steel : steel.law.ult true = (-0.0025, 0.0025) := by
  have := eps_sy
  simp only [ElasticPlastic.law, ElasticPlastic.ult, if_true, this]

theorem half_turn (x : ℝ × ℝ) : rotPt (-(0 + Real.pi)) x = (-x.1, -x.2) := by rw [zero_add, rot_pi]

theorem engine_parts (a : ℝ) (y : Bool) : engine.balanced a y =
    balancedFailure (concrete.solid.part a :: bars.map fun b => (b.rotate a).part) true y := by
  change balancedFailure (([concrete].map ConcretePart.solid).map (Solid.part a) ++ (bars.map (Bar.rotate a)).map Bar.part)
    (([concrete].map ConcretePart.solid).any Solid.concrete) y = _
  have hany : ([concrete].map ConcretePart.solid).any Solid.concrete = true := rfl
  rw [hany]
  simp only [List.map_cons, List.map_nil, List.map_map, List.cons_append, List.nil_append, Function.comp_def]

theorem parts_up : (concrete.solid.part (-0) :: bars.map fun b => (b.rotate (-0)).part) =
    [⟨true, true, -250, 250, concrete.law.ult⟩, ⟨false, false, -200, -200, steel.law.ult⟩,
     ⟨false, false, -200, -200, steel.law.ult⟩, ⟨false, false, 200, 200, steel.law.ult⟩,
     ⟨false, false, 200, 200, steel.law.ult⟩] := by
  have hp : (concrete.solid).part 0 = ⟨true, true, -250, 250, concrete.law.ult⟩ := by
    simp only [Solid.part, ConcretePart.solid, ConcretePart.surf, Surf.ofMarin, polygon_rotate_zero, Polygon.bounds, concrete, rectRing, closeRing]
    norm_num [listMin, listMax]
  rw [neg_zero, hp]
  simp [bars, Bar.part, Bar.rotate, bar, rotPt_zero]

theorem turned_ext : (concrete.polygon.rotate (-(0 + Real.pi))).ext =
    [(150, 250), (-150, 250), (-150, -250), (150, -250), (150, 250)] := by
  simp only [Polygon.rotate, concrete, rectRing, closeRing, List.cons_append, List.nil_append, List.take_succ_cons, List.take_zero,
    List.map_cons, List.map_nil, half_turn, neg_neg]

theorem parts_down : (concrete.solid.part (-(0 + Real.pi)) :: bars.map fun b => (b.rotate (-(0 + Real.pi))).part) =
    [⟨true, true, -250, 250, concrete.law.ult⟩, ⟨false, false, 200, 200, steel.law.ult⟩,
     ⟨false, false, 200, 200, steel.law.ult⟩, ⟨false, false, -200, -200, steel.law.ult⟩,
     ⟨false, false, -200, -200, steel.law.ult⟩] := by
  have hb : (concrete.polygon.rotate (-(0 + Real.pi))).bounds = (-150, -250, 150, 250) := by
    simp only [Polygon.bounds, turned_ext]
    norm_num [listMin, listMax]
  have hp : (concrete.solid).part (-(0 + Real.pi)) = ⟨true, true, -250, 250, concrete.law.ult⟩ := by
    simp only [Solid.part, ConcretePart.solid, ConcretePart.surf, Surf.ofMarin, hb]
  rw [hp]
  simp only [bars, List.map_cons, List.map_nil, Bar.part, Bar.rotate, bar, half_turn, neg_neg]

theorem lowest_up : sectionMinY ([concrete].map ConcretePart.polygon) (-0) = -250 := by
  rw [neg_zero]
  simp only [sectionMinY, List.map_cons, List.map_nil, List.foldl_cons, List.foldl_nil, polygon_rotate_zero, Polygon.bounds, concrete,
    rectRing, closeRing]
  norm_num [listMin, listMax]

theorem lowest_down : sectionMinY ([concrete].map ConcretePart.polygon) (-(0 + Real.pi)) = -250 := by
  simp only [sectionMinY, List.map_cons, List.map_nil, List.foldl_cons, List.foldl_nil, Polygon.bounds, turned_ext]
  norm_num [listMin, listMax]

theorem failures (up : Bool) : let a := if up then -0 else -(0 + Real.pi)
    engine.balanced a false = .ok (250, -200, ![0.0215, -1e-4, 0]) ∧
    engine.balanced a true = .ok (250, -200, ![0.0005, -1e-5, 0]) := by
  intro a
  rw [engine_parts, engine_parts]
  cases up
  · simp only [a, Bool.false_eq_true, if_false, parts_down]
    unfold balancedFailure
    constructor <;>
      norm_num [balStep, Part.posLimit, Part.negLimit, limits_concrete, limits_steel, yields_concrete, yields_steel]
  · simp only [a, if_true, parts_up]
    unfold balancedFailure
    constructor <;>
      norm_num [balStep, Part.posLimit, Part.negLimit, limits_concrete, limits_steel, yields_concrete, yields_steel]

theorem ordinary (up : Bool) : Ordinary engine.balanced [concrete] (if up then 0 else 0 + Real.pi) 250 (-200)
    (-0.0035) 0.0415 (-0.002) 0.0025 := by
  have hl : sectionMinY ([concrete].map ConcretePart.polygon) (-(if up then 0 else 0 + Real.pi)) = -250 := by
    cases up
    · simpa using lowest_down
    · simpa using lowest_up
  have hf : engine.balanced (-(if up then 0 else 0 + Real.pi)) false = .ok (250, -200, ![0.0215, -1e-4, 0]) ∧
      engine.balanced (-(if up then 0 else 0 + Real.pi)) true = .ok (250, -200, ![0.0005, -1e-5, 0]) := by
    have := failures up
    cases up
    · simpa using this
    · simpa using this
  refine ⟨⟨_, hf.1, ?_, ?_⟩, ⟨_, _, _, hf.2, ?_, ?_⟩, ?_, ?_, ?_, ?_, ?_, ?_, ?_, ?_⟩
  · norm_num [planeStrain]
  · norm_num [planeStrain]
  · norm_num [planeStrain]
  · norm_num [planeStrain]
  · norm_num
  · norm_num
  · rw [hl]; norm_num
  · rw [hl]; norm_num
  · rw [hl]
    norm_num [Resolved, abs_of_pos, abs_of_neg]
  · intro p hp v hv
    rw [List.mem_singleton.1 hp] at hv
    simp only [concrete, rectRing, closeRing, List.cons_append, List.nil_append,
        List.take_succ_cons, List.take_zero, List.mem_cons, List.not_mem_nil, or_false] at hv
    cases up
    · have : height (0 + Real.pi) v = -v.2 := by simp [height]
      simp only [Bool.false_eq_true, if_false, this]
      rcases hv with rfl | rfl | rfl | rfl | rfl <;> norm_num
    · simp only [if_true, height_zero]
      rcases hv with rfl | rfl | rfl | rfl | rfl <;> norm_num
  · intro p hp
    rw [List.mem_singleton.1 hp]
    norm_num [concrete, abs_of_pos]
  · intro p hp
    rw [List.mem_singleton.1 hp]
    have h3 : snap (concrete.law.ult false) (-0.002) = -0.002 := by
      rw [limits_concrete]
      have h1 : ¬ isclose (-0.002) 100 := by norm_num [isclose, abs_of_pos, abs_of_neg]
      have h2 : ¬ isclose (-0.002) (-0.0035) := by norm_num [isclose, abs_of_pos, abs_of_neg]
      simp [snap, h1, h2]
    simp only [List.mem_cons, List.not_mem_nil, or_false]
    rintro e (rfl | rfl | rfl)
    · exact snaps.1
    · exact snaps.2
    · exact h3

theorem sound : concrete.Sound := ⟨ok.encloses, ok.inHull, ok.peak, ok.plateau⟩

theorem cuts (v : Fin 3 → ℝ) (h : v 1 * Real.sin 0 = v 2 * Real.cos 0) (hc : v 1 ≠ 0 ∨ v 2 ≠ 0) :
    SplitsExactly split (concrete.polygon.rotate (neutralAngle v)) (rotPt (neutralAngle v) '' concrete.region) := by
  have h2 : v 2 = 0 := by simpa using h.symm
  have h1 : v 1 ≠ 0 := by rcases hc with h | h; exact h; exact absurd h2 h
  have hv : v = ![v 0, v 1, 0] := by funext i; fin_cases i; rfl; rfl; exact h2
  rcases lt_or_gt_of_ne h1 with hn | hp
  · rw [hv, neutralAngle_neg hn]
    have := ok.splits
    rw [neg_zero, polygon_rotate_zero, show rotPt 0 = id from funext rotPt_zero, Set.image_id] at this
    exact this
  · rw [neutralAngle_up hp h2, polygon_rotate_zero, show rotPt 0 = id from funext rotPt_zero, Set.image_id]
    exact rectSplit_exact (by norm_num) _

theorem profiles (up : Bool) : ∃ r, ultimateProfiles (engine.balanced (-(if up then 0 else 0 + Real.pi)))
    (sectionMinY ([concrete].map ConcretePart.polygon) (-(if up then 0 else 0 + Real.pi))) true (if up then 0 else 0 + Real.pi)
    defaultNum ![.linear, .linear, .geometric, .linear, .linear, .linear] = .ok r := by
  have hl : sectionMinY ([concrete].map ConcretePart.polygon) (-(if up then 0 else 0 + Real.pi)) = -250 := by
    cases up
    · simpa using lowest_down
    · simpa using lowest_up
  have hf := failures up
  have hfd : fieldData (engine.balanced (-(if up then 0 else 0 + Real.pi))) (-250) =
      .ok ⟨250, -200, 0.0415, -0.0035, 0.0025, -0.002, -250⟩ := by
    unfold fieldData
    cases up
    · simp only [Bool.false_eq_true, if_false] at hf ⊢
      rw [hf.1, hf.2]
      norm_num
    · simp only [if_true] at hf ⊢
      rw [hf.1, hf.2]
      norm_num
  have hfin : (List.finRange 6) = [0, 1, 2, 3, 4, 5] := by decide
  unfold ultimateProfiles
  rw [hl, hfd, hfin]
  simp [List.mapM_cons, sixFields, fieldPos, fieldNeg, field6, npSpace.eq_def, geomspace?,
    defaultNum, bind, Except.bind, pure, Except.pure]
  norm_num

/-- The complete domain of the beam (default numbers and spacings) consists of 68 points; they are the exact forces of the
profiles. -/
example (lu : Matrix (Fin 3) (Fin 3) ℝ → (Fin 3 → ℝ) → (Fin 3 → ℝ)) : ∃ planes labels,
    nmProfiles engine.balanced (sectionMinY ([concrete].map ConcretePart.polygon)) true 0 defaultNum
      ![.linear, .linear, .geometric, .linear, .linear, .linear] true = .ok (planes, labels) ∧ planes.length = 68 ∧
    (nmDomain engine ((nmProfiles engine.balanced (sectionMinY ([concrete].map ConcretePart.polygon)) true 0 defaultNum
      ![.linear, .linear, .geometric, .linear, .linear, .linear] true).map Prod.fst) (history engine lu [] .fresh)).2 =
      .ok (planes.map fun v => .forces ((concreteSection [concrete] bars).forces v)) := by
  obtain ⟨⟨q, k⟩, h1⟩ := profiles true
  obtain ⟨⟨q', k'⟩, h2⟩ := profiles false
  simp only [if_true, Bool.false_eq_true, if_false] at h1 h2
  have hprof : nmProfiles engine.balanced (sectionMinY ([concrete].map ConcretePart.polygon)) true 0 defaultNum
      ![.linear, .linear, .geometric, .linear, .linear, .linear] true = .ok (q ++ dropEndsRev q', k ++ dropEndsRev k') := by
    unfold nmProfiles
    rw [h1]
    simp only [if_true]
    rw [h2]
  refine ⟨_, _, hprof, ?_, ?_⟩
  · have := (C38_domain_count _ _ _ _ _ _ _ _ _ hprof).2
    simpa [Fin.sum_univ_succ, defaultNum] using this
  · have o1 := ordinary true
    have o2 := ordinary false
    simp only [if_true, Bool.false_eq_true, if_false] at o1 o2
    exact C67_nm_partial split [concrete] bars 0.01 0 lu [] trivial ids sizes
      (by intro p hp; rw [List.mem_singleton.1 hp]; exact sound) true _ _ true hprof o1 (fun _ => o2)
      (by intro p hp v; rw [List.mem_singleton.1 hp]; exact cuts v)

theorem full_turn : rotPt (-(Real.pi * 2)) = rotPt (-0) := by
  funext x
  have h1 : Real.cos (-(Real.pi * 2)) = 1 := by rw [Real.cos_neg, mul_comm, Real.cos_two_pi]
  have h2 : Real.sin (-(Real.pi * 2)) = 0 := by rw [Real.sin_neg, mul_comm, Real.sin_two_pi, neg_zero]
  simp only [rotPt, h1, h2, neg_zero, Real.cos_zero, Real.sin_zero]

theorem polygon_full_turn (p : Polygon) : p.rotate (-(Real.pi * 2)) = p.rotate (-0) := by
  simp only [Polygon.rotate, full_turn]

theorem balanced_full_turn : engine.balanced (-(Real.pi * 2)) = engine.balanced (-0) := by
  funext y
  rw [engine_parts, engine_parts]
  simp only [Solid.part, Bar.rotate, full_turn, polygon_full_turn]

theorem minY_full_turn : sectionMinY ([concrete].map ConcretePart.polygon) (-(Real.pi * 2)) =
    sectionMinY ([concrete].map ConcretePart.polygon) (-0) := by
  simp only [sectionMinY, polygon_full_turn]

theorem height_full_turn (v : ℝ × ℝ) : height (Real.pi * 2) v = height 0 v := by
  simp [height, mul_comm Real.pi 2]

theorem angles : linspace 0 (Real.pi * 2) 2 true = [0, Real.pi * 2] := by
  norm_num [linspace, List.range_succ]

/-- The N-My-Mz domain of the beam for the angles 0 and 2 pi. -/
example (lu : Matrix (Fin 3) (Fin 3) ℝ → (Fin 3 → ℝ) → (Fin 3 → ℝ)) : ∃ planes labels,
    nmmProfiles engine.balanced (sectionMinY ([concrete].map ConcretePart.polygon)) true 2 defaultNum
      ![.linear, .linear, .geometric, .linear, .linear, .linear] = .ok (planes, labels) ∧
    (nmmDomain engine ((nmmProfiles engine.balanced (sectionMinY ([concrete].map ConcretePart.polygon)) true 2 defaultNum
      ![.linear, .linear, .geometric, .linear, .linear, .linear]).map Prod.fst) (history engine lu [] .fresh)).2 =
      .ok (planes.map fun v => .forces ((concreteSection [concrete] bars).forces v)) := by
  obtain ⟨⟨q, k⟩, h1⟩ := profiles true
  simp only [if_true] at h1
  have o1 := ordinary true
  simp only [if_true] at o1
  have o2 : Ordinary engine.balanced [concrete] (Real.pi * 2) 250 (-200) (-0.0035) 0.0415 (-0.002) 0.0025 := by
    obtain ⟨a1, a2, a3, a4, a5, a6, a7, a8, a9, a10⟩ := o1
    refine ⟨?_, ?_, a3, a4, ?_, ?_, ?_, ?_, a9, a10⟩
    · rw [balanced_full_turn]; exact a1
    · rw [balanced_full_turn]; exact a2
    · rw [minY_full_turn]; exact a5
    · rw [minY_full_turn]; exact a6
    · rw [minY_full_turn]; exact a7
    · intro p hp v hv
      rw [height_full_turn]; exact a8 p hp v hv
  have h2 : ∃ q', ultimateProfiles (engine.balanced (-(Real.pi * 2)))
      (sectionMinY ([concrete].map ConcretePart.polygon) (-(Real.pi * 2))) true (Real.pi * 2)
      defaultNum ![.linear, .linear, .geometric, .linear, .linear, .linear] = .ok (q', k) := by
    rw [balanced_full_turn, minY_full_turn]
    unfold ultimateProfiles at h1 ⊢
    cases hf : fieldData (engine.balanced (-0)) (sectionMinY ([concrete].map ConcretePart.polygon) (-0)) with
    | error e => rw [hf] at h1; cases h1
    | ok f =>
      rw [hf] at h1
      simp only at h1 ⊢
      cases hm : (List.finRange 6).mapM (sixFields f true defaultNum ![.linear, .linear, .geometric, .linear, .linear, .linear]) with
      | error e => rw [hm] at h1; cases h1
      | ok F =>
        rw [hm] at h1
        simp only [Except.ok.injEq, Prod.mk.injEq] at h1 ⊢
        exact ⟨_, rfl, h1.2⟩
  obtain ⟨q', h2⟩ := h2
  have hprof : nmmProfiles engine.balanced (sectionMinY ([concrete].map ConcretePart.polygon)) true 2 defaultNum
      ![.linear, .linear, .geometric, .linear, .linear, .linear] = .ok (q ++ q', k) := by
    simp only [nmmProfiles, angles, nmmLoop, h1, h2, List.nil_append]
  refine ⟨_, _, hprof, (C67_nmm_partial split [concrete] bars 0.01 lu [] trivial ids sizes
    (by intro p hp; rw [List.mem_singleton.1 hp]; exact sound) true _ _ 2 hprof ?_ ?_).2⟩
  · rw [angles]
    simp only [List.mem_cons, List.not_mem_nil, or_false]
    rintro th (rfl | rfl)
    · exact ⟨_, _, _, _, _, _, o1⟩
    · exact ⟨_, _, _, _, _, _, o2⟩
  · rw [angles]
    intro p hp th hth v h hc
    rw [List.mem_singleton.1 hp]
    simp only [List.mem_cons, List.not_mem_nil, or_false] at hth
    refine cuts v ?_ hc
    rcases hth with rfl | rfl
    · exact h
    · rw [mul_comm Real.pi 2, Real.sin_two_pi, Real.cos_two_pi] at h
      simpa using h

/-- The hypotheses of `C67_mm_partial` hold for the beam. -/
example (lu : Matrix (Fin 3) (Fin 3) ℝ → (Fin 3 → ℝ) → (Fin 3 → ℝ)) : ∃ C : Set ℝ, C.Countable ∧
    ∀ (n : ℝ) (bs : List BendingResult), (mmDomain engine n [0, 0] .fresh).2 = .ok bs →
      bs.length = 2 ∧ ∀ b ∈ bs, (concreteSection [concrete] bars).AtLimit ![b.eps_a, b.chi.1, b.chi.2] := by
  obtain ⟨C, hC, h⟩ := C67_mm_partial split [concrete] bars 0.01 lu [0, 0] ids sizes lim (by
    intro th hth
    have : th = 0 := by simpa using hth
    subst this
    refine ⟨by intro p hp; rw [List.mem_singleton.1 hp]; exact ok, flat, _, _, _, ?_, gov⟩
    rw [neg_zero]; exact balanced)
  refine ⟨C, hC, fun n bs hbs => ?_⟩
  have := h n [] bs trivial hbs
  refine ⟨this.length_eq.symm, fun b hb => ?_⟩
  cases this with
  | cons h1 h2 =>
    cases h2 with
    | cons h3 h4 =>
      cases h4
      simp only [List.mem_cons, List.not_mem_nil, or_false] at hb
      rcases hb with rfl | rfl
      · exact h1.2.2.1
      · exact h3.2.2.1

end SC.RCBeam
