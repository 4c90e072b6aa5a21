import Verif.Props.RCReturns
import Verif.Props.LawsBounds

/-! # C66: a reinforced concrete beam in pure bending

300 x 500, parabola-rectangle concrete (fc = 20, 0.002, 0.0035), four bars of 500 mm2 at `y = ±200`, elastic-plastic steel (E = 2e5,
fy = 500, limit strain 0.0415).  All hypotheses of `C66_reinforced_concrete_partial`, `C66_limits_partial` and `C66_returns` hold. -/

set_option autoImplicit false

namespace SC

open Spec MeasureTheory

/-- Within its limit strains a perfectly plastic steel follows the clamped line, also where strains are snapped. -/
theorem ep_stress_clamp (l : ElasticPlastic) {u : ℝ} (hE : 0 < l.E) (hfy : 0 ≤ l.fy) (hEh : l.Eh = 0) (hsu : l.eps_su = some u)
    (hu : l.eps_sy + 1e-6 + 1e-5 * u ≤ u) {x : ℝ} (h1 : -u ≤ x) (h2 : x ≤ u) :
    l.stress x = l.E * max (-l.eps_sy) (min x l.eps_sy) := by
  have hsy0 : 0 ≤ l.eps_sy := by unfold ElasticPlastic.eps_sy; positivity
  have hu0 : 0 ≤ u := by linarith
  have hb : ∀ y, -u ≤ y → y ≤ u → ¬ l.beyond y := by
    intro y a b
    simp only [ElasticPlastic.beyond, hsu]; push Not; exact ⟨b, a⟩
  have hcore : ∀ y, -u ≤ y → y ≤ u → l.core y = l.E * max (-l.eps_sy) (min y l.eps_sy) := by
    intro y a b
    rw [l.core_clamp hE hfy hEh.ge (hb y a b), hEh]; ring
  have hul : l.ult false = (-u, u) := by simp [ElasticPlastic.ult, hsu]
  have hpos : (0:ℝ) < 1e-6 := by norm_num
  rw [ElasticPlastic.stress, hul]
  by_cases c1 : isclose x u
  · have : snap (-u, u) x = u := by simp [snap, c1]
    rw [this, hcore u (by linarith) le_rfl]
    simp only [isclose, abs_of_nonneg hu0] at c1
    have := (abs_le.1 c1).1
    rw [min_eq_right (by linarith), min_eq_right (by linarith)]
  · by_cases c2 : isclose x (-u)
    · have : snap (-u, u) x = -u := by simp [snap, c1, c2]
      rw [this, hcore (-u) le_rfl (by linarith)]
      simp only [isclose, abs_neg, abs_of_nonneg hu0] at c2
      have := (abs_le.1 c2).2
      rw [min_eq_left (by linarith), min_eq_left (by linarith), max_eq_left (by linarith), max_eq_left (by linarith)]
    · have : snap (-u, u) x = x := by simp [snap, c1, c2]
      rw [this, hcore x h1 h2]

theorem ep_lipschitz (l : ElasticPlastic) {u : ℝ} (hE : 0 < l.E) (hfy : 0 ≤ l.fy) (hEh : l.Eh = 0) (hsu : l.eps_su = some u)
    (hu : l.eps_sy + 1e-6 + 1e-5 * u ≤ u) :
    ∀ x ∈ Set.Icc (l.law.ult false).1 (l.law.ult false).2, ∀ y ∈ Set.Icc (l.law.ult false).1 (l.law.ult false).2,
      |l.law.stress x - l.law.stress y| ≤ l.E * |x - y| := by
  have hul : l.law.ult false = (-u, u) := by simp [ElasticPlastic.law, ElasticPlastic.ult, hsu]
  rw [hul]
  rintro x ⟨a, b⟩ y ⟨c, d⟩
  change |l.stress x - l.stress y| ≤ _
  rw [ep_stress_clamp l hE hfy hEh hsu hu a b, ep_stress_clamp l hE hfy hEh hsu hu c d, ← mul_sub, abs_mul, abs_of_pos hE]
  refine mul_le_mul_of_nonneg_left ?_ hE.le
  have h1 : |max (-l.eps_sy) (min x l.eps_sy) - max (-l.eps_sy) (min y l.eps_sy)| ≤ |min x l.eps_sy - min y l.eps_sy| := by
    have := abs_max_sub_max_le_max (-l.eps_sy) (min x l.eps_sy) (-l.eps_sy) (min y l.eps_sy)
    simpa using this
  have h2 : |min x l.eps_sy - min y l.eps_sy| ≤ |x - y| := by
    have := abs_min_sub_min_le_max x l.eps_sy y l.eps_sy
    simpa using this
  exact h1.trans h2

namespace RCBeam

/-- 300 x 500 concrete. -/
noncomputable def concrete : ConcretePart :=
  ⟨⟨rectRing (-150) 150 (-250) 250, []⟩, Set.Icc (-150) 150 ×ˢ Set.Icc (-250) 250, 20, 0.002, 0.0035⟩

noncomputable def steel : ElasticPlastic := ⟨200000, 500, 0, some 0.0415⟩

noncomputable def bar (x y : ℝ) : Bar := ⟨x, y, 500, ⟨1, steel.law⟩⟩

noncomputable def bars : List Bar := [bar (-110) (-200), bar 110 (-200), bar (-110) 200, bar 110 200]

noncomputable def split : Polygon → ℝ → ℝ → ShapelyResult := rectSplit (-150) 150 (-250) 250

noncomputable def engine : Engine := sectionEngine split ([concrete].map ConcretePart.solid) bars 0.01

theorem rot_pi (x : ℝ × ℝ) : rotPt (-Real.pi) x = (-x.1, -x.2) := by simp [rotPt]

theorem ok : concrete.Ok split 0 := by
  refine ⟨encloses_rect (by norm_num) (by norm_num), ?_, ?_, ?_, ?_⟩
  · have hset : {v | v ∈ concrete.polygon.ext} = ({-150, 150} : Set ℝ) ×ˢ ({-250, 250} : Set ℝ) := by
      ext ⟨x, y⟩
      simp only [concrete, rectRing, closeRing, Set.mem_ofPred_eq, List.mem_cons, List.cons_append, List.nil_append,
        List.take_succ_cons, List.take_zero, List.not_mem_nil, or_false,
        Set.mem_prod, Set.mem_insert_iff, Set.mem_singleton_iff, Prod.mk.injEq]
      tauto
    rw [hset, convexHull_prod, convexHull_pair, convexHull_pair, segment_eq_Icc (by norm_num), segment_eq_Icc (by norm_num)]
    exact subset_rfl
  · have h0 : rotPt (-0) '' concrete.region = concrete.region := by
      rw [neg_zero, show rotPt 0 = id from funext rotPt_zero, Set.image_id]
    have : rotPt (-Real.pi) '' concrete.region = concrete.region := by
      ext x
      constructor
      · rintro ⟨y, ⟨h1, h2⟩, rfl⟩
        rw [rot_pi]
        exact ⟨⟨by linarith [h1.2], by linarith [h1.1]⟩, ⟨by linarith [h2.2], by linarith [h2.1]⟩⟩
      · rintro ⟨h1, h2⟩
        refine ⟨(-x.1, -x.2), ⟨⟨by linarith [h1.2], by linarith [h1.1]⟩, ⟨by linarith [h2.2], by linarith [h2.1]⟩⟩, ?_⟩
        rw [rot_pi]; simp
    rw [h0, this]
    exact rectSplit_exact (by norm_num) _
  · norm_num [concrete]
  · norm_num [concrete, abs_of_pos]

theorem limits_concrete : concrete.law.ult false = (-0.0035, 100) := by
  norm_num [concrete, ConcretePart.law, ParabolaRectangle.ult, ParabolaRectangle.new, abs_of_pos]

theorem limits_steel : steel.law.ult false = (-0.0415, 0.0415) := by
  simp [steel, ElasticPlastic.law, ElasticPlastic.ult]

theorem balanced : engine.balanced 0 false = .ok (250, -200, ![0.0215, -1e-4, 0]) := by
  have hp : (concrete.solid).part 0 = ⟨true, true, -250, 250, concrete.law.ult⟩ := by
    simp only [Solid.part, ConcretePart.solid, ConcretePart.surf, Surf.ofMarin, polygon_rotate_zero, Polygon.bounds, concrete, rectRing, closeRing]
    norm_num [listMin, listMax]
  have hb : ∀ x y, ((bar x y).rotate 0).part = ⟨false, false, y, y, steel.law.ult⟩ := by
    intro x y
    simp [Bar.part, Bar.rotate, bar, rotPt_zero]
  have hpar : ([concrete].map ConcretePart.solid).map (Solid.part 0) ++ (bars.map (Bar.rotate 0)).map Bar.part =
      [⟨true, true, -250, 250, concrete.law.ult⟩, ⟨false, false, -200, -200, steel.law.ult⟩,
       ⟨false, false, -200, -200, steel.law.ult⟩, ⟨false, false, 200, 200, steel.law.ult⟩,
       ⟨false, false, 200, 200, steel.law.ult⟩] := by
    simp only [List.map_cons, List.map_nil, bars, hp, hb, List.cons_append, List.nil_append]
  have hany : ([concrete].map ConcretePart.solid).any Solid.concrete = true := rfl
  change balancedFailure (([concrete].map ConcretePart.solid).map (Solid.part 0) ++ (bars.map (Bar.rotate 0)).map Bar.part)
    (([concrete].map ConcretePart.solid).any Solid.concrete) false = _
  rw [hpar, hany]
  unfold balancedFailure
  norm_num [balStep, Part.posLimit, Part.negLimit, limits_concrete, limits_steel]

theorem corner_cases {c : (ℝ × ℝ) × ℝ × ℝ} (h : c ∈ (concreteSection [concrete] bars).corners) :
    (c.2 = (-0.0035, 100) ∧ -250 ≤ c.1.2 ∧ c.1.2 ≤ 250) ∨ (c.2 = (-0.0415, 0.0415) ∧ -200 ≤ c.1.2 ∧ c.1.2 ≤ 200) := by
  simp only [CrossSection.corners, concreteSection, List.mem_append, List.mem_flatMap, List.mem_map, List.mem_singleton] at h
  rcases h with ⟨_, ⟨p, rfl, rfl⟩, v, hv, rfl⟩ | ⟨_, ⟨b, hb, rfl⟩, rfl⟩
  · left
    refine ⟨limits_concrete, ?_⟩
    simp only [concrete, rectRing, closeRing, List.cons_append, List.nil_append,
        List.take_succ_cons, List.take_zero, List.mem_cons, List.not_mem_nil, or_false] at hv
    rcases hv with rfl | rfl | rfl | rfl | rfl <;> norm_num
  · right
    simp only [bars, List.mem_cons, List.not_mem_nil, or_false] at hb
    rcases hb with rfl | rfl | rfl | rfl
    all_goals
      refine ⟨limits_steel, ?_⟩
      norm_num [bar, Bar.fibre]

theorem height_zero (p : ℝ × ℝ) : height 0 p = p.2 := by simp [height]

theorem lim : ∀ c ∈ (concreteSection [concrete] bars).corners, c.2.1 ≤ 0 ∧ 0 ≤ c.2.2 := by
  intro c hc
  rcases corner_cases hc with ⟨h, -⟩ | ⟨h, -⟩ <;> rw [h] <;> norm_num

theorem flat : ∀ c ∈ (concreteSection [concrete] bars).corners, ∀ d ∈ (concreteSection [concrete] bars).corners,
    1e-13 * (height 0 d.1 - height 0 c.1) ≤ c.2.2 - d.2.1 := by
  intro c hc d hd
  rw [height_zero, height_zero]
  rcases corner_cases hc with ⟨h, h1, h2⟩ | ⟨h, h1, h2⟩ <;> rcases corner_cases hd with ⟨h', h1', h2'⟩ | ⟨h', h1', h2'⟩ <;>
    rw [h, h'] <;> norm_num <;> linarith

theorem gov : ∀ c ∈ (concreteSection [concrete] bars).corners,
    planeStrain ![0.0215, -1e-4, 0] 0 (-200) ≤ c.2.2 ∧ c.2.1 ≤ planeStrain ![0.0215, -1e-4, 0] 0 250 := by
  intro c hc
  rcases corner_cases hc with ⟨h, -⟩ | ⟨h, -⟩ <;> rw [h] <;> norm_num [planeStrain]

theorem sizes : EqualSizes (groupBars bars) := by
  have : groupBars bars = [⟨[(-110, -200, 500), (110, -200, 500), (-110, 200, 500), (110, 200, 500)], ⟨1, steel.law⟩⟩] := by
    simp [groupBars, bars, bar, insertBar]
  rw [this]
  intro a ha b hb
  rw [List.mem_singleton.1 ha, List.mem_singleton.1 hb]

theorem ids : SameIds (bars.map Bar.law) := by
  intro a ha b hb _
  have : ∀ a ∈ bars.map Bar.law, a.law = steel.law := by
    intro a ha
    simp only [bars, bar, List.map_cons, List.map_nil, List.mem_cons, List.not_mem_nil, or_false, or_self] at ha
    rw [ha]
  rw [this a ha, this b hb]

theorem eps_sy : steel.eps_sy = 0.0025 := by norm_num [steel, ElasticPlastic.eps_sy]

theorem steel_stress {x : ℝ} (h1 : -0.0415 ≤ x) (h2 : x ≤ 0.0415) :
    steel.law.stress x = 200000 * max (-0.0025) (min x 0.0025) := by
  have := ep_stress_clamp steel (u := 0.0415) (by norm_num [steel]) (by norm_num [steel]) rfl rfl
    (by rw [eps_sy]; norm_num) h1 h2
  rw [eps_sy] at this
  exact this

theorem K : ∀ b ∈ bars, ∀ x ∈ Set.Icc (b.law.law.ult false).1 (b.law.law.ult false).2,
    ∀ y ∈ Set.Icc (b.law.law.ult false).1 (b.law.law.ult false).2,
      |b.law.law.stress x - b.law.law.stress y| ≤ 200000 * |x - y| := by
  have := ep_lipschitz steel (u := 0.0415) (by norm_num [steel]) (by norm_num [steel]) rfl rfl (by rw [eps_sy]; norm_num)
  simp only [bars, bar, List.mem_cons, List.not_mem_nil, or_false]
  rintro b (rfl | rfl | rfl | rfl) <;> exact this

/-- Axial force of the beam. -/
theorem force (e : Fin 3 → ℝ) : (concreteSection [concrete] bars).forces e 0 =
    (∫ x in concrete.region, concrete.law.stress (planeStrain e x.1 x.2)) +
      500 * (steel.law.stress (planeStrain e (-110) (-200)) + steel.law.stress (planeStrain e 110 (-200)) +
        steel.law.stress (planeStrain e (-110) 200) + steel.law.stress (planeStrain e 110 200)) := by
  simp only [CrossSection.forces, concreteSection, bars, bar, Bar.fibre, resultants, regionResultants, lever, List.map_cons,
    List.map_nil, List.sum_cons, List.sum_nil, Pi.add_apply, Matrix.cons_val, mul_one, add_zero]
  ring_nf

theorem concrete_law (x : ℝ) : concrete.law.stress x ≤ 0 ∧ (0 < x → concrete.law.stress x = 0) := by
  have hc := C08_parabola_rectangle 20 0.002 0.0035 2 (by norm_num) (by norm_num [abs_of_pos]) (by norm_num [abs_of_pos]) (by norm_num)
  exact ⟨(hc.bounded x).2, hc.no_tension x⟩

/-- All fibres of the beam between the strains of the two edges. -/
theorem force_neg {e : Fin 3 → ℝ} (h : ∀ x y : ℝ, -250 ≤ y → y ≤ 250 → -0.0415 ≤ planeStrain e x y ∧ planeStrain e x y < 0) :
    (concreteSection [concrete] bars).forces e 0 < 0 := by
  rw [force]
  have h1 : (∫ x in concrete.region, concrete.law.stress (planeStrain e x.1 x.2)) ≤ 0 :=
    integral_nonpos fun x => (concrete_law _).1
  have h2 : ∀ x y : ℝ, -250 ≤ y → y ≤ 250 → steel.law.stress (planeStrain e x y) < 0 := by
    intro x y ha hb
    obtain ⟨p, q⟩ := h x y ha hb
    rw [steel_stress p (by linarith), min_eq_left (by linarith)]
    have : max (-0.0025) (planeStrain e x y) < 0 := max_lt (by norm_num) q
    linarith
  linarith [h2 (-110) (-200) (by norm_num) (by norm_num), h2 110 (-200) (by norm_num) (by norm_num),
    h2 (-110) 200 (by norm_num) (by norm_num), h2 110 200 (by norm_num) (by norm_num)]

theorem force_pos {e : Fin 3 → ℝ} (h : ∀ x y : ℝ, -250 ≤ y → y ≤ 250 → 0 < planeStrain e x y)
    (hs : ∀ x y : ℝ, -200 ≤ y → y ≤ 200 → planeStrain e x y ≤ 0.0415) :
    0 < (concreteSection [concrete] bars).forces e 0 := by
  rw [force]
  have h1 : (∫ x in concrete.region, concrete.law.stress (planeStrain e x.1 x.2)) = 0 := by
    rw [setIntegral_congr_fun (g := fun _ => 0) ok.encloses.measurable fun x hx => ?_]
    · simp
    · exact (concrete_law _).2 (h x.1 x.2 hx.2.1 hx.2.2)
  have h2 : ∀ x y : ℝ, -200 ≤ y → y ≤ 200 → 0 < steel.law.stress (planeStrain e x y) := by
    intro x y ha hb
    have p := h x y (by linarith) (by linarith)
    rw [steel_stress (by linarith) (hs x y ha hb), max_eq_right (by rw [le_min_iff]; constructor <;> linarith)]
    have : 0 < min (planeStrain e x y) 0.0025 := lt_min p (by norm_num)
    linarith
  rw [h1]
  linarith [h2 (-110) (-200) (by norm_num) (by norm_num), h2 110 (-200) (by norm_num) (by norm_num),
    h2 (-110) 200 (by norm_num) (by norm_num), h2 110 200 (by norm_num) (by norm_num)]

theorem low : (concreteSection [concrete] bars).forces
    (planeThrough 0 250 (planeStrain ![0.0215, -1e-4, 0] 0 250) (-1e-13)) 0 < 0 := by
  apply force_neg
  intro x y h1 h2
  have := planeThrough_height 0 250 (planeStrain ![0.0215, -1e-4, 0] 0 250) (-1e-13) (x, y)
  simp only [height_zero] at this
  rw [this]
  norm_num [planeStrain]
  constructor <;> linarith

theorem high : 0 < (concreteSection [concrete] bars).forces
    (planeThrough 0 (-200) (planeStrain ![0.0215, -1e-4, 0] 0 (-200)) (-1e-13)) 0 := by
  have hh : ∀ x y, planeStrain (planeThrough 0 (-200) (planeStrain ![0.0215, -1e-4, 0] 0 (-200)) (-1e-13)) x y =
      0.0415 - 1e-13 * (y + 200) := by
    intro x y
    have := planeThrough_height 0 (-200) (planeStrain ![0.0215, -1e-4, 0] 0 (-200)) (-1e-13) (x, y)
    simp only [height_zero] at this
    rw [this]
    norm_num [planeStrain]
    ring
  apply force_pos
  · intro x y h1 h2
    rw [hh]; norm_num; linarith
  · intro x y h1 h2
    rw [hh]; norm_num; linarith

theorem snaps : snap (concrete.law.ult false) (-0.0035) = -0.0035 ∧ snap (concrete.law.ult false) 0.0415 = 0.0415 := by
  rw [limits_concrete]
  constructor
  · have h1 : ¬ isclose (-0.0035) 100 := by norm_num [isclose, abs_of_pos, abs_of_neg]
    simp [snap, h1]
  · have h1 : ¬ isclose 0.0415 100 := by norm_num [isclose, abs_of_pos, abs_of_neg]
    have h2 : ¬ isclose 0.0415 (-0.0035) := by norm_num [isclose, abs_of_pos, abs_of_neg]
    simp [snap, h1, h2]

theorem limit_loads : (limits engine .fresh).2 = .ok ((concreteSection [concrete] bars).forces ![-0.0035, 0, 0] 0,
    (concreteSection [concrete] bars).forces ![0.0415, 0, 0] 0) := by
  have h1 : (![0.0215, -1e-4, 0] : Fin 3 → ℝ) 0 + (![0.0215, -1e-4, 0] : Fin 3 → ℝ) 1 * 250 = -0.0035 := by norm_num
  have h2 : (![0.0215, -1e-4, 0] : Fin 3 → ℝ) 0 + (![0.0215, -1e-4, 0] : Fin 3 → ℝ) 1 * (-200) = 0.0415 := by norm_num
  have := C66_limits_partial split [concrete] bars 0.01 (by
      intro p hp
      rw [List.mem_singleton.1 hp]
      exact ⟨ok.encloses, ok.peak, by norm_num [concrete, abs_of_pos]⟩) ids sizes balanced (by
      intro p hp
      rw [List.mem_singleton.1 hp, h1, h2]
      exact snaps)
  rw [h1, h2] at this
  exact this

/-- Pure bending is accepted. -/
theorem accepted : (checkAxialLoad engine 0 .fresh).2 = .ok () := by
  have hl := limit_loads
  have hp : ∀ a x y : ℝ, planeStrain ![a, 0, 0] x y = a := by
    intro a x y; simp [planeStrain]
  have h1 : (concreteSection [concrete] bars).forces ![-0.0035, 0, 0] 0 < 0 := by
    apply force_neg
    intro x y _ _
    rw [hp]; norm_num
  have h2 : 0 < (concreteSection [concrete] bars).forces ![0.0415, 0, 0] 0 := by
    apply force_pos
    · intro x y _ _; rw [hp]; norm_num
    · intro x y _ _; rw [hp]
  simp only [checkAxialLoad, CalcM.bind_def]
  rcases h : limits engine .fresh with ⟨s, r⟩
  rw [h] at hl
  simp only at hl
  subst hl
  simp only
  rw [if_neg (by push Not; exact ⟨h1.le, h2.le⟩)]
  rfl

theorem stiff : ∀ y, y = -200 ∨ y = 250 →
    forceSlope [concrete] bars 200000 0 y * |-1e-13 - (![0.0215, -1e-4, 0] : Fin 3 → ℝ) 1| ≤ 2 ^ 99 * 1e-2 := by
  intro y hy
  have hi : (∫ x in concrete.region, |height 0 x - y|) ≤ 500 * 150000 := by
    have hb : ∀ x ∈ concrete.region, ‖|height 0 x - y|‖ ≤ 500 := by
      intro x hx
      rw [height_zero, Real.norm_eq_abs, abs_abs, abs_le]
      have := hx.2
      rcases hy with rfl | rfl <;> constructor <;> linarith [this.1, this.2]
    have hm : volume concrete.region = ENNReal.ofReal 150000 := by
      simp only [concrete]
      rw [Measure.volume_eq_prod, Measure.prod_prod, Real.volume_Icc, Real.volume_Icc, ← ENNReal.ofReal_mul (by norm_num)]
      norm_num
    have := norm_setIntegral_le_of_norm_le_const (μ := volume) (s := concrete.region) (by rw [hm]; exact ENNReal.ofReal_lt_top) hb
    rw [Measure.real, hm, ENNReal.toReal_ofReal (by norm_num)] at this
    exact (le_abs_self _).trans this
  have hs : forceSlope [concrete] bars 200000 0 y ≤ 1e20 := by
    simp only [forceSlope, bars, bar, List.map_cons, List.map_nil, List.sum_cons, List.sum_nil, height_zero]
    have h1 : 2 * |concrete.fc| / |concrete.eps_0| = 20000 := by norm_num [concrete, abs_of_pos]
    rw [h1]
    have h2 : |(-200:ℝ) - y| ≤ 450 := by rcases hy with rfl | rfl <;> norm_num [abs_of_neg]
    have h3 : |(200:ℝ) - y| ≤ 450 := by rcases hy with rfl | rfl <;> norm_num [abs_of_pos, abs_of_neg]
    simp only [height_zero] at hi
    norm_num
    linarith
  have h4 : |-1e-13 - (![0.0215, -1e-4, 0] : Fin 3 → ℝ) 1| ≤ 1 := by
    norm_num [abs_le]
  calc _ ≤ 1e20 * |-1e-13 - (![0.0215, -1e-4, 0] : Fin 3 → ℝ) 1| := mul_le_mul_of_nonneg_right hs (abs_nonneg _)
    _ ≤ 1e20 * 1 := mul_le_mul_of_nonneg_left h4 (by norm_num)
    _ ≤ _ := by norm_num

/-- The bending strength of the beam is returned; the plane is admissible, at a limit, and carries exactly the returned forces;
for all but countably many loads between the end planes the axial force is within 0.01 of the load. -/
example (lu : Matrix (Fin 3) (Fin 3) ℝ → (Fin 3 → ℝ) → (Fin 3 → ℝ)) :
    ∃ b, (bendingStrength engine 0 0 .fresh).2 = .ok b ∧
      (concreteSection [concrete] bars).forces ![b.eps_a, b.chi.1, b.chi.2] = ![b.n, b.m.1, b.m.2] ∧
      (concreteSection [concrete] bars).AtLimit ![b.eps_a, b.chi.1, b.chi.2] ∧
      (concreteSection [concrete] bars).Admissible ![b.eps_a, b.chi.1, b.chi.2] := by
  have hok : ∀ p ∈ [concrete], p.Ok split 0 := by
    intro p hp
    rw [List.mem_singleton.1 hp]
    exact ok
  have hbal : (sectionEngine split ([concrete].map ConcretePart.solid) bars 0.01).balanced (-0) false =
      .ok (250, -200, ![0.0215, -1e-4, 0]) := by
    rw [neg_zero]; exact balanced
  obtain ⟨b, hb⟩ := C66_returns split [concrete] bars 0.01 0 0 lu [] trivial hok ids sizes lim flat hbal gov K stiff accepted low high
  obtain ⟨C, -, hC⟩ := C66_reinforced_concrete_partial split [concrete] bars 0.01 0 lu hok ids sizes lim flat hbal gov
  obtain ⟨-, h1, h2, h3, -⟩ := hC 0 [] b trivial hb
  exact ⟨b, hb, h1, h2, h3⟩

end RCBeam

end SC
