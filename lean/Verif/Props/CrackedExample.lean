import Verif.Props.CrackedMore

/-! # C63: a rectangle 300 x 500 with two bars -/

set_option autoImplicit false

namespace SC

open Spec MeasureTheory

noncomputable section

/-- The rectangle. -/
def beamPoly : Polygon := ⟨rectRing (-150) 150 (-250) 250, []⟩

/-- Its region. -/
def beamRegion : Set (ℝ × ℝ) := Set.Icc (-150) 150 ×ˢ Set.Icc (-250) 250

/-- Concrete of modulus 30000. -/
def beamConcrete : Material := ⟨2500, none, none, none, Elastic.law ⟨30000, none⟩⟩

/-- Steel of modulus 200000. -/
def beamSteel : Material := ⟨7850, none, none, none, Elastic.law ⟨200000, none⟩⟩

/-- The surface. -/
def beamParts : List (RSurf × Set (ℝ × ℝ)) := [(⟨beamPoly, beamConcrete, true⟩, beamRegion)]

/-- The bars. -/
def beamBars : List GBar := [⟨(-100, -150), 150, beamSteel⟩, ⟨(100, -150), 150, beamSteel⟩]

theorem beam_bounds : beamPoly.bounds = (-150, -250, 150, 250) := by
  norm_num [beamPoly, rectRing, closeRing, Polygon.bounds, listMin, listMax]

theorem beam_box : beamPoly.box = beamRegion := by
  unfold Polygon.box beamRegion
  rw [beam_bounds]

theorem beam_encloses : Encloses beamPoly.ext beamPoly.ints beamRegion := encloses_rect (by norm_num) (by norm_num)

theorem rect_height {z : ℝ} (hz : z ≤ 250) (hz' : -250 ≤ z) :
    ∫ x in beamRegion ∩ upperSide 0 z, (height 0 x - z) = 150 * (250 - z) ^ 2 := by
  have e : beamRegion ∩ upperSide 0 z = Set.Icc (-150) 150 ×ˢ Set.Icc z 250 := by
    ext x
    simp only [beamRegion, upperSide, height, Set.mem_inter_iff, Set.mem_prod, Set.mem_Icc, Set.mem_ofPred_eq,
      Real.cos_zero, Real.sin_zero, mul_one, mul_zero, sub_zero]
    constructor
    · rintro ⟨⟨h1, h2⟩, h3⟩; exact ⟨h1, h3, h2.2⟩
    · rintro ⟨h1, h2, h3⟩; exact ⟨⟨h1, by linarith, h3⟩, h2⟩
  have hb : Bornology.IsBounded (Set.Icc (-150 : ℝ) 150 ×ˢ Set.Icc z 250) :=
    (Metric.isBounded_Icc _ _).prod (Metric.isBounded_Icc _ _)
  have hf : (fun x : ℝ × ℝ => height 0 x - z) = fun x => x.1 ^ 0 * x.2 ^ 1 - z * (x.1 ^ 0 * x.2 ^ 0) := by
    funext x; simp [height]
  have i1 : IntegrableOn (fun x : ℝ × ℝ => x.1 ^ 0 * x.2 ^ 1) (Set.Icc (-150 : ℝ) 150 ×ˢ Set.Icc z 250) :=
    continuous_integrableOn (by fun_prop) hb
  have i2 : IntegrableOn (fun x : ℝ × ℝ => z * (x.1 ^ 0 * x.2 ^ 0)) (Set.Icc (-150 : ℝ) 150 ×ˢ Set.Icc z 250) :=
    continuous_integrableOn (by fun_prop) hb
  rw [e, hf, integral_sub i1 i2, integral_const_mul]
  have p1 := plate_moment (y0 := -150) (y1 := 150) (z0 := z) (z1 := 250) (by norm_num) hz 0 1
  have p2 := plate_moment (y0 := -150) (y1 := 150) (z0 := z) (z1 := 250) (by norm_num) hz 0 0
  unfold plateIntegral at p1 p2
  rw [p1, p2]
  norm_num
  ring

theorem beam_modulus : initialModulus beamConcrete = 30000 ∧ initialModulus beamSteel = 200000 := by
  simp [initialModulus, beamConcrete, beamSteel, Elastic.law, Elastic.tangent]

theorem beam_imbalance {z : ℝ} (hz : z ≤ 250) (hz' : -250 ≤ z) :
    axisImbalance 0 (beamParts.map fun p => p.1.member p.2) (beamBars.map GBar.rigidPoint) z =
      4500000 * (250 - z) ^ 2 - 60000000 * (150 + z) := by
  have := rect_height hz hz'
  simp only [axisImbalance, beamParts, beamBars, List.map_cons, List.map_nil, List.sum_cons, List.sum_nil, RSurf.member,
    Member.working, if_true, GBar.rigidPoint, beam_modulus.1, beam_modulus.2, this]
  simp only [height, Real.cos_zero, Real.sin_zero]
  ring

theorem beam_members : GoodMembers (beamParts.map fun p => p.1.member p.2) (beamBars.map GBar.rigidPoint) := by
  refine ⟨?_, ?_, ?_, ?_⟩
  · simp only [beamParts, List.map_cons, List.map_nil, List.mem_singleton]
    rintro m rfl
    exact beam_encloses.measurable
  · simp only [beamParts, List.map_cons, List.map_nil, List.mem_singleton]
    rintro m rfl
    exact beam_encloses.bounded
  · simp only [beamParts, List.map_cons, List.map_nil, List.mem_singleton]
    rintro m rfl
    simp [RSurf.member, beam_modulus.1]
  · simp [beamBars, GBar.rigidPoint, beam_modulus.2]

theorem beam_input : CrackInput (rectSplit (-150) 150 (-250) 250) boxShapely 0 beamParts beamBars := by
  have hB : Bounds beamPoly beamRegion := by
    refine ⟨beam_encloses, ?_⟩
    simp only [areaMoment, pow_zero, one_mul, integral_const, smul_eq_mul, mul_one, Measure.real, beamRegion]
    rw [Measure.restrict_apply_univ, Measure.volume_eq_prod, Measure.prod_prod, Real.volume_Icc, Real.volume_Icc]
    norm_num
  have hsize : ∀ p ∈ beamParts, ∀ x ∈ p.2, |height 0 x| ≤ 1e6 := by
    simp only [beamParts, List.mem_singleton]
    rintro p rfl x hx
    have := hx.2
    simp only [height, Real.cos_zero, Real.sin_zero, mul_one, mul_zero, sub_zero]
    rw [abs_le]
    norm_num
    constructor <;> linarith [this.1, this.2]
  have hbsize : ∀ b ∈ beamBars, |height 0 b.pt| ≤ 1e6 := by
    simp only [beamBars, List.mem_cons, List.not_mem_nil, or_false]
    rintro b (rfl | rfl) <;> simp only [height, Real.cos_zero, Real.sin_zero] <;> norm_num [abs_of_neg]
  have hsteel : (beamBars.map fun b => initialModulus b.mat * b.area).sum = 60000000 := by
    simp only [beamBars, List.map_cons, List.map_nil, List.sum_cons, List.sum_nil, beam_modulus.2]
    norm_num
  have hst2 : ((beamBars.map GBar.rigidPoint).map Prod.fst).sum = 60000000 := by
    rw [List.map_map]; exact hsteel
  refine ⟨?_, ?_, ?_, ?_, ?_, ?_, ?_, hsize, hbsize, ?_, ?_⟩
  · simp only [beamParts, List.mem_singleton]
    rintro p rfl
    exact hB
  · simp only [beamParts, List.mem_singleton]
    rintro p rfl
    rw [beam_modulus.1]; norm_num
  · simp only [beamBars, List.mem_cons, List.not_mem_nil, or_false]
    rintro b (rfl | rfl) <;> simp only [beam_modulus.2] <;> norm_num
  · simp only [beamBars, List.mem_cons, List.not_mem_nil, or_false]
    rintro b (rfl | rfl) <;> norm_num
  · rw [hsteel]; norm_num
  · simp only [beamParts, List.mem_singleton]
    rintro p rfl _
    have : rotPt (-Real.pi - 0) '' beamRegion = beamRegion := by
      have hr : ∀ x, rotPt (-Real.pi - 0) x = (-x.1, -x.2) := by
        intro x; simp [rotPt]
      ext x
      constructor
      · rintro ⟨y, ⟨h1, h2⟩, rfl⟩
        rw [hr]
        exact ⟨⟨by linarith [h1.2], by linarith [h1.1]⟩, ⟨by linarith [h2.2], by linarith [h2.1]⟩⟩
      · rintro ⟨h1, h2⟩
        refine ⟨(-x.1, -x.2), ⟨⟨by linarith [h1.2], by linarith [h1.1]⟩, ⟨by linarith [h2.2], by linarith [h2.1]⟩⟩, ?_⟩
        rw [hr]; simp
    simp only [this]
    exact rectSplit_exact (by norm_num) _
  · simp only [beamParts, List.mem_singleton]
    rintro p rfl a b hab hz _
    have e1 : rotPt (-0) '' beamRegion = beamPoly.box := by
      have : rotPt (-0) = id := by funext x; rw [neg_zero]; exact rotPt_zero x
      rw [this, Set.image_id, beam_box]
    simp only
    rw [e1, neg_zero, polygon_rotate_zero]
    exact boxShapely_cuts (bounds_ext_ne beam_encloses) (by rw [beam_bounds]; norm_num) (by rw [beam_bounds]; norm_num)
      hab hz
  · have hA : ∫ _ in beamRegion, (1 : ℝ) = 150000 := by
      simp only [integral_const, smul_eq_mul, mul_one, Measure.real, beamRegion]
      rw [Measure.restrict_apply_univ, Measure.volume_eq_prod, Measure.prod_prod, Real.volume_Icc, Real.volume_Icc,
        ENNReal.toReal_mul, ENNReal.toReal_ofReal (by norm_num), ENNReal.toReal_ofReal (by norm_num)]
      norm_num
    rw [rigidity, hst2]
    simp only [beamParts, List.map_cons, List.map_nil, List.sum_cons, List.sum_nil, RSurf.member, hA, beam_modulus.1]
    norm_num
  · intro s hs p m hp hEq
    obtain ⟨z0, -, -, hroot⟩ := axisImb_root beam_members 0 (H := 1e6)
      (by
        intro a ha
        obtain ⟨q, hq, rfl⟩ := List.mem_map.1 ha
        exact hsize q hq)
      (by
        intro a ha
        obtain ⟨q, hq, rfl⟩ := List.mem_map.1 ha
        exact hbsize q hq) (by rw [hst2]; norm_num)
    rw [hst2] at hroot
    have uniq : ∀ x, axisImbalance 0 (beamParts.map fun p => p.1.member p.2) (beamBars.map GBar.rigidPoint) x = 0 →
        x = z0 := by
      intro x hx
      have := hroot x
      rw [hx, abs_zero] at this
      have h1 : |x - z0| = 0 := le_antisymm (by linarith) (abs_nonneg _)
      exact sub_eq_zero.1 (abs_eq_zero.1 h1)
    have e1 := uniq _ hEq
    have e2 := uniq (550 / 3) (by rw [beam_imbalance (by norm_num) (by norm_num)]; norm_num)
    rw [← e2] at e1
    have h2 : (0 : ℝ) < 2 ^ m := by positivity
    have hp' : (0 : ℝ) < p := by exact_mod_cast hp
    rcases hs with rfl | rfl
    · have h3 : (6 * p : ℝ) = 11 * 2 ^ m := by
        field_simp at e1
        linarith
      have h4 : 6 * p = 11 * 2 ^ m := by exact_mod_cast h3
      have h5 : 3 ∣ 11 * 2 ^ m := ⟨2 * p, by omega⟩
      rcases (Nat.Prime.dvd_mul Nat.prime_three).1 h5 with h6 | h6
      · omega
      · exact absurd (Nat.Prime.dvd_of_dvd_pow Nat.prime_three h6) (by norm_num)
    · have : -1 * 100 * (p : ℝ) / 2 ^ m < 0 := div_neg_of_neg_of_pos (by linarith) h2
      linarith

/-- Non-vacuity of the theorems of C63: the cracked geometry of this beam is cut within 0.00002 mm of the exact height
`550 / 3`. -/
example : ∃ g z pieces, crackedGeometry (marinCrack (rectSplit (-150) 150 (-250) 250)) boxShapely 0
      (beamParts.map Prod.fst) beamBars = .ok g ∧ IsCracked 0 z beamParts beamBars g pieces ∧ |z - 550 / 3| ≤ 2e-5 := by
  obtain ⟨g, z, z0, pieces, h1, h2, -, h4, h5⟩ := C63_geometry_partial beam_input
  refine ⟨g, z, pieces, h1, h2, ?_⟩
  have hz0 : 550 / 3 = z0 := (h4 _).1 (by rw [beam_imbalance (by norm_num) (by norm_num)]; norm_num)
  have hsteel : (beamBars.map fun b => initialModulus b.mat * b.area).sum = 60000000 := by
    simp only [beamBars, List.map_cons, List.map_nil, List.sum_cons, List.sum_nil, beam_modulus.2]
    norm_num
  rw [hsteel, ← hz0] at h5
  norm_num at h5 ⊢
  linarith

/-- The same beam without bars: `ValueError`. -/
example (sh : Shapely) (eig : ℝ → ℝ → ℝ → Eig) (union : List Polygon → ShapelyResult) :
    crackedProperties (marinCrack (rectSplit (-150) 150 (-250) 250)) sh eig union 0 (beamParts.map Prod.fst) [] =
      .error .valueError := by
  have h := beam_input
  refine C63_plain_violated _ _ _ _ 0 beamParts (by simp [beamParts]) ?_ (fun p hp => (h.bounds p hp).1) h.modulus ?_ h.size ?_
  · simp [beamParts]
  · intro p hp
    exact h.clip p hp (by simp only [beamParts, List.mem_singleton] at hp; rw [hp])
  · have := rect_height (z := 0) (by norm_num) (by norm_num)
    simp only [axisImbalance, beamParts, List.map_cons, List.map_nil, List.sum_cons, List.sum_nil, RSurf.member,
      Member.working, if_true, beam_modulus.1, this]
    norm_num

end

end SC
