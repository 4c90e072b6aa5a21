import Verif.Spec.Maximum
import Verif.Props.OrdinaryMaterials
import Verif.Props.RCCurvature
import Verif.Props.DomainForces
import Verif.Props.DiscretizeSection

/-! # C74: the strength is the largest moment -/

set_option autoImplicit false

namespace SC

open Spec MeasureTheory

/-- The moment about the inclined axis as one integral per part. -/
theorem moment_tilt {S : CrossSection} (h : S.NonSoftening) (th h0 : ℝ) (e e' : Fin 3 → ℝ)
    (hp : ∀ p ∈ S.plates, ∀ x ∈ p.region,
      0 ≤ (p.response (planeStrain e' x.1 x.2) - p.response (planeStrain e x.1 x.2)) * (height th x - h0))
    (hr : ∀ r ∈ S.rods,
      0 ≤ (r.fibre.resp (planeStrain e' r.fibre.y r.fibre.z) - r.fibre.resp (planeStrain e r.fibre.y r.fibre.z)) *
        (height th (r.fibre.y, r.fibre.z) - h0)) :
    bendingMoment th (S.forces e') ≤ bendingMoment th (S.forces e) - h0 * (S.forces e' 0 - S.forces e 0) := by
  have key : ∀ e : Fin 3 → ℝ, S.forces e 1 * Real.cos th + S.forces e 2 * Real.sin th - h0 * S.forces e 0 =
      (S.plates.map fun p => ∫ x in p.region, p.response (planeStrain e x.1 x.2) * (height th x - h0)).sum +
      (S.rods.map fun r => r.fibre.A * r.fibre.resp (planeStrain e r.fibre.y r.fibre.z) *
        (height th (r.fibre.y, r.fibre.z) - h0)).sum := by
    intro e
    have h1 : ∀ p ∈ S.plates, ∫ x in p.region, p.response (planeStrain e x.1 x.2) * (height th x - h0) =
        Real.cos th * regionResultants p.region p.response e 1 + Real.sin th * regionResultants p.region p.response e 2 +
          -h0 * regionResultants p.region p.response e 0 := by
      intro p hp
      simp only [regionResultants]
      rw [← integral_const_mul, ← integral_const_mul, ← integral_const_mul,
        ← integral_add ((h.integrable p hp e 1).const_mul _) ((h.integrable p hp e 2).const_mul _),
        ← integral_add (f := fun x : ℝ × ℝ => Real.cos th * (p.response (planeStrain e x.1 x.2) * lever x.1 x.2 1) +
            Real.sin th * (p.response (planeStrain e x.1 x.2) * lever x.1 x.2 2))
          (((h.integrable p hp e 1).const_mul _).add ((h.integrable p hp e 2).const_mul _)) ((h.integrable p hp e 0).const_mul _)]
      congr 1
      funext x
      simp only [height, lever, Matrix.cons_val]
      ring
    rw [List.map_congr_left h1]
    have h2 : (S.rods.map fun r => r.fibre.A * r.fibre.resp (planeStrain e r.fibre.y r.fibre.z) *
        (height th (r.fibre.y, r.fibre.z) - h0)) =
        S.rods.map fun r => Real.cos th * (r.fibre.A * r.fibre.resp (planeStrain e r.fibre.y r.fibre.z) * lever r.fibre.y r.fibre.z 1) +
          Real.sin th * (r.fibre.A * r.fibre.resp (planeStrain e r.fibre.y r.fibre.z) * lever r.fibre.y r.fibre.z 2) +
          -h0 * (r.fibre.A * r.fibre.resp (planeStrain e r.fibre.y r.fibre.z) * lever r.fibre.y r.fibre.z 0) := by
      apply List.map_congr_left
      intro r _
      simp only [height, lever, Matrix.cons_val]
      ring
    rw [h2]
    simp only [List.sum_map_add, List.sum_map_mul_left, CrossSection.forces, Pi.add_apply, list_sum_apply, resultants,
      List.map_map, Function.comp_def]
    ring
  have h1 : (S.plates.map fun p => ∫ x in p.region, p.response (planeStrain e x.1 x.2) * (height th x - h0)).sum ≤
      (S.plates.map fun p => ∫ x in p.region, p.response (planeStrain e' x.1 x.2) * (height th x - h0)).sum := by
    refine List.sum_le_sum fun p hm => ?_
    have hi : ∀ e : Fin 3 → ℝ, IntegrableOn (fun x : ℝ × ℝ => p.response (planeStrain e x.1 x.2) * (height th x - h0)) p.region := by
      intro e
      refine Integrable.congr ((((h.integrable p hm e 1).const_mul (Real.cos th)).add
        ((h.integrable p hm e 2).const_mul (Real.sin th))).add ((h.integrable p hm e 0).const_mul (-h0)))
        (Filter.Eventually.of_forall fun x => ?_)
      simp only [height, lever, Matrix.cons_val, Pi.add_apply]
      ring
    refine setIntegral_mono_on (hi e) (hi e') (h.region p hm).1 fun x hx => ?_
    have := hp p hm x hx
    linarith
  have h2 : (S.rods.map fun r => r.fibre.A * r.fibre.resp (planeStrain e r.fibre.y r.fibre.z) *
        (height th (r.fibre.y, r.fibre.z) - h0)).sum ≤
      (S.rods.map fun r => r.fibre.A * r.fibre.resp (planeStrain e' r.fibre.y r.fibre.z) *
        (height th (r.fibre.y, r.fibre.z) - h0)).sum := by
    refine List.sum_le_sum fun r hm => ?_
    have := mul_nonneg (h.area r hm) (hr r hm)
    linarith
  have k1 := key e
  have k2 := key e'
  simp only [bendingMoment]
  linarith

/-- Strains of a plane about the inclined axis. -/
theorem planeThrough_at (th v c : ℝ) (x : ℝ × ℝ) : planeStrain (planeThrough th 0 v c) x.1 x.2 = v + c * height th x := by
  rw [planeThrough_height]; ring

/-- Points of a part within the limits. -/
theorem admissible_plate {S : CrossSection} (h : S.NonSoftening) {e : Fin 3 → ℝ} (ha : S.Admissible e) {p : Plate} (hp : p ∈ S.plates)
    {x : ℝ × ℝ} (hx : x ∈ p.region) : planeStrain e x.1 x.2 ∈ Set.Icc p.lo p.hi :=
  ha.1 p hp x ((h.region p hp).2 hx)

theorem admissible_corner {S : CrossSection} {e : Fin 3 → ℝ} (ha : S.Admissible e) :
    ∀ k ∈ S.corners, k.2.1 ≤ planeStrain e k.1.1 k.1.2 ∧ planeStrain e k.1.1 k.1.2 ≤ k.2.2 := by
  intro k hk
  simp only [CrossSection.corners, List.mem_append, List.mem_flatMap, List.mem_map] at hk
  rcases hk with ⟨p, hp, v, hv, rfl⟩ | ⟨r, hr, rfl⟩
  · exact ha.1 p hp v (subset_convexHull ℝ _ hv)
  · exact ha.2 r hr

/-- From a pivot: a height `h0` within the section at which the two stress distributions cross. -/
theorem moment_cross {S : CrossSection} (h : S.NonSoftening) {th R h0 : ℝ} (hR : |h0| ≤ R) (e e' : Fin 3 → ℝ)
    (hp : ∀ p ∈ S.plates, ∀ x ∈ p.region,
      0 ≤ (p.response (planeStrain e' x.1 x.2) - p.response (planeStrain e x.1 x.2)) * (height th x - h0))
    (hr : ∀ r ∈ S.rods,
      0 ≤ (r.fibre.resp (planeStrain e' r.fibre.y r.fibre.z) - r.fibre.resp (planeStrain e r.fibre.y r.fibre.z)) *
        (height th (r.fibre.y, r.fibre.z) - h0)) :
    bendingMoment th (S.forces e') ≤ bendingMoment th (S.forces e) + R * |S.forces e' 0 - S.forces e 0| := by
  have := moment_tilt h th h0 e e' hp hr
  have h1 : -h0 * (S.forces e' 0 - S.forces e 0) ≤ R * |S.forces e' 0 - S.forces e 0| := by
    refine (le_abs_self _).trans ?_
    rw [abs_mul, abs_neg]
    exact mul_le_mul_of_nonneg_right hR (abs_nonneg _)
  linarith

/-- Stresses that are nowhere larger. -/
theorem moment_below {S : CrossSection} (h : S.NonSoftening) {th R : ℝ} (hR : S.Within th R) (hR0 : 0 ≤ R) (e e' : Fin 3 → ℝ)
    (hp : ∀ p ∈ S.plates, ∀ x ∈ p.region, p.response (planeStrain e' x.1 x.2) ≤ p.response (planeStrain e x.1 x.2))
    (hr : ∀ r ∈ S.rods, r.fibre.resp (planeStrain e' r.fibre.y r.fibre.z) ≤ r.fibre.resp (planeStrain e r.fibre.y r.fibre.z)) :
    bendingMoment th (S.forces e') ≤ bendingMoment th (S.forces e) + R * |S.forces e' 0 - S.forces e 0| ∧
    bendingMoment th (S.forces e) ≤ bendingMoment th (S.forces e') + R * |S.forces e 0 - S.forces e' 0| := by
  constructor
  · refine moment_cross h (h0 := R) (by rw [abs_of_nonneg hR0]) e e' (fun p hm x hx => ?_) fun r hm => ?_
    · have := abs_le.1 (hR.1 p hm x hx)
      exact mul_nonneg_of_nonpos_of_nonpos (by linarith [hp p hm x hx]) (by linarith)
    · have := abs_le.1 (hR.2 r hm)
      exact mul_nonneg_of_nonpos_of_nonpos (by linarith [hr r hm]) (by linarith)
  · refine moment_cross h (h0 := -R) (by rw [abs_neg, abs_of_nonneg hR0]) e' e (fun p hm x hx => ?_) fun r hm => ?_
    · have := abs_le.1 (hR.1 p hm x hx)
      exact mul_nonneg (by linarith [hp p hm x hx]) (by linarith)
    · have := abs_le.1 (hR.2 r hm)
      exact mul_nonneg (by linarith [hr r hm]) (by linarith)

/-- The moment does not fall when the curvature grows: of two admissible planes with the same direction of bending, the one with the
larger curvature (more negative `c`) carries at least the moment of the other, up to the difference of the axial forces times the
size of the section. -/
theorem moment_curvature_mono {S : CrossSection} (h : S.NonSoftening) {th R : ℝ} (hR : S.Within th R) (hR0 : 0 ≤ R) {v c v' c' : ℝ}
    (hc : c ≤ c') (ha : S.Admissible (planeThrough th 0 v c)) (ha' : S.Admissible (planeThrough th 0 v' c')) :
    bendingMoment th (S.forces (planeThrough th 0 v' c')) ≤ bendingMoment th (S.forces (planeThrough th 0 v c)) +
      R * |S.forces (planeThrough th 0 v' c') 0 - S.forces (planeThrough th 0 v c) 0| := by
  have hpm : ∀ p ∈ S.plates, ∀ x ∈ p.region, (v' + c' * height th x ≤ v + c * height th x →
      p.response (planeStrain (planeThrough th 0 v' c') x.1 x.2) ≤ p.response (planeStrain (planeThrough th 0 v c) x.1 x.2)) ∧
      (v + c * height th x ≤ v' + c' * height th x →
      p.response (planeStrain (planeThrough th 0 v c) x.1 x.2) ≤ p.response (planeStrain (planeThrough th 0 v' c') x.1 x.2)) := by
    intro p hp x hx
    have m1 := admissible_plate h ha hp hx
    have m2 := admissible_plate h ha' hp hx
    refine ⟨fun hl => h.plates_mono p hp m2 m1 ?_, fun hl => h.plates_mono p hp m1 m2 ?_⟩ <;> rwa [planeThrough_at, planeThrough_at]
  have hrm : ∀ r ∈ S.rods, (v' + c' * height th (r.fibre.y, r.fibre.z) ≤ v + c * height th (r.fibre.y, r.fibre.z) →
      r.fibre.resp (planeStrain (planeThrough th 0 v' c') r.fibre.y r.fibre.z) ≤
        r.fibre.resp (planeStrain (planeThrough th 0 v c) r.fibre.y r.fibre.z)) ∧
      (v + c * height th (r.fibre.y, r.fibre.z) ≤ v' + c' * height th (r.fibre.y, r.fibre.z) →
      r.fibre.resp (planeStrain (planeThrough th 0 v c) r.fibre.y r.fibre.z) ≤
        r.fibre.resp (planeStrain (planeThrough th 0 v' c') r.fibre.y r.fibre.z)) := by
    intro r hr
    have p1 := planeThrough_at th v c (r.fibre.y, r.fibre.z)
    have p2 := planeThrough_at th v' c' (r.fibre.y, r.fibre.z)
    simp only at p1 p2
    refine ⟨fun hl => h.rods_mono r hr (ha'.2 r hr) (ha.2 r hr) ?_, fun hl => h.rods_mono r hr (ha.2 r hr) (ha'.2 r hr) ?_⟩ <;>
      rw [p1, p2] <;> exact hl
  have hlow : (∀ x : ℝ × ℝ, |height th x| ≤ R → v' + c' * height th x ≤ v + c * height th x) →
      bendingMoment th (S.forces (planeThrough th 0 v' c')) ≤ bendingMoment th (S.forces (planeThrough th 0 v c)) +
        R * |S.forces (planeThrough th 0 v' c') 0 - S.forces (planeThrough th 0 v c) 0| := fun hl =>
    (moment_below h hR hR0 (planeThrough th 0 v c) (planeThrough th 0 v' c')
      (fun p hp x hx => (hpm p hp x hx).1 (hl x (hR.1 p hp x hx))) fun r hr => (hrm r hr).1 (hl _ (hR.2 r hr))).1
  have hhigh : (∀ x : ℝ × ℝ, |height th x| ≤ R → v + c * height th x ≤ v' + c' * height th x) →
      bendingMoment th (S.forces (planeThrough th 0 v' c')) ≤ bendingMoment th (S.forces (planeThrough th 0 v c)) +
        R * |S.forces (planeThrough th 0 v' c') 0 - S.forces (planeThrough th 0 v c) 0| := fun hl =>
    (moment_below h hR hR0 (planeThrough th 0 v' c') (planeThrough th 0 v c)
      (fun p hp x hx => (hpm p hp x hx).2 (hl x (hR.1 p hp x hx))) fun r hr => (hrm r hr).2 (hl _ (hR.2 r hr))).2
  rcases hc.eq_or_lt with rfl | hc
  · rcases le_total v' v with hv | hv
    · exact hlow fun x _ => by linarith
    · exact hhigh fun x _ => by linarith
  · set h0 := (v - v') / (c' - c) with hh0
    have hpos : 0 < c' - c := by linarith
    have hd : ∀ y, (v' + c' * y) - (v + c * y) = (c' - c) * (y - h0) := by
      intro y
      rw [hh0]; field_simp; ring
    by_cases hb : |h0| ≤ R
    · refine moment_cross h hb _ _ (fun p hp x hx => ?_) fun r hr => ?_
      · have := hd (height th x)
        rcases le_total (height th x) h0 with hy | hy
        · exact mul_nonneg_of_nonpos_of_nonpos (by
            linarith [(hpm p hp x hx).1 (by nlinarith)]) (by linarith)
        · exact mul_nonneg (by linarith [(hpm p hp x hx).2 (by nlinarith)]) (by linarith)
      · have := hd (height th (r.fibre.y, r.fibre.z))
        rcases le_total (height th (r.fibre.y, r.fibre.z)) h0 with hy | hy
        · exact mul_nonneg_of_nonpos_of_nonpos (by
            linarith [(hrm r hr).1 (by nlinarith)]) (by linarith)
        · exact mul_nonneg (by linarith [(hrm r hr).2 (by nlinarith)]) (by linarith)
    · push Not at hb
      rcases lt_abs.1 hb with hb | hb
      · exact hlow fun x hx => by
          have := hd (height th x)
          have := (abs_le.1 hx).2
          nlinarith
      · exact hhigh fun x hx => by
          have := hd (height th x)
          have := (abs_le.1 hx).1
          nlinarith

/-- No admissible plane with the same direction of bending carries a larger moment than an ultimate one, up to the difference of
the axial forces times the size of the section. -/
theorem ultimate_maximal {S : CrossSection} (h : S.NonSoftening) {th R : ℝ} (hR : S.Within th R) (hR0 : 0 ≤ R) {v c v' c' : ℝ}
    (ha : S.Admissible (planeThrough th 0 v c)) (hu : S.Ultimate th (planeThrough th 0 v c))
    (ha' : S.Admissible (planeThrough th 0 v' c')) :
    bendingMoment th (S.forces (planeThrough th 0 v' c')) ≤ bendingMoment th (S.forces (planeThrough th 0 v c)) +
      R * |S.forces (planeThrough th 0 v' c') 0 - S.forces (planeThrough th 0 v c) 0| := by
  rcases le_or_gt c c' with hc | hc
  · exact moment_curvature_mono h hR hR0 hc ha ha'
  · have hcor := admissible_corner ha'
    rcases hu with ⟨k, hk, hlim, hex⟩ | ⟨k, hk, hlim, hex⟩
    · have hk' := (hcor k hk).1
      rw [← hlim, planeThrough_at, planeThrough_at] at hk'
      refine (moment_below h hR hR0 (planeThrough th 0 v' c') (planeThrough th 0 v c) (fun p hp x hx => ?_) fun r hr => ?_).2
      · have m1 := admissible_plate h ha hp hx
        have m2 := admissible_plate h ha' hp hx
        rcases le_or_gt (height th x) (height th k.1) with hy | hy
        · exact h.plates_mono p hp m1 m2 (by rw [planeThrough_at, planeThrough_at]; nlinarith)
        · exact (hex _ ha').1 p hp x hx hy
      · rcases le_or_gt (height th (r.fibre.y, r.fibre.z)) (height th k.1) with hy | hy
        · refine h.rods_mono r hr (ha.2 r hr) (ha'.2 r hr) ?_
          have p1 := planeThrough_at th v c (r.fibre.y, r.fibre.z)
          have p2 := planeThrough_at th v' c' (r.fibre.y, r.fibre.z)
          simp only at p1 p2
          rw [p1, p2]
          nlinarith
        · exact (hex _ ha').2 r hr hy
    · have hk' := (hcor k hk).2
      rw [← hlim, planeThrough_at, planeThrough_at] at hk'
      refine (moment_below h hR hR0 (planeThrough th 0 v c) (planeThrough th 0 v' c') (fun p hp x hx => ?_) fun r hr => ?_).1
      · have m1 := admissible_plate h ha hp hx
        have m2 := admissible_plate h ha' hp hx
        rcases lt_or_ge (height th x) (height th k.1) with hy | hy
        · exact (hex _ ha').1 p hp x hx hy
        · exact h.plates_mono p hp m2 m1 (by rw [planeThrough_at, planeThrough_at]; nlinarith)
      · rcases lt_or_ge (height th (r.fibre.y, r.fibre.z)) (height th k.1) with hy | hy
        · exact (hex _ ha').2 r hr hy
        · refine h.rods_mono r hr (ha'.2 r hr) (ha.2 r hr) ?_
          have p1 := planeThrough_at th v c (r.fibre.y, r.fibre.z)
          have p2 := planeThrough_at th v' c' (r.fibre.y, r.fibre.z)
          simp only at p1 p2
          rw [p1, p2]
          nlinarith

/-! ### Ordinary reinforced concrete -/

/-- The parabola-rectangle law between its limit strains. -/
theorem pr_stress_formula (fc e0 u : ℝ) (h0 : 0 < |e0|) (hu : |e0| + 1e-6 + 1e-5 * |u| < |u|) {z : ℝ} (hz : -|u| ≤ z) :
    (ParabolaRectangle.new fc e0 u 2).stress z = -|fc| * (1 - (1 - min (max (-z) 0) |e0| / |e0|) ^ 2) := by
  rw [pr_stress_core fc e0 u hu hz]
  set a := |e0| with ha
  have hau : a < |u| := by linarith [abs_nonneg u, show (0:ℝ) < 1e-6 by norm_num]
  simp only [ParabolaRectangle.core, ← ha]
  by_cases h1 : z < -a
  · rw [if_pos ⟨hz, h1⟩, max_eq_left (by linarith), min_eq_right (by linarith), div_self h0.ne']
    ring
  · push Not at h1
    rw [if_neg (fun h => absurd h.2 (not_lt.2 h1))]
    by_cases h2 : z ≤ 0
    · rw [if_pos ⟨h1, h2⟩, max_eq_left (by linarith), min_eq_left (by linarith)]
      rw [show (2:ℝ) = ((2:ℕ):ℝ) by norm_num, Real.rpow_natCast]
      have : a ≠ 0 := h0.ne'
      field_simp
    · push Not at h2
      rw [if_neg (fun h => absurd h.2 (not_le.2 h2)), max_eq_right (by linarith), min_eq_left h0.le]
      simp

theorem pr_stress_mono (fc e0 u : ℝ) (h0 : 0 < |e0|) (hu : |e0| + 1e-6 + 1e-5 * |u| < |u|) {x y : ℝ} (hx : -|u| ≤ x) (hxy : x ≤ y) :
    (ParabolaRectangle.new fc e0 u 2).stress x ≤ (ParabolaRectangle.new fc e0 u 2).stress y := by
  rw [pr_stress_formula fc e0 u h0 hu hx, pr_stress_formula fc e0 u h0 hu (hx.trans hxy)]
  have h1 : min (max (-y) 0) |e0| ≤ min (max (-x) 0) |e0| := min_le_min_right _ (max_le_max_right _ (by linarith))
  have h2 : min (max (-x) 0) |e0| / |e0| ≤ 1 := by rw [div_le_one h0]; exact min_le_right _ _
  have h3 : min (max (-y) 0) |e0| / |e0| ≤ min (max (-x) 0) |e0| / |e0| := div_le_div_of_nonneg_right h1 h0.le
  have := abs_nonneg fc
  have h4 : (1 - min (max (-x) 0) |e0| / |e0|) ^ 2 ≤ (1 - min (max (-y) 0) |e0| / |e0|) ^ 2 :=
    pow_le_pow_left₀ (by linarith) (by linarith) 2
  nlinarith

theorem pr_stress_range (fc e0 u : ℝ) (h0 : 0 < |e0|) (x : ℝ) :
    -|fc| ≤ (ParabolaRectangle.new fc e0 u 2).stress x ∧ (ParabolaRectangle.new fc e0 u 2).stress x ≤ 0 := by
  have hf := abs_nonneg fc
  have key : ∀ y, -|fc| ≤ (ParabolaRectangle.new fc e0 u 2).core y ∧ (ParabolaRectangle.new fc e0 u 2).core y ≤ 0 := by
    intro y
    simp only [ParabolaRectangle.core]
    split_ifs with h1 h2
    · exact ⟨le_rfl, by linarith⟩
    · rw [show (2:ℝ) = ((2:ℕ):ℝ) by norm_num, Real.rpow_natCast]
      have e1 : 0 ≤ y / -|e0| := div_nonneg_of_nonpos h2.2 (by linarith)
      have e2 : y / -|e0| ≤ 1 := by rw [div_le_one_of_neg (by linarith)]; exact h2.1
      generalize y / -|e0| = t at *
      have e3 : 0 ≤ (1 - t) ^ 2 := sq_nonneg _
      have e4 : (1 - t) ^ 2 ≤ 1 := by nlinarith
      constructor <;> nlinarith
    · exact ⟨by linarith, le_rfl⟩
  exact key _

theorem pr_stress_tension (fc e0 u : ℝ) (h0 : 0 < |e0|) (hu : |e0| + 1e-6 + 1e-5 * |u| < |u|) {x : ℝ} (hx : 0 ≤ x) :
    (ParabolaRectangle.new fc e0 u 2).stress x = 0 := by
  rw [pr_stress_formula fc e0 u h0 hu (by linarith [abs_nonneg u]), max_eq_right (by linarith), min_eq_left h0.le]
  simp

/-- Sections of parabola-rectangle concrete and bars whose stress does not fall between the limit strains. -/
theorem ConcretePart.Ok.sound {split : Polygon → ℝ → ℝ → ShapelyResult} {th : ℝ} {p : ConcretePart} (h : p.Ok split th) : p.Sound :=
  ⟨h.encloses, h.inHull, h.peak, h.plateau⟩

theorem sound_nonSoftening {parts : List ConcretePart} {bars : List Bar}
    (hok : ∀ p ∈ parts, p.Sound) (hA : ∀ b ∈ bars, 0 ≤ b.area)
    (hmono : ∀ b ∈ bars, MonotoneOn b.law.law.stress (Set.Icc (b.law.law.ult false).1 (b.law.law.ult false).2)) :
    (concreteSection parts bars).NonSoftening := by
  refine ⟨?_, ?_, ?_, ?_, ?_⟩
  · intro p hp
    simp only [concreteSection, List.mem_map] at hp
    obtain ⟨q, hq, rfl⟩ := hp
    exact ⟨(hok q hq).encloses.measurable, (hok q hq).inHull⟩
  · intro p hp e i
    simp only [concreteSection, List.mem_map] at hp
    obtain ⟨q, hq, rfl⟩ := hp
    refine integrable_law (fc := |q.fc|) (measurable_parabola _) (fun x => ?_) e (hok q hq).encloses.bounded (w := fun x => lever x.1 x.2 i) ?_
    · exact pr_stress_range q.fc q.eps_0 q.eps_u (hok q hq).peak x
    · fin_cases i <;> simp only [lever] <;> fun_prop
  · intro r hr
    simp only [concreteSection, List.mem_map] at hr
    obtain ⟨b, hb, rfl⟩ := hr
    exact hA b hb
  · intro p hp
    simp only [concreteSection, List.mem_map] at hp
    obtain ⟨q, hq, rfl⟩ := hp
    intro x hx y hy hxy
    refine pr_stress_mono q.fc q.eps_0 q.eps_u (hok q hq).peak (hok q hq).plateau ?_ hxy
    have := hx.1
    rwa [part_ult] at this
  · intro r hr
    simp only [concreteSection, List.mem_map] at hr
    obtain ⟨b, hb, rfl⟩ := hr
    exact hmono b hb

theorem concrete_nonSoftening {split : Polygon → ℝ → ℝ → ShapelyResult} {th : ℝ} {parts : List ConcretePart} {bars : List Bar}
    (hok : ∀ p ∈ parts, p.Ok split th) (hA : ∀ b ∈ bars, 0 ≤ b.area)
    (hmono : ∀ b ∈ bars, MonotoneOn b.law.law.stress (Set.Icc (b.law.law.ult false).1 (b.law.law.ult false).2)) :
    (concreteSection parts bars).NonSoftening :=
  sound_nonSoftening (fun p hp => (hok p hp).sound) hA hmono

theorem OrdinaryRC.sound_ultimate {th ecu eu H : ℝ} {parts : List ConcretePart} {bars : List Bar}
    (h : OrdinaryRC th parts bars ecu eu H) (hok : ∀ p ∈ parts, p.Sound)
    (hmono : ∀ b ∈ bars, MonotoneOn b.law.law.stress (Set.Icc (b.law.law.ult false).1 (b.law.law.ult false).2))
    {v c : ℝ} (hc : c ≤ 0) (ha : (concreteSection parts bars).Admissible (planeThrough th 0 v c))
    (hl : (concreteSection parts bars).AtLimit (planeThrough th 0 v c)) :
    (concreteSection parts bars).Ultimate th (planeThrough th 0 v c) := by
  have hcor := admissible_corner ha
  have hplate : ∀ p ∈ parts, (⟨p.region, p.polygon.ext, p.law.stress, (p.law.ult false).1, (p.law.ult false).2⟩ : Plate) ∈
      (concreteSection parts bars).plates := by
    intro p hp; simp only [concreteSection, List.mem_map]; exact ⟨p, hp, rfl⟩
  have hrod : ∀ b ∈ bars, (⟨b.fibre Law.stress, (b.law.law.ult false).1, (b.law.law.ult false).2⟩ : Rod) ∈
      (concreteSection parts bars).rods := by
    intro b hb; simp only [concreteSection, List.mem_map]; exact ⟨b, hb, rfl⟩
  have hin : ∀ e, (concreteSection parts bars).Admissible e → ∀ p ∈ parts, ∀ x ∈ convexHull ℝ {v | v ∈ p.polygon.ext},
      -ecu ≤ planeStrain e x.1 x.2 := by
    intro e he p hp x hx
    have := (he.1 _ (hplate p hp) x hx).1
    simp only [part_ult, h.crushing p hp] at this
    exact this
  have hbar : ∀ e, (concreteSection parts bars).Admissible e → ∀ b ∈ bars, -ecu ≤ planeStrain e b.x b.y ∧ planeStrain e b.x b.y ≤ eu := by
    intro e he b hb
    obtain ⟨p, hp, hx⟩ := h.inside b hb
    have := (he.2 _ (hrod b hb)).2
    simp only [Bar.fibre, (h.rupture b hb).1] at this
    exact ⟨hin e he p hp _ hx, this⟩
  -- the limit in compression
  have hcomp : ∀ k ∈ (concreteSection parts bars).corners, planeStrain (planeThrough th 0 v c) k.1.1 k.1.2 = k.2.1 →
      planeStrain (planeThrough th 0 v c) k.1.1 k.1.2 = -ecu →
      (concreteSection parts bars).Ultimate th (planeThrough th 0 v c) := by
    intro k hk h1 h2
    refine Or.inl ⟨k, hk, h1, fun e' he' => ⟨fun p hp x hx hy => ?_, fun r hr hy => ?_⟩⟩
    · simp only [concreteSection, List.mem_map] at hp
      obtain ⟨q, hq, rfl⟩ := hp
      have l1 := hin _ ha q hq x ((hok q hq).inHull hx)
      have l2 := hin _ he' q hq x ((hok q hq).inHull hx)
      refine pr_stress_mono q.fc q.eps_0 q.eps_u (hok q hq).peak (hok q hq).plateau (by rw [h.crushing q hq]; exact l1) ?_
      rw [planeThrough_at] at l1 h2 ⊢
      nlinarith
    · simp only [concreteSection, List.mem_map] at hr
      obtain ⟨b, hb, rfl⟩ := hr
      have l1 := (hbar _ ha b hb).1
      have l2 := (hbar _ he' b hb).1
      refine hmono b hb (ha.2 _ (hrod b hb)) (he'.2 _ (hrod b hb)) ?_
      have p1 := planeThrough_at th v c (b.x, b.y)
      simp only at p1
      simp only [Bar.fibre] at hy ⊢
      rw [planeThrough_at] at h2
      rw [p1]
      rw [p1] at l1
      nlinarith
  obtain ⟨k, hk, hkl⟩ := hl
  rcases h.corner_cases hk with ⟨p, hp, hv, hk2⟩ | ⟨b, hb, hk1, hk2, hk3⟩
  · rcases hkl with hkl | hkl
    · exact hcomp k hk hkl (by rw [hkl, hk2])
    · exfalso
      rw [hk2, planeThrough_at] at hkl
      obtain ⟨b, hb, q, hq, w, hw, hd⟩ := h.depth
      have l1 := (hbar _ ha b hb).2
      have l2 := hin _ ha q hq w (subset_convexHull ℝ _ hw)
      have p1 := planeThrough_at th v c (b.x, b.y)
      simp only at p1
      rw [p1] at l1
      rw [planeThrough_at] at l2
      have s1 := h.span _ (bar_corner hb) k hk
      have h1 := h.ecu_range
      have h2 := h.eu_range
      have h3 := h.size.1
      simp only at hkl s1
      have e1 : (eu - v - c * height th (b.x, b.y)) * 1 ≥ 0 := by linarith
      have e2 : -c * (height th w - height th (b.x, b.y)) ≤ ecu + eu := by nlinarith
      have e3 : -c * H ≤ 1000 * (ecu + eu) := by nlinarith
      have e4 : -c * (height th (b.x, b.y) - height th k.1) ≤ -c * H := mul_le_mul_of_nonneg_left s1 (by linarith)
      nlinarith
  · rcases hkl with hkl | hkl
    · refine hcomp k hk hkl ?_
      have l1 := (hbar _ ha b hb).1
      have l2 : -ecu ≤ planeStrain (planeThrough th 0 v c) k.1.1 k.1.2 := by rw [hk1]; exact l1
      linarith
    · have heu : (0:ℝ) ≤ eu := by linarith [h.eu_range.1, show (0:ℝ) < 1e-4 by norm_num]
      rw [hk2, planeThrough_at] at hkl
      refine Or.inr ⟨k, hk, by rw [planeThrough_at, hk2]; exact hkl, fun e' he' => ⟨fun p hp x hx hy => ?_, fun r hr hy => ?_⟩⟩
      · simp only [concreteSection, List.mem_map] at hp
        obtain ⟨q, hq, rfl⟩ := hp
        have l2 := hin _ he' q hq x ((hok q hq).inHull hx)
        have hx0 : 0 ≤ planeStrain (planeThrough th 0 v c) x.1 x.2 := by
          rw [planeThrough_at]; nlinarith
        have t0 := pr_stress_tension q.fc q.eps_0 q.eps_u (hok q hq).peak (hok q hq).plateau hx0
        have t1 := pr_stress_range q.fc q.eps_0 q.eps_u (hok q hq).peak (planeStrain e' x.1 x.2)
        exact t1.2.trans_eq t0.symm
      · simp only [concreteSection, List.mem_map] at hr
        obtain ⟨b', hb', rfl⟩ := hr
        have l2 := (hbar _ he' b' hb').2
        refine hmono b' hb' (he'.2 _ (hrod b' hb')) (ha.2 _ (hrod b' hb')) ?_
        have p1 := planeThrough_at th v c (b'.x, b'.y)
        simp only at p1
        simp only [Bar.fibre] at hy ⊢
        rw [p1]
        nlinarith

theorem OrdinaryRC.ultimate {split : Polygon → ℝ → ℝ → ShapelyResult} {th ecu eu H : ℝ} {parts : List ConcretePart} {bars : List Bar}
    (h : OrdinaryRC th parts bars ecu eu H) (hok : ∀ p ∈ parts, p.Ok split th)
    (hmono : ∀ b ∈ bars, MonotoneOn b.law.law.stress (Set.Icc (b.law.law.ult false).1 (b.law.law.ult false).2))
    {v c : ℝ} (hc : c ≤ 0) (ha : (concreteSection parts bars).Admissible (planeThrough th 0 v c))
    (hl : (concreteSection parts bars).AtLimit (planeThrough th 0 v c)) :
    (concreteSection parts bars).Ultimate th (planeThrough th 0 v c) :=
  h.sound_ultimate (fun p hp => (hok p hp).sound) hmono hc ha hl

end SC
