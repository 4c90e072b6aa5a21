import Verif.Props.Steel
import Verif.Props.MaximumResults
import Verif.Spec.Plastic

/-! # C75: the bending strength of steel sections -/

set_option autoImplicit false

namespace SC

open Spec MeasureTheory

/-- The parts as rigid-plastic plates. -/
def yieldPlates (parts : List SteelPart) : List YieldPlate := parts.map fun p => ⟨p.region, p.law.fy⟩

section

variable {split : Polygon → ℝ → ℝ → ShapelyResult} {th u lo hi : ℝ} {parts : List SteelPart}

theorem squashLoad_parts (parts : List SteelPart) :
    squashLoad (yieldPlates parts) = (parts.map fun p => p.law.fy * ∫ _ in p.region, (1:ℝ)).sum := by
  simp [squashLoad, yieldPlates, Function.comp_def]

theorem plasticMoment_parts (th : ℝ) (parts : List SteelPart) (z : ℝ) :
    plasticMoment th (yieldPlates parts) z = (parts.map fun p => p.law.fy * ∫ x in p.region, |height th x - z|).sum := by
  simp [plasticMoment, yieldPlates, Function.comp_def]

theorem continuous_height (th : ℝ) : Continuous (height th) := by unfold height; fun_prop

theorem continuous_plane (e : Fin 3 → ℝ) : Continuous fun x : ℝ × ℝ => planeStrain e x.1 x.2 := by unfold planeStrain; fun_prop

/-- Moments about the line at height `z`. -/
theorem steel_moment (hok : ∀ p ∈ parts, p.Ok split th u) {e : Fin 3 → ℝ} (ha : (steelSection parts).Admissible e) (z : ℝ) :
    bendingMoment th ((steelSection parts).forces e) + z * (steelSection parts).forces e 0 =
      (parts.map fun p => ∫ x in p.region, -(p.law.clamped (planeStrain e x.1 x.2) * (height th x - z))).sum := by
  have hi : ∀ p ∈ parts, ∀ i, IntegrableOn (fun x : ℝ × ℝ => p.law.clamped (planeStrain e x.1 x.2) * lever x.1 x.2 i) p.region := by
    intro p hp i
    refine continuous_integrableOn ?_ (hok p hp).encloses.bounded
    have h1 := p.law.continuous_clamped.comp (continuous_plane e)
    fin_cases i <;> simp only [lever] <;> exact Continuous.mul h1 (by fun_prop)
  have h1 : ∀ p ∈ parts, ∫ x in p.region, -(p.law.clamped (planeStrain e x.1 x.2) * (height th x - z)) =
      -Real.cos th * (∫ x in p.region, p.law.clamped (planeStrain e x.1 x.2) * lever x.1 x.2 1) +
      -Real.sin th * (∫ x in p.region, p.law.clamped (planeStrain e x.1 x.2) * lever x.1 x.2 2) +
      z * (∫ x in p.region, p.law.clamped (planeStrain e x.1 x.2) * lever x.1 x.2 0) := by
    intro p hp
    rw [← integral_const_mul, ← integral_const_mul, ← integral_const_mul,
      ← integral_add ((hi p hp 1).const_mul _) ((hi p hp 2).const_mul _),
      ← integral_add (f := fun x : ℝ × ℝ => -Real.cos th * (p.law.clamped (planeStrain e x.1 x.2) * lever x.1 x.2 1) +
          -Real.sin th * (p.law.clamped (planeStrain e x.1 x.2) * lever x.1 x.2 2))
        (((hi p hp 1).const_mul _).add ((hi p hp 2).const_mul _)) ((hi p hp 0).const_mul _)]
    congr 1
    funext x
    simp only [height, lever, Matrix.cons_val]
    ring
  rw [List.map_congr_left h1]
  simp only [List.sum_map_add, List.sum_map_mul_left, bendingMoment, steel_forces_clamped hok ha]
  ring

/-- No admissible plane has more moment than the fully plastic section. -/
theorem steel_upper (hok : ∀ p ∈ parts, p.Ok split th u) {e : Fin 3 → ℝ} (ha : (steelSection parts).Admissible e) (z : ℝ) :
    bendingMoment th ((steelSection parts).forces e) ≤
      plasticMoment th (yieldPlates parts) z - z * (steelSection parts).forces e 0 := by
  have h1 := steel_moment hok ha z
  have h2 : (parts.map fun p => ∫ x in p.region, -(p.law.clamped (planeStrain e x.1 x.2) * (height th x - z))).sum ≤
      plasticMoment th (yieldPlates parts) z := by
    rw [plasticMoment_parts]
    refine List.sum_le_sum fun p hp => ?_
    have hb := (hok p hp).encloses.bounded
    rw [← integral_const_mul]
    refine setIntegral_mono_on (continuous_integrableOn ?_ hb) (continuous_integrableOn ?_ hb) (hok p hp).encloses.measurable
      fun x hx => ?_
    · exact ((p.law.continuous_clamped.comp (continuous_plane e)).mul ((continuous_height th).sub continuous_const)).neg
    · exact continuous_const.mul ((continuous_height th).sub continuous_const).abs
    · obtain ⟨l1, l2⟩ := (hok p hp).law.clamped_range (planeStrain e x.1 x.2)
      rcases abs_cases (height th x - z) with ⟨q, q'⟩ | ⟨q, q'⟩ <;> rw [q] <;> nlinarith
  linarith

/-- The elastic core costs little. -/
theorem steel_core {l : ElasticPlastic} (h : PerfectlyPlastic l u) {c t : ℝ} (hc : c < 0) :
    l.fy * |t| - l.fy * l.eps_sy / (4 * -c) ≤ -(l.clamped (c * t) * t) := by
  have hs := h.sy_nonneg
  have hE := h.E
  have hf := h.fy
  have hes := h.E_sy
  have hd : 0 ≤ l.fy * l.eps_sy / (4 * -c) := div_nonneg (mul_nonneg hf hs) (by linarith)
  rcases le_or_gt l.eps_sy (c * t) with h1 | h1
  · rw [h.clamped_high h1]
    have : t ≤ 0 := by
      by_contra hcon
      push Not at hcon
      have := mul_neg_of_neg_of_pos hc hcon
      linarith
    rw [abs_of_nonpos this]
    linarith
  · rcases le_or_gt (c * t) (-l.eps_sy) with h2 | h2
    · rw [h.clamped_low h2]
      have : 0 ≤ t := by
        by_contra hcon
        push Not at hcon
        have := mul_pos_of_neg_of_neg hc hcon
        linarith
      rw [abs_of_nonneg this]
      linarith
    · rw [ElasticPlastic.clamped, min_eq_left h1.le, max_eq_right h2.le]
      have e1 : -(l.E * (c * t) * t) - (l.fy * |t| - l.fy * l.eps_sy / (4 * -c)) =
          l.E / (4 * -c) * (2 * -c * |t| - l.eps_sy) ^ 2 := by
        rw [← hes]
        have hsq : |t| ^ 2 = t ^ 2 := sq_abs t
        have hc' : c ≠ 0 := hc.ne
        field_simp
        ring_nf
        rw [hsq]
      have : 0 ≤ l.E / (4 * -c) * (2 * -c * |t| - l.eps_sy) ^ 2 := mul_nonneg (div_nonneg hE.le (by linarith)) (sq_nonneg _)
      linarith

/-- What the elastic core costs: for the curvature `c`. -/
noncomputable def coreLoss (parts : List SteelPart) (c : ℝ) : ℝ :=
  (parts.map fun p => p.law.fy * p.law.eps_sy / (4 * c) * ∫ _ in p.region, (1:ℝ)).sum

/-- An admissible plane has the moment of the fully plastic section with the same neutral axis, less the elastic core. -/
theorem steel_lower (hok : ∀ p ∈ parts, p.Ok split th u) {v c : ℝ} (hc : c < 0)
    (ha : (steelSection parts).Admissible (planeThrough th 0 v c)) :
    plasticMoment th (yieldPlates parts) (-v / c) - (-v / c) * (steelSection parts).forces (planeThrough th 0 v c) 0 -
      coreLoss parts (-c) ≤ bendingMoment th ((steelSection parts).forces (planeThrough th 0 v c)) := by
  have h1 := steel_moment hok ha (-v / c)
  have h2 : plasticMoment th (yieldPlates parts) (-v / c) ≤
      (parts.map fun p => ∫ x in p.region, -(p.law.clamped (planeStrain (planeThrough th 0 v c) x.1 x.2) * (height th x - -v / c))).sum +
        coreLoss parts (-c) := by
    rw [plasticMoment_parts, coreLoss, ← List.sum_map_add]
    refine List.sum_le_sum fun p hp => ?_
    have hb := (hok p hp).encloses.bounded
    rw [← integral_const_mul, ← integral_const_mul, ← integral_add]
    rotate_left
    · refine continuous_integrableOn ?_ hb
      exact ((p.law.continuous_clamped.comp (continuous_plane _)).mul ((continuous_height th).sub continuous_const)).neg
    · exact continuous_integrableOn (by fun_prop) hb
    refine setIntegral_mono_on (continuous_integrableOn ?_ hb) (continuous_integrableOn ?_ hb) (hok p hp).encloses.measurable
      fun x hx => ?_
    · exact continuous_const.mul ((continuous_height th).sub continuous_const).abs
    · refine Continuous.add ?_ continuous_const
      exact ((p.law.continuous_clamped.comp (continuous_plane _)).mul ((continuous_height th).sub continuous_const)).neg
    · have := steel_core (hok p hp).law (c := c) (t := height th x - -v / c) hc
      rw [planeThrough_at]
      have e : c * (height th x - -v / c) = v + c * height th x := by field_simp [hc.ne]; ring
      rw [e] at this
      linarith
  linarith

/-! ### The neutral axis crosses the section unless the axial force is large -/

theorem hull_range (hD : SteelDepth th parts lo hi) {p : SteelPart} (hp : p ∈ parts) {x : ℝ × ℝ}
    (hx : x ∈ convexHull ℝ {v | v ∈ p.polygon.ext}) : lo ≤ height th x ∧ height th x ≤ hi := by
  obtain ⟨v, hv, h1⟩ := OrdinaryRC.hull_height (th := th) hx
  obtain ⟨w, hw, h2⟩ := hull_low (th := th) hx
  exact ⟨(hD.range p hp w hw).1.trans h2, h1.trans (hD.range p hp v hv).2⟩

/-- The limit strain is reached at the lowest or at the highest point. -/
theorem steel_extreme (hok : ∀ p ∈ parts, p.Ok split th u) (hD : SteelDepth th parts lo hi) {v c : ℝ} (hc : c < 0)
    (ha : (steelSection parts).Admissible (planeThrough th 0 v c)) (hl : (steelSection parts).AtLimit (planeThrough th 0 v c)) :
    v + c * lo ≤ u ∧ -u ≤ v + c * hi ∧ (v + c * lo = u ∨ v + c * hi = -u) := by
  have hcor := admissible_corner ha
  obtain ⟨pt, hpt, vt, hvt, htop⟩ := hD.top
  obtain ⟨pb, hpb, vb, hvb, hbot⟩ := hD.bottom
  have h1 := (hcor _ (steel_corner hok hpt hvt)).1
  have h2 := (hcor _ (steel_corner hok hpb hvb)).2
  rw [planeThrough_at] at h1 h2
  simp only [htop, hbot] at h1 h2
  refine ⟨h2, h1, ?_⟩
  obtain ⟨k, hk, hlim⟩ := hl
  obtain ⟨p, hp, hv, e⟩ := steel_corner_cases hok hk
  obtain ⟨r1, r2⟩ := hD.range p hp _ hv
  rw [planeThrough_at, e] at hlim
  rcases hlim with h | h
  · right
    have := mul_le_mul_of_nonpos_left r2 hc.le
    simp only at h
    linarith
  · left
    have := mul_le_mul_of_nonpos_left r1 hc.le
    simp only at h
    linarith

theorem steel_axis (hok : ∀ p ∈ parts, p.Ok split th u) (hD : SteelDepth th parts lo hi) {v c : ℝ} (hc : c < 0)
    (ha : (steelSection parts).Admissible (planeThrough th 0 v c)) (hl : (steelSection parts).AtLimit (planeThrough th 0 v c))
    (h1 : (steelSection parts).forces (planeThrough th 0 v c) 0 * (hi - lo) < plasticMoment th (yieldPlates parts) hi)
    (h2 : -(steelSection parts).forces (planeThrough th 0 v c) 0 * (hi - lo) < plasticMoment th (yieldPlates parts) lo) :
    v + c * hi ≤ 0 ∧ 0 ≤ v + c * lo := by
  obtain ⟨e1, e2, e3⟩ := steel_extreme hok hD hc ha hl
  have hDp : 0 < hi - lo := by linarith [hD.size.1, show (0:ℝ) < 1e-6 by norm_num]
  obtain ⟨pt, hpt, -⟩ := hD.top
  have hu := (hok pt hpt).law.u_pos.1
  have hpos : (0:ℝ) < 1e-6 := by norm_num
  have hN := steel_forces_clamped hok ha 0
  have hN' : (steelSection parts).forces (planeThrough th 0 v c) 0 * (hi - lo) =
      (parts.map fun p => ∫ x in p.region, p.law.clamped (v + c * height th x) * (hi - lo)).sum := by
    rw [hN, ← list_sum_mul_const]
    congr 1
    refine List.map_congr_left fun p _ => ?_
    rw [← integral_mul_const]
    simp only [planeThrough_at, lever, Matrix.cons_val, mul_one]
  have hint : ∀ p ∈ parts, ∀ s : ℝ, IntegrableOn (fun x => s * (p.law.clamped (v + c * height th x) * (hi - lo))) p.region := by
    intro p hp s
    refine continuous_integrableOn ?_ (hok p hp).encloses.bounded
    have : Continuous fun x : ℝ × ℝ => p.law.clamped (v + c * height th x) :=
      p.law.continuous_clamped.comp (continuous_const.add (continuous_const.mul (continuous_height th)))
    fun_prop
  have hintp : ∀ p ∈ parts, ∀ z, IntegrableOn (fun x => p.law.fy * |height th x - z|) p.region := by
    intro p hp z
    exact continuous_integrableOn (continuous_const.mul ((continuous_height th).sub continuous_const).abs) (hok p hp).encloses.bounded
  constructor
  · by_contra hcon
    push Not at hcon
    have hlo : v + c * lo = u := by
      rcases e3 with h | h
      · exact h
      · linarith
    have : plasticMoment th (yieldPlates parts) hi ≤ (steelSection parts).forces (planeThrough th 0 v c) 0 * (hi - lo) := by
      rw [hN', plasticMoment_parts]
      refine List.sum_le_sum fun p hp => ?_
      rw [← integral_const_mul]
      refine setIntegral_mono_on (hintp p hp hi) (by simpa using hint p hp 1) (hok p hp).encloses.measurable fun x hx => ?_
      obtain ⟨r1, r2⟩ := hull_range hD hp ((hok p hp).inHull hx)
      have hs := (hok p hp).law.sy_nonneg
      have hup := (hok p hp).law.u_pos.2
      have hf := (hok p hp).law.fy
      rw [abs_of_nonpos (by linarith)]
      -- the strain is at least u (hi - h) / (hi - lo)
      have hlin : u * (hi - height th x) ≤ (v + c * height th x) * (hi - lo) := by
        have : (v + c * height th x) * (hi - lo) = (v + c * lo) * (hi - height th x) + (v + c * hi) * (height th x - lo) := by ring
        rw [this, hlo]
        have := mul_nonneg hcon.le (sub_nonneg.2 r1)
        linarith
      rcases le_total p.law.eps_sy (v + c * height th x) with h | h
      · rw [(hok p hp).law.clamped_high h]
        nlinarith
      · have h0 : 0 ≤ v + c * height th x := by
          have : 0 ≤ (v + c * height th x) * (hi - lo) := (mul_nonneg (by linarith) (by linarith)).trans hlin
          exact nonneg_of_mul_nonneg_left this hDp
        rw [ElasticPlastic.clamped, min_eq_left h, max_eq_right (by linarith)]
        have hE := (hok p hp).law.E
        have h3 : p.law.eps_sy * (hi - height th x) ≤ (v + c * height th x) * (hi - lo) :=
          (mul_le_mul_of_nonneg_right (by linarith) (by linarith)).trans hlin
        have := mul_le_mul_of_nonneg_left h3 hE.le
        rw [← mul_assoc, (hok p hp).law.E_sy] at this
        linarith
    linarith
  · by_contra hcon
    push Not at hcon
    have hhi : v + c * hi = -u := by
      rcases e3 with h | h
      · linarith
      · exact h
    have : plasticMoment th (yieldPlates parts) lo ≤ -(steelSection parts).forces (planeThrough th 0 v c) 0 * (hi - lo) := by
      rw [neg_mul, hN', plasticMoment_parts, ← neg_one_mul, ← List.sum_map_mul_left]
      refine List.sum_le_sum fun p hp => ?_
      rw [← integral_const_mul, ← integral_const_mul]
      refine setIntegral_mono_on (hintp p hp lo) (hint p hp (-1)) (hok p hp).encloses.measurable fun x hx => ?_
      obtain ⟨r1, r2⟩ := hull_range hD hp ((hok p hp).inHull hx)
      have hs := (hok p hp).law.sy_nonneg
      have hup := (hok p hp).law.u_pos.2
      have hf := (hok p hp).law.fy
      rw [abs_of_nonneg (by linarith)]
      have hlin : (v + c * height th x) * (hi - lo) ≤ -(u * (height th x - lo)) := by
        have : (v + c * height th x) * (hi - lo) = (v + c * lo) * (hi - height th x) + (v + c * hi) * (height th x - lo) := by ring
        rw [this, hhi]
        have := mul_nonneg (neg_nonneg.2 hcon.le) (sub_nonneg.2 r2)
        linarith
      rcases le_total (v + c * height th x) (-p.law.eps_sy) with h | h
      · rw [(hok p hp).law.clamped_low h]
        nlinarith
      · have h0 : v + c * height th x ≤ 0 := by
          by_contra hq
          push Not at hq
          have := mul_pos hq hDp
          have := mul_nonneg (show 0 ≤ u by linarith) (sub_nonneg.2 r1)
          linarith
        rw [ElasticPlastic.clamped, min_eq_left (by linarith), max_eq_right h]
        have hE := (hok p hp).law.E
        have h3 : p.law.eps_sy * (height th x - lo) ≤ -((v + c * height th x) * (hi - lo)) := by
          have : p.law.eps_sy * (height th x - lo) ≤ u * (height th x - lo) :=
            mul_le_mul_of_nonneg_right (by linarith) (by linarith)
          linarith
        have := mul_le_mul_of_nonneg_left h3 hE.le
        rw [← mul_assoc, (hok p hp).law.E_sy] at this
        linarith
    linarith

end

end SC
