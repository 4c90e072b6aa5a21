import Verif.Props.DiagramChain
import Verif.Props.RectDesign
import Verif.Props.MaximumResults
import Verif.Props.OrdinaryDomain

/-! # C78: the end of a moment-curvature diagram -/

set_option autoImplicit false

namespace SC

open Spec MeasureTheory OrdinaryRC

section

variable {a b z0 z1 fc : ℝ}

/-- The forces of a rectangular section with one layer of bars, with the laws as they are integrated. -/
theorem rect_core (hab : a ≤ b) (hz : z0 ≤ z1) {bars : List Bar} {zb As : ℝ} (hzb : ∀ r ∈ bars, r.y = zb)
    (hAs : (bars.map Bar.area).sum = As) {f : ℝ → ℝ} (hf : ∀ r ∈ bars, r.law.law.stress = f) (e c : ℝ) :
    (crossSection ((normalParts fc (rectShape a b z0 z1)).map ConcretePart.solid) bars).forces ![e, c, 0] 0 =
      (b - a) * (∫ y in z0..z1, (ParabolaRectangle.new fc 0.002 0.0035 2).core (e + c * y)) + As * f (e + c * zb) ∧
    (crossSection ((normalParts fc (rectShape a b z0 z1)).map ConcretePart.solid) bars).forces ![e, c, 0] 1 =
      (b - a) * (∫ y in z0..z1, (ParabolaRectangle.new fc 0.002 0.0035 2).core (e + c * y) * y) + As * f (e + c * zb) * zb := by
  have h1 := layer_forces (parts := []) hzb hAs hf e c
  have h2 : ∀ i, (crossSection ((normalParts fc (rectShape a b z0 z1)).map ConcretePart.solid) bars).forces ![e, c, 0] i =
      (crossSection ((normalParts fc (rectShape a b z0 z1)).map ConcretePart.solid) []).forces ![e, c, 0] i +
        (concreteSection [] bars).forces ![e, c, 0] i := by
    intro i
    simp only [CrossSection.forces, crossSection, concreteSection, List.map_map, Function.comp_def, List.map_nil, List.sum_nil,
      Pi.add_apply, Bar.fibre]
    simp [resultants]
  have h3 : ∀ i, (concreteSection [] []).forces ![e, c, 0] i = 0 := by
    intro i
    simp [CrossSection.forces, concreteSection, resultants]
  rw [h3] at h1
  rw [h3] at h1
  rw [h2, h2, h1.1, h1.2, ← rect_integral hab hz, ← rect_integral hab hz]
  constructor
  · simp [CrossSection.forces, crossSection, normalParts, rectShape, regionResultants, resultants, lever, planeStrain, ConcretePart.law,
      ConcretePart.solid]
  · simp [CrossSection.forces, crossSection, normalParts, rectShape, regionResultants, resultants, lever, planeStrain, ConcretePart.law,
      ConcretePart.solid]

theorem core_crushed {z : ℝ} (hz : z < -0.0035) : (ParabolaRectangle.new fc 0.002 0.0035 2).core z = 0 := by
  simp only [ParabolaRectangle.core]
  rw [if_neg, if_neg]
  · rintro ⟨h, -⟩
    rw [abs_of_pos (by norm_num)] at h
    norm_num at *
    linarith
  · rintro ⟨h, -⟩
    rw [abs_of_pos (by norm_num)] at h
    norm_num at *
    linarith

/-- Below the crushed strip the concrete is stressed as under a plane with the top at -0.0035. -/
theorem crushed_integral {x zt : ℝ} (hx : 0 < x) (ht : zt ≤ z1) (hz0 : x ≤ zt - z0) (w : ℝ → ℝ) :
    ∫ y in z0..z1, (ParabolaRectangle.new fc 0.002 0.0035 2).core (-0.0035 + 0.0035 / x * zt + -(0.0035 / x) * y) * w y =
      ∫ y in z0..zt, (ParabolaRectangle.new fc 0.002 0.0035 2).stress (-0.0035 + 0.0035 / x * (zt - y)) * w y := by
  have hk : 0 < 0.0035 / x := by positivity
  have e : ∀ y, -0.0035 + 0.0035 / x * zt + -(0.0035 / x) * y = -0.0035 + 0.0035 / x * (zt - y) := by intro y; ring
  simp only [e]
  have hin : ∀ y ∈ Set.Ioc z0 zt, (ParabolaRectangle.new fc 0.002 0.0035 2).core (-0.0035 + 0.0035 / x * (zt - y)) * w y =
      (ParabolaRectangle.new fc 0.002 0.0035 2).stress (-0.0035 + 0.0035 / x * (zt - y)) * w y := by
    intro y hy
    rw [pr_stress_core fc 0.002 0.0035 (by norm_num [abs_of_pos])]
    rw [abs_of_pos (by norm_num)]
    have : 0 ≤ 0.0035 / x * (zt - y) := mul_nonneg hk.le (by linarith [hy.2])
    linarith
  have hout : ∀ y ∈ Set.Ioc z0 z1 \ Set.Ioc z0 zt,
      (ParabolaRectangle.new fc 0.002 0.0035 2).core (-0.0035 + 0.0035 / x * (zt - y)) * w y = 0 := by
    rintro y ⟨hy, hy'⟩
    have hlt : zt < y := by
      by_contra hcon
      exact hy' ⟨hy.1, not_lt.1 hcon⟩
    rw [core_crushed, zero_mul]
    have : 0.0035 / x * (zt - y) < 0 := mul_neg_of_pos_of_neg hk (by linarith)
    linarith
  rw [intervalIntegral.integral_of_le (by linarith), intervalIntegral.integral_of_le (by linarith),
    setIntegral_eq_of_subset_of_forall_sdiff_eq_zero measurableSet_Ioc (Set.Ioc_subset_Ioc_right ht) hout]
  exact setIntegral_congr_fun measurableSet_Ioc hin

/-- Forces in a state whose concrete is crushed above the height `zt`, the neutral axis being at the depth `x` below `zt`. -/
theorem crushed_forces (hab : a ≤ b) {x zt : ℝ} (hx : 0 < x) (ht : zt ≤ z1) (hz0 : x ≤ zt - z0) {bars : List Bar} {zb As : ℝ}
    (hzb : ∀ r ∈ bars, r.y = zb) (hAs : (bars.map Bar.area).sum = As) {f : ℝ → ℝ} (hf : ∀ r ∈ bars, r.law.law.stress = f) {e c : ℝ}
    (he : e = -0.0035 + 0.0035 / x * zt) (hc : c = -(0.0035 / x)) :
    (crossSection ((normalParts fc (rectShape a b z0 z1)).map ConcretePart.solid) bars).forces ![e, c, 0] 0 =
      As * f (e + c * zb) - 17 / 21 * |fc| * (b - a) * x ∧
    (crossSection ((normalParts fc (rectShape a b z0 z1)).map ConcretePart.solid) bars).forces ![e, c, 0] 1 =
      As * f (e + c * zb) * zb - 17 / 21 * |fc| * (b - a) * x * (zt - 99 / 238 * x) := by
  obtain ⟨h1, h2⟩ := rect_core (fc := fc) hab (z0 := z0) (z1 := z1) (by linarith) hzb hAs hf e c
  have i1 := crushed_integral (fc := fc) hx ht hz0 (fun _ => 1)
  have i2 := crushed_integral (fc := fc) hx ht hz0 (fun y => y)
  simp only [mul_one] at i1
  rw [block_force hx hz0, ← he, ← hc] at i1
  rw [block_moment hx hz0, ← he, ← hc] at i2
  rw [h1, h2, i1, i2]
  constructor <;> ring

/-- A state below the ultimate one, of the same curvature: forces. -/
theorem displaced_forces (hab : a ≤ b) (hfc : 0 < fc) {x zb As E ey eu e eU c : ℝ} (hx : 0 < x) (hz0 : z0 ≤ zb) {bars : List Bar}
    (hzb : ∀ r ∈ bars, r.y = zb) (hAs : (bars.map Bar.area).sum = As) {f : ℝ → ℝ} (hf : ∀ r ∈ bars, r.law.law.stress = f)
    (hclamp : ∀ v, |v| ≤ eu → f v = E * max (-ey) (min v ey)) (hey : 0 < ey)
    (hU : eU = -0.0035 + 0.0035 / x * z1) (hc : c = -(0.0035 / x)) (hle : e ≤ eU) (hyield : ey ≤ e + c * zb) (hult : eU + c * zb ≤ eu) :
    planeForce (crossSection ((normalParts fc (rectShape a b z0 z1)).map ConcretePart.solid) bars) 0 e c =
      As * (E * ey) - 17 / 21 * fc * (b - a) * x ∧
    (crossSection ((normalParts fc (rectShape a b z0 z1)).map ConcretePart.solid) bars).forces ![e, c, 0] 1 =
      As * (E * ey) * zb - 17 / 21 * fc * (b - a) * x * (z1 - x / 0.0035 * (eU - e) - 99 / 238 * x) := by
  set zt := z1 - x / 0.0035 * (eU - e) with hzt
  have hx' : 0 < x / 0.0035 := by positivity
  have ht : zt ≤ z1 := by
    have := mul_nonneg hx'.le (sub_nonneg.2 hle)
    linarith
  have hm : 0.0035 / x * (x / 0.0035) = 1 := by field_simp
  have he : e = -0.0035 + 0.0035 / x * zt := by
    rw [hzt, mul_sub, ← mul_assoc, hm, hU]; ring
  have hpos : 0 < 0.0035 / x * (zt - x - zb) := by
    have e1 : 0.0035 / x * (zt - x - zb) = e + c * zb := by
      rw [he, hc]; field_simp; ring
    rw [e1]; linarith
  have hlt : 0 < zt - x - zb := (mul_pos_iff_of_pos_left (by positivity)).1 hpos
  obtain ⟨h1, h2⟩ := crushed_forces (fc := fc) hab (z0 := z0) hx ht (by linarith) hzb hAs hf he hc
  have hfv : f (e + c * zb) = E * ey := by
    rw [hclamp _ (by rw [abs_of_pos (by linarith)]; linarith), min_eq_right hyield, max_eq_right (by linarith)]
  rw [hfv, abs_of_pos hfc] at h1 h2
  refine ⟨?_, h2⟩
  rw [planeForce, Real.cos_zero, Real.sin_zero, mul_one, mul_zero]
  exact h1

/-- The concrete stresses under an admissible plane, as a function of the height. -/
theorem stress_integrable (hz : z0 ≤ z1) {e c : ℝ} (hc : c ≤ 0) (htop : -0.0035 ≤ e + c * z1) :
    IntervalIntegrable (fun y => (ParabolaRectangle.new fc 0.002 0.0035 2).stress (e + c * y)) volume z0 z1 := by
  refine AntitoneOn.intervalIntegrable fun x hx y hy hxy => ?_
  rw [Set.uIcc_of_le hz] at hx hy
  refine pr_stress_mono fc 0.002 0.0035 (by norm_num) (by norm_num [abs_of_pos]) ?_ ?_
  · rw [abs_of_pos (by norm_num)]
    exact htop.trans (by linarith [mul_le_mul_of_nonpos_left hy.2 hc])
  · linarith [mul_le_mul_of_nonpos_left hxy hc]

/-- Under an admissible plane the law as it is integrated is the law. -/
theorem core_integral (hz : z0 ≤ z1) {e c : ℝ} (hc : c ≤ 0) (htop : -0.0035 ≤ e + c * z1) :
    ∫ y in z0..z1, (ParabolaRectangle.new fc 0.002 0.0035 2).core (e + c * y) =
      ∫ y in z0..z1, (ParabolaRectangle.new fc 0.002 0.0035 2).stress (e + c * y) := by
  refine intervalIntegral.integral_congr fun y hy => ?_
  rw [Set.uIcc_of_le hz] at hy
  refine (pr_stress_core fc 0.002 0.0035 (by norm_num [abs_of_pos]) ?_).symm
  rw [abs_of_pos (by norm_num)]
  exact htop.trans (by linarith [mul_le_mul_of_nonpos_left hy.2 hc])

/-- With the neutral axis at depth `x` and the upper face not crushed, the compression is at most that of the ultimate block. -/
theorem block_bound (hfc : 0 < fc) {x e c : ℝ} (hx : 0 < x) (hx1 : x ≤ z1 - z0) (hc : c < 0) (he : e + c * (z1 - x) = 0)
    (htop : -0.0035 ≤ e + c * z1) :
    -(17 / 21 * fc * x) ≤ ∫ y in z0..z1, (ParabolaRectangle.new fc 0.002 0.0035 2).core (e + c * y) := by
  have hz : z0 ≤ z1 := by linarith
  have hk : 0 < 0.0035 / x := by positivity
  have hkx : 0.0035 / x * x = 0.0035 := by field_simp
  rw [core_integral hz hc.le htop]
  have hb := block_force (fc := fc) hx hx1
  rw [abs_of_pos hfc] at hb
  have e' : ∀ y, -0.0035 + 0.0035 / x * (z1 - y) = (-0.0035 + 0.0035 / x * z1) + -(0.0035 / x) * y := by intro y; ring
  simp only [e'] at hb
  rw [show -(17 / 21 * fc * x) = -(17 / 21 * fc) * x by ring]
  have hcx : -c ≤ 0.0035 / x := by
    rw [le_div_iff₀ hx]
    have : e = -c * (z1 - x) := by linarith
    rw [this] at htop
    linarith
  calc -(17 / 21 * fc) * x = _ := by rw [← hb.trans (by ring : _ = -(17 / 21 * fc) * x)]
    _ ≤ _ := ?_
  refine intervalIntegral.integral_mono_on hz (stress_integrable hz (by linarith) (by linarith)) (stress_integrable hz hc.le htop) ?_
  intro y hy
  have hval : -0.0035 + 0.0035 / x * z1 + -(0.0035 / x) * y = 0.0035 / x * (z1 - x - y) := by
    rw [mul_sub, mul_sub, hkx]; ring
  have hval' : e + c * y = -c * (z1 - x - y) := by
    have : e = -c * (z1 - x) := by linarith
    rw [this]; ring
  rw [hval, hval']
  by_cases hu : 0 ≤ z1 - x - y
  · rw [pr_stress_tension fc 0.002 0.0035 (by norm_num) (by norm_num [abs_of_pos]) (mul_nonneg hk.le hu),
      pr_stress_tension fc 0.002 0.0035 (by norm_num) (by norm_num [abs_of_pos]) (mul_nonneg (by linarith) hu)]
  · refine pr_stress_mono fc 0.002 0.0035 (by norm_num) (by norm_num [abs_of_pos]) ?_ ?_
    · rw [abs_of_pos (by norm_num), ← hval]
      have := mul_le_mul_of_nonneg_left hy.2 hk.le
      linarith
    · exact mul_le_mul_of_nonpos_right hcx (not_le.1 hu).le

/-- A balanced state with yielding bars and the upper face not crushed: the strain at the axis is at most that of the textbook neutral
axis under the curvature. -/
theorem balanced_strain (hab : a < b) (hfc : 0 < fc) {zb As E ey eu e c n X τ : ℝ} (hz0 : z0 ≤ zb) (hz : zb ≤ z1) {bars : List Bar}
    (hzb : ∀ r ∈ bars, r.y = zb) (hAs : (bars.map Bar.area).sum = As) {f : ℝ → ℝ} (hf : ∀ r ∈ bars, r.law.law.stress = f)
    (hclamp : ∀ v, |v| ≤ eu → f v = E * max (-ey) (min v ey)) (hey : 0 < ey) (hc : c < 0) (htop : -0.0035 ≤ e + c * z1)
    (hyield : ey ≤ e + c * zb) (hult : e + c * zb ≤ eu)
    (hX : X = (As * (E * ey) - n) / (17 / 21 * fc * (b - a))) (hτ : τ = 1e-2 / (17 / 21 * fc * (b - a))) (hX0 : τ < X)
    (hn : |(crossSection ((normalParts fc (rectShape a b z0 z1)).map ConcretePart.solid) bars).forces ![e, c, 0] 0 - n| ≤ 1e-2) :
    e ≤ -c * (z1 - X + τ) := by
  set q := 17 / 21 * fc * (b - a) with hq
  have hq0 : 0 < q := by rw [hq]; exact mul_pos (by positivity) (by linarith)
  have hfv : f (e + c * zb) = E * ey := by
    rw [hclamp _ (by rw [abs_of_pos (by linarith)]; exact hult), min_eq_right hyield, max_eq_right (by linarith)]
  rw [(rect_core hab.le (hz0.trans hz) hzb hAs hf e c).1, hfv] at hn
  have hXq : n = As * (E * ey) - q * X := by rw [hX]; field_simp; ring
  have hτq : q * τ = 1e-2 := by rw [hτ]; field_simp
  set I := ∫ y in z0..z1, (ParabolaRectangle.new fc 0.002 0.0035 2).core (e + c * y) with hI
  have h1 := (abs_le.1 hn).2
  by_contra hcon
  push Not at hcon
  -- the depth of the neutral axis
  set x := z1 + e / c with hx
  have hcx : e + c * (z1 - x) = 0 := by
    have h9 : c * (e / c) = e := mul_div_cancel₀ e hc.ne
    rw [hx, show e + c * (z1 - (z1 + e / c)) = e - c * (e / c) by ring, h9, sub_self]
  have hxX : x < X - τ := by
    have : e = -c * (z1 - x) := by linarith
    rw [this] at hcon
    have := lt_of_mul_lt_mul_left hcon (by linarith)
    linarith
  have hxd : x ≤ z1 - z0 := by
    have h2 : 0 < -c * (z1 - x - zb) := by
      have : e + c * zb = -c * (z1 - x - zb) := by linarith
      rw [← this]; linarith
    have := (mul_pos_iff_of_pos_left (by linarith)).1 h2
    linarith
  rcases lt_or_ge 0 x with hx0 | hx0
  · have h2 := block_bound (z0 := z0) hfc hx0 hxd hc hcx htop
    rw [← hI] at h2
    have h3 : -(q * x) ≤ (b - a) * I := by
      have := mul_le_mul_of_nonneg_left h2 (sub_nonneg.2 hab.le)
      rw [hq]; linarith
    have h4 : q * x < q * (X - τ) := mul_lt_mul_of_pos_left hxX hq0
    linarith
  · have h2 : I = 0 := by
      rw [hI, core_integral (hz0.trans hz) hc.le htop]
      rw [intervalIntegral.integral_congr (g := fun _ => (0:ℝ)), intervalIntegral.integral_zero]
      intro y hy
      rw [Set.uIcc_of_le (hz0.trans hz)] at hy
      refine pr_stress_tension fc 0.002 0.0035 (by norm_num) (by norm_num [abs_of_pos]) ?_
      have : e + c * y = -c * (z1 - x - y) := by linarith
      rw [this]
      exact mul_nonneg (by linarith) (by linarith [hy.2])
    rw [h2] at h1
    have h4 : q * τ < q * X := mul_lt_mul_of_pos_left hX0 hq0
    linarith

end

end SC
