import Verif.Props.HardeningGap
import Verif.Props.OrdinaryMaterials
import Mathlib.MeasureTheory.Integral.IntervalIntegral.FundThmCalculus
import Mathlib.MeasureTheory.Integral.IntervalIntegral.IntegrationByParts

/-! # C77: the compression block of a rectangular section -/

set_option autoImplicit false

namespace SC

open Spec MeasureTheory

/-- The stress at distance `z1 - y` below a top fibre at strain -0.0035, the neutral axis being at depth `x`. -/
theorem block_stress {fc x z1 y : ℝ} (hx : 0 < x) (hy : y ≤ z1) :
    (ParabolaRectangle.new fc 0.002 0.0035 2).stress (-0.0035 + 0.0035 / x * (z1 - y)) =
      -|fc| * (1 - (1 - min (max (-(-0.0035 + 0.0035 / x * (z1 - y))) 0) 0.002 / 0.002) ^ 2) := by
  have h := pr_stress_formula fc 0.002 0.0035 (by norm_num) (by norm_num [abs_of_pos]) (z := -0.0035 + 0.0035 / x * (z1 - y)) (by
    rw [abs_of_pos (by norm_num)]
    have : 0 ≤ 0.0035 / x * (z1 - y) := mul_nonneg (by positivity) (by linarith)
    linarith)
  rw [h, abs_of_pos (by norm_num : (0:ℝ) < 0.002)]

theorem block_zone1 {fc x z1 y : ℝ} (hx : 0 < x) (hy : y ≤ z1 - x) :
    (ParabolaRectangle.new fc 0.002 0.0035 2).stress (-0.0035 + 0.0035 / x * (z1 - y)) = 0 := by
  rw [block_stress hx (by linarith)]
  have : 0.0035 ≤ 0.0035 / x * (z1 - y) := by
    rw [div_mul_eq_mul_div, le_div_iff₀ hx]
    exact mul_le_mul_of_nonneg_left (by linarith) (by norm_num)
  rw [max_eq_right (by linarith), min_eq_left (by norm_num)]
  norm_num

theorem block_zone2 {fc x z1 y : ℝ} (hx : 0 < x) (h1 : z1 - x ≤ y) (h2 : y ≤ z1 - 3 / 7 * x) :
    (ParabolaRectangle.new fc 0.002 0.0035 2).stress (-0.0035 + 0.0035 / x * (z1 - y)) =
      -|fc| * (2 * ((y - (z1 - x)) / (4 / 7 * x)) - ((y - (z1 - x)) / (4 / 7 * x)) ^ 2) := by
  rw [block_stress hx (by linarith)]
  have e : -(-0.0035 + 0.0035 / x * (z1 - y)) = 0.002 * ((y - (z1 - x)) / (4 / 7 * x)) := by
    field_simp
    ring
  have t0 : 0 ≤ (y - (z1 - x)) / (4 / 7 * x) := div_nonneg (by linarith) (by positivity)
  have t1 : (y - (z1 - x)) / (4 / 7 * x) ≤ 1 := by rw [div_le_one (by positivity)]; linarith
  rw [e]
  generalize (y - (z1 - x)) / (4 / 7 * x) = t at *
  rw [max_eq_left (by positivity), min_eq_left (by linarith)]
  have : 0.002 * t / 0.002 = t := by field_simp
  rw [this]
  ring

theorem block_zone3 {fc x z1 y : ℝ} (hx : 0 < x) (h1 : z1 - 3 / 7 * x ≤ y) (h2 : y ≤ z1) :
    (ParabolaRectangle.new fc 0.002 0.0035 2).stress (-0.0035 + 0.0035 / x * (z1 - y)) = -|fc| := by
  rw [block_stress hx h2]
  have : 0.0035 / x * (z1 - y) ≤ 0.0015 := by
    rw [div_mul_eq_mul_div, div_le_iff₀ hx]
    linarith
  rw [max_eq_left (by linarith), min_eq_right (by linarith)]
  norm_num

/-- An integral in three steps. -/
theorem integral_three {f g : ℝ → ℝ} {F : ℝ → ℝ} {a p q b k : ℝ} (hap : a ≤ p) (hpq : p ≤ q) (hqb : q ≤ b)
    (h1 : ∀ y, y ≤ p → f y = 0) (h2 : ∀ y ∈ Set.Icc p q, f y = g y) (h3 : ∀ y ∈ Set.Icc q b, f y = k * F y)
    (hg : Continuous g) (hF : Continuous F) :
    ∫ y in a..b, f y = (∫ y in p..q, g y) + ∫ y in q..b, k * F y := by
  have i1 : IntervalIntegrable f volume a p :=
    (intervalIntegrable_const (c := (0:ℝ))).congr fun y hy => by
      rw [Set.uIoc_of_le hap] at hy; exact (h1 y hy.2).symm
  have i2 : IntervalIntegrable f volume p q :=
    (hg.intervalIntegrable p q).congr fun y hy => by
      rw [Set.uIoc_of_le hpq] at hy; exact (h2 y ⟨hy.1.le, hy.2⟩).symm
  have i3 : IntervalIntegrable f volume q b :=
    ((continuous_const.mul hF).intervalIntegrable q b).congr fun y hy => by
      rw [Set.uIoc_of_le hqb] at hy; exact (h3 y ⟨hy.1.le, hy.2⟩).symm
  rw [← intervalIntegral.integral_add_adjacent_intervals (i1.trans i2) i3, ← intervalIntegral.integral_add_adjacent_intervals i1 i2]
  have e1 : ∫ y in a..p, f y = 0 := by
    rw [intervalIntegral.integral_congr (g := fun _ => (0:ℝ)) fun y hy => by
      rw [Set.uIcc_of_le hap] at hy; exact h1 y hy.2]
    simp
  have e2 : ∫ y in p..q, f y = ∫ y in p..q, g y := intervalIntegral.integral_congr fun y hy => by
      rw [Set.uIcc_of_le hpq] at hy; exact h2 y hy
  have e3 : ∫ y in q..b, f y = ∫ y in q..b, k * F y := intervalIntegral.integral_congr fun y hy => by
      rw [Set.uIcc_of_le hqb] at hy; exact h3 y hy
  rw [e1, e2, e3, zero_add]

/-- Force of the compression block per width: `17/21 fc x`. -/
theorem block_force {fc x z0 z1 : ℝ} (hx : 0 < x) (hx1 : x ≤ z1 - z0) :
    ∫ y in z0..z1, (ParabolaRectangle.new fc 0.002 0.0035 2).stress (-0.0035 + 0.0035 / x * (z1 - y)) = -(17 / 21 * |fc| * x) := by
  rw [integral_three (p := z1 - x) (q := z1 - 3 / 7 * x) (k := -|fc|) (F := fun _ => 1)
    (g := fun y => -|fc| * (2 * ((y - (z1 - x)) / (4 / 7 * x)) - ((y - (z1 - x)) / (4 / 7 * x)) ^ 2))
    (by linarith) (by linarith) (by linarith) (fun y hy => block_zone1 hx hy) (fun y hy => block_zone2 hx hy.1 hy.2)
    (fun y hy => by rw [block_zone3 hx hy.1 hy.2, mul_one]) (by fun_prop) continuous_const]
  have h2 : ∫ y in (z1 - x)..(z1 - 3 / 7 * x), -|fc| * (2 * ((y - (z1 - x)) / (4 / 7 * x)) - ((y - (z1 - x)) / (4 / 7 * x)) ^ 2) =
      -|fc| * (8 / 21 * x) := by
    rw [intervalIntegral.integral_eq_sub_of_hasDerivAt
      (f := fun y => -|fc| * ((y - (z1 - x)) ^ 2 / (4 / 7 * x) - (y - (z1 - x)) ^ 3 / (3 * (4 / 7 * x) ^ 2)))]
    · field_simp
      ring
    · intro y _
      have d : HasDerivAt (fun y => y - (z1 - x)) 1 y := (hasDerivAt_id y).sub_const _
      have := (((d.pow 2).div_const (4 / 7 * x)).sub ((d.pow 3).div_const (3 * (4 / 7 * x) ^ 2))).const_mul (-|fc|)
      refine this.congr_deriv ?_
      simp only [Nat.cast_ofNat, Nat.add_one_sub_one]
      field_simp
    · apply Continuous.intervalIntegrable
      fun_prop
  rw [h2]
  simp only [mul_one, intervalIntegral.integral_const, smul_eq_mul]
  ring

/-- Its moment: the force acts `99/238 x` below the top. -/
theorem block_moment {fc x z0 z1 : ℝ} (hx : 0 < x) (hx1 : x ≤ z1 - z0) :
    ∫ y in z0..z1, (ParabolaRectangle.new fc 0.002 0.0035 2).stress (-0.0035 + 0.0035 / x * (z1 - y)) * y =
      -(17 / 21 * |fc| * x * (z1 - 99 / 238 * x)) := by
  rw [integral_three (p := z1 - x) (q := z1 - 3 / 7 * x) (k := -|fc|) (F := fun y => y)
    (g := fun y => -|fc| * (2 * ((y - (z1 - x)) / (4 / 7 * x)) - ((y - (z1 - x)) / (4 / 7 * x)) ^ 2) * y)
    (by linarith) (by linarith) (by linarith) (fun y hy => by rw [block_zone1 hx hy, zero_mul])
    (fun y hy => by rw [block_zone2 hx hy.1 hy.2])
    (fun y hy => by rw [block_zone3 hx hy.1 hy.2]) (by fun_prop) continuous_id]
  have h2 : ∫ y in (z1 - x)..(z1 - 3 / 7 * x), -|fc| * (2 * ((y - (z1 - x)) / (4 / 7 * x)) - ((y - (z1 - x)) / (4 / 7 * x)) ^ 2) * y =
      -|fc| * ((z1 - x) * (8 / 21 * x) + 5 / 12 * (4 / 7 * x) ^ 2) := by
    rw [intervalIntegral.integral_eq_sub_of_hasDerivAt
      (f := fun y => -|fc| * ((z1 - x) * ((y - (z1 - x)) ^ 2 / (4 / 7 * x) - (y - (z1 - x)) ^ 3 / (3 * (4 / 7 * x) ^ 2)) +
        (2 * (y - (z1 - x)) ^ 3 / (3 * (4 / 7 * x)) - (y - (z1 - x)) ^ 4 / (4 * (4 / 7 * x) ^ 2))))]
    · field_simp
      ring
    · intro y _
      have d : HasDerivAt (fun y => y - (z1 - x)) 1 y := (hasDerivAt_id y).sub_const _
      have := (((((d.pow 2).div_const (4 / 7 * x)).sub ((d.pow 3).div_const (3 * (4 / 7 * x) ^ 2))).const_mul (z1 - x)).add
        ((((d.pow 3).const_mul 2).div_const (3 * (4 / 7 * x))).sub ((d.pow 4).div_const (4 * (4 / 7 * x) ^ 2)))).const_mul (-|fc|)
      refine this.congr_deriv ?_
      simp only [Nat.cast_ofNat, Nat.add_one_sub_one]
      field_simp
      ring
    · apply Continuous.intervalIntegrable
      fun_prop
  rw [h2]
  have h3 : ∫ y in (z1 - 3 / 7 * x)..z1, -|fc| * y = -|fc| * ((z1 ^ 2 - (z1 - 3 / 7 * x) ^ 2) / 2) := by
    rw [intervalIntegral.integral_const_mul, integral_id]
  rw [h3]
  ring

end SC
