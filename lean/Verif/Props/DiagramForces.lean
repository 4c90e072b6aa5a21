import Verif.Props.DiagramDesign
import Verif.Props.RectExample

/-! # C78: forces of a 300 × 500 beam with two bars under small curvatures -/

set_option autoImplicit false

namespace SC

open Spec MeasureTheory

/-- The search at a given curvature returns a strain between its start and the first trial strain on the other side. -/
theorem fixedCurvature_within (N : ℝ → ℝ → ℝ) (n curv eps0 L : ℝ) {i : ℕ} (hi : i ≤ 10)
    (hbr : (N eps0 curv - n) * (N (eps0 + preSign (N eps0 curv - n) * (1e-3 * 2 ^ i)) curv - n) < 0)
    (hL0 : 0 ≤ L) (hL : ∀ x y, |x - eps0| ≤ 1e-3 * 2 ^ i → |y - eps0| ≤ 1e-3 * 2 ^ i →
      0 ≤ preSign (N eps0 curv - n) * (x - eps0) → 0 ≤ preSign (N eps0 curv - n) * (y - eps0) →
      |N x curv - N y curv| ≤ L * |x - y|) (hsmall : L ≤ 1e24) :
    ∃ e k, fixedCurvature N n curv eps0 = some (.ok (e, curv, 0), k) ∧ |e - eps0| ≤ 1e-3 * 2 ^ i ∧
      0 ≤ preSign (N eps0 curv - n) * (e - eps0) := by
  obtain ⟨e, k, hek⟩ := fixedCurvature_returns N n curv eps0 L hi hbr hL0 hL hsmall
  refine ⟨e, k, hek, ?_⟩
  unfold fixedCurvature at hek
  simp only at hek
  split_ifs at hek with h0
  · simp only [Option.some.injEq, Prod.mk.injEq, Except.ok.injEq] at hek
    obtain ⟨⟨rfl, -⟩, -⟩ := hek
    rw [sub_self, abs_zero, mul_zero]
    exact ⟨by positivity, le_rfl⟩
  · obtain ⟨j, hj, k, hp, hb⟩ := prefind_finds (fun e => N e curv - n) eps0 hi hbr
    rw [hp] at hek
    simp only [Option.map_eq_some_iff] at hek
    obtain ⟨⟨r', k'⟩, hbis, hek⟩ := hek
    simp only [Prod.mk.injEq] at hek
    obtain ⟨hek, -⟩ := hek
    set sg := preSign (N eps0 curv - n) with hsg
    have hs : sg = 1 ∨ sg = -1 := by rw [hsg]; unfold preSign; split_ifs <;> simp
    have hpow : (1e-3 : ℝ) * 2 ^ j ≤ 1e-3 * 2 ^ i := by
      have : (2 : ℝ) ^ j ≤ 2 ^ i := pow_le_pow_right₀ (by norm_num) hj
      linarith
    have hpos : (0 : ℝ) < 1e-3 * 2 ^ j := by positivity
    cases r' with
    | error err => simp at hek
    | ok c =>
      simp only [Except.ok.injEq, Prod.mk.injEq] at hek
      obtain ⟨⟨t, ht, hct⟩, -⟩ := (bisection_spec (fun e => N e curv - n) eps0 (eps0 + sg * (1e-3 * 2 ^ j)) hbis).1 c rfl
      rw [hek.1] at hct
      obtain ⟨t0, t1⟩ := ht.mem_Icc
      have e1 : e - eps0 = sg * (t * (1e-3 * 2 ^ j)) := by rw [hct]; ring
      have t2 : t * (1e-3 * 2 ^ j) ≤ 1 * (1e-3 * 2 ^ j) := mul_le_mul_of_nonneg_right t1 hpos.le
      have t3 : 0 ≤ t * (1e-3 * 2 ^ j) := mul_nonneg t0 hpos.le
      rw [e1]
      rcases hs with h | h <;> rw [h]
      · rw [one_mul, abs_of_nonneg t3, one_mul]; exact ⟨by linarith, t3⟩
      · rw [neg_one_mul, abs_neg, abs_of_nonneg t3]; exact ⟨by linarith, by linarith⟩

namespace DiagramBeam

/-- Two bars of area `A`. -/
noncomputable def bars (L : Law) (A : ℝ) : List Bar := [⟨-110, -200, A, ⟨1, L⟩⟩, ⟨110, -200, A, ⟨1, L⟩⟩]

/-- The section with the laws as they are integrated. -/
noncomputable def section' (L : Law) (A : ℝ) : CrossSection :=
  crossSection ((normalParts 20 (rectShape (-150) 150 (-250) 250)).map ConcretePart.solid) (bars L A)

/-- The axial force under the axial strain `e` and the curvature `c`. -/
noncomputable def force (L : Law) (A e c : ℝ) : ℝ := planeForce (section' L A) 0 e c

/-- The yield strain of B500. -/
noncomputable def ey : ℝ := 500 / 1.15 / 200000

theorem ey_bounds : 0.00217 ≤ ey ∧ ey ≤ 0.00218 := by unfold ey; constructor <;> norm_num

variable {L : Law} {A : ℝ}

theorem force_eq (e c : ℝ) : force L A e c =
    300 * (∫ y in (-250:ℝ)..250, (ParabolaRectangle.new 20 0.002 0.0035 2).core (e + c * y)) + 2 * A * L.stress (e - 200 * c) := by
  have := (rect_core (fc := 20) (a := -150) (b := 150) (z0 := -250) (z1 := 250) (by norm_num) (by norm_num) (bars := bars L A) (zb := -200)
    (As := 2 * A) (by intro r hr; simp only [bars, List.mem_cons, List.not_mem_nil, or_false] at hr; rcases hr with rfl | rfl <;> rfl)
    (by simp only [bars, List.map_cons, List.map_nil, List.sum_cons, List.sum_nil]; ring) (f := L.stress)
    (by intro r hr; simp only [bars, List.mem_cons, List.not_mem_nil, or_false] at hr; rcases hr with rfl | rfl <;> rfl) e c).1
  rw [force, planeForce, Real.cos_zero, Real.sin_zero, mul_one, mul_zero, section', this]
  rw [show (150:ℝ) - -150 = 300 by norm_num, show e + c * -200 = e - 200 * c by ring]

theorem stress_le (x : ℝ) : (ParabolaRectangle.new 20 0.002 0.0035 2).stress x ≤ 0 :=
  (pr_stress_range 20 0.002 0.0035 (by norm_num) x).2

theorem stress_formula {z : ℝ} (hz : -0.0035 ≤ z) : (ParabolaRectangle.new 20 0.002 0.0035 2).stress z =
    -20 * (1 - (1 - min (max (-z) 0) 0.002 / 0.002) ^ 2) := by
  have := pr_stress_formula 20 0.002 0.0035 (by norm_num) (by norm_num [abs_of_pos]) (z := z) (by rw [abs_of_pos (by norm_num)]; exact hz)
  rw [this, abs_of_pos (by norm_num : (0:ℝ) < 20), abs_of_pos (by norm_num : (0:ℝ) < 0.002)]

theorem stress_down {z : ℝ} (h1 : -0.0024 ≤ z) (h2 : z ≤ 0) : (ParabolaRectangle.new 20 0.002 0.0035 2).stress z ≤ 8000 * z := by
  rw [stress_formula (by norm_num at *; linarith), max_eq_left (by linarith)]
  rcases le_total (-z) 0.002 with h | h
  · rw [min_eq_left h]
    have : -z / 0.002 = 500 * (-z) := by ring
    rw [this]
    nlinarith
  · rw [min_eq_right h]
    norm_num at *
    linarith

theorem stress_up {z : ℝ} (h1 : -0.00033 ≤ z) : -6.5 ≤ (ParabolaRectangle.new 20 0.002 0.0035 2).stress z := by
  rw [stress_formula (by norm_num at *; linarith)]
  have h3 : max (-z) 0 ≤ 0.00033 := max_le (by linarith) (by norm_num)
  have h4 : 0 ≤ max (-z) 0 := le_max_right _ _
  rw [min_eq_left (h3.trans (by norm_num))]
  generalize max (-z) 0 = m at *
  have : m / 0.002 = 500 * m := by ring
  rw [this]
  have h5 : m ≤ 0.00033 := h3
  norm_num at *
  nlinarith

/-- Forces change with the strains. -/
theorem force_lip (hA : 0 ≤ A ∧ A ≤ 500) (hL : ∀ v, |v| ≤ 0.045 → L.stress v = 200000 * max (-ey) (min v ey)) {e c e' c' D : ℝ}
    (hc : c ≤ 0) (hc' : c' ≤ 0) (ht : -0.0035 ≤ e + c * 250) (ht' : -0.0035 ≤ e' + c' * 250) (hb : |e - 200 * c| ≤ 0.045)
    (hb' : |e' - 200 * c'| ≤ 0.045) (hD : ∀ y ∈ Set.Icc (-250:ℝ) 250, |e + c * y - (e' + c' * y)| ≤ D) :
    |force L A e c - force L A e' c'| ≤ 1e10 * D := by
  have hD0 : 0 ≤ D := (abs_nonneg _).trans (hD 0 (by norm_num))
  rw [force_eq, force_eq, core_integral (by norm_num) hc ht, core_integral (by norm_num) hc' ht']
  have i1 := stress_integrable (fc := 20) (z0 := -250) (by norm_num) hc ht
  have i2 := stress_integrable (fc := 20) (z0 := -250) (by norm_num) hc' ht'
  have h1 : |(∫ y in (-250:ℝ)..250, (ParabolaRectangle.new 20 0.002 0.0035 2).stress (e + c * y)) -
      ∫ y in (-250:ℝ)..250, (ParabolaRectangle.new 20 0.002 0.0035 2).stress (e' + c' * y)| ≤ 20000 * D * 500 := by
    rw [← intervalIntegral.integral_sub i1 i2, ← Real.norm_eq_abs]
    refine (intervalIntegral.norm_integral_le_of_norm_le_const (C := 20000 * D) fun y hy => ?_).trans (by norm_num)
    rw [Set.uIoc_of_le (by norm_num)] at hy
    have hy' : y ∈ Set.Icc (-250:ℝ) 250 := ⟨hy.1.le, hy.2⟩
    have l1 : -|(0.0035:ℝ)| ≤ e + c * y := by
      rw [abs_of_pos (by norm_num)]; linarith [mul_le_mul_of_nonpos_left hy.2 hc]
    have l2 : -|(0.0035:ℝ)| ≤ e' + c' * y := by
      rw [abs_of_pos (by norm_num)]; linarith [mul_le_mul_of_nonpos_left hy.2 hc']
    rw [Real.norm_eq_abs, pr_stress_core _ _ _ (by norm_num [abs_of_pos]) l1, pr_stress_core _ _ _ (by norm_num [abs_of_pos]) l2]
    refine (pr_core_lipschitz 20 0.002 0.0035 (by norm_num) (by norm_num [abs_of_pos]) l1 l2).trans ?_
    rw [abs_of_pos (by norm_num : (0:ℝ) < 20), abs_of_pos (by norm_num : (0:ℝ) < 0.002)]
    have := hD y hy'
    calc _ ≤ 2 * 20 / 0.002 * D := mul_le_mul_of_nonneg_left this (by norm_num)
      _ = 20000 * D := by ring
  have h2 : |L.stress (e - 200 * c) - L.stress (e' - 200 * c')| ≤ 200000 * D := by
    rw [hL _ hb, hL _ hb', ← mul_sub, abs_mul, abs_of_pos (by norm_num)]
    refine mul_le_mul_of_nonneg_left ?_ (by norm_num)
    have := hD (-200) (by norm_num)
    rw [show e + c * -200 - (e' + c' * -200) = (e - 200 * c) - (e' - 200 * c') by ring] at this
    refine le_trans ?_ this
    rw [max_comm (-ey), max_comm (-ey)]
    exact (abs_max_sub_max_le_abs (min (e - 200 * c) ey) (min (e' - 200 * c') ey) (-ey)).trans
      (abs_inf_sub_inf_le_abs (e - 200 * c) (e' - 200 * c') ey)
  rw [abs_le] at *
  have h3 : 2 * A * (L.stress (e - 200 * c) - L.stress (e' - 200 * c')) ≤ 1000 * (200000 * D) := by
    nlinarith
  have h4 : -(1000 * (200000 * D)) ≤ 2 * A * (L.stress (e - 200 * c) - L.stress (e' - 200 * c')) := by
    nlinarith
  constructor <;> nlinarith

/-- Under strains not positive at the axis the section is compressed. -/
theorem force_low (hA : 0 ≤ A ∧ A ≤ 500) (hL : ∀ v, |v| ≤ 0.045 → L.stress v = 200000 * max (-ey) (min v ey)) {e c : ℝ}
    (hc : c < 0) (hc' : -9.3e-6 ≤ c) (ht : -0.0035 ≤ e + c * 250) (he' : e ≤ 0) : force L A e c ≤ 0 := by
  have hey := ey_bounds
  rw [force_eq, core_integral (by norm_num) hc.le ht]
  have hint : ∀ z0 z1 : ℝ, z0 ≤ z1 → z1 ≤ 250 →
      IntervalIntegrable (fun y => (ParabolaRectangle.new 20 0.002 0.0035 2).stress (e + c * y)) volume z0 z1 := by
    intro z0 z1 h h'
    exact stress_integrable h hc.le (ht.trans (by linarith [mul_le_mul_of_nonpos_left h' hc.le]))
  rw [← intervalIntegral.integral_add_adjacent_intervals (hint (-250) 0 (by norm_num) (by norm_num)) (hint 0 250 (by norm_num) le_rfl)]
  have h1 : ∫ y in (-250:ℝ)..0, (ParabolaRectangle.new 20 0.002 0.0035 2).stress (e + c * y) ≤ ∫ y in (-250:ℝ)..0, (0:ℝ) :=
    intervalIntegral.integral_mono_on (by norm_num) (hint (-250) 0 (by norm_num) (by norm_num)) (by simp) fun y _ => stress_le _
  rw [intervalIntegral.integral_zero] at h1
  have h2 : ∫ y in (0:ℝ)..250, (ParabolaRectangle.new 20 0.002 0.0035 2).stress (e + c * y) ≤ ∫ y in (0:ℝ)..250, 8000 * (c * y) := by
    refine intervalIntegral.integral_mono_on (by norm_num) (hint 0 250 (by norm_num) le_rfl)
      ((by fun_prop : Continuous fun y : ℝ => 8000 * (c * y)).intervalIntegrable _ _) fun y hy => ?_
    have h3 : c * 250 ≤ c * y := mul_le_mul_of_nonpos_left hy.2 hc.le
    have h4 : c * y ≤ 0 := mul_nonpos_of_nonpos_of_nonneg hc.le hy.1
    have h5 : -0.0024 ≤ c * y := by norm_num at *; linarith
    refine (?_ : _ ≤ (ParabolaRectangle.new 20 0.002 0.0035 2).stress (c * y)).trans (stress_down h5 h4)
    refine pr_stress_mono 20 0.002 0.0035 (by norm_num) (by norm_num [abs_of_pos]) ?_ (by linarith)
    rw [abs_of_pos (by norm_num)]
    linarith
  have h3 : ∫ y in (0:ℝ)..250, 8000 * (c * y) = 2.5e8 * c := by
    rw [intervalIntegral.integral_const_mul, intervalIntegral.integral_const_mul, integral_id]
    ring
  have h4 : L.stress (e - 200 * c) ≤ 4e7 * (-c) := by
    rw [hL _ (by rw [abs_le]; constructor <;> norm_num at * <;> linarith)]
    have : max (-ey) (min (e - 200 * c) ey) ≤ 200 * (-c) := max_le (by norm_num at *; linarith) ((min_le_left _ _).trans (by linarith))
    linarith
  have h5 : 2 * A * L.stress (e - 200 * c) ≤ 2 * A * (4e7 * (-c)) := mul_le_mul_of_nonneg_left h4 (by linarith [hA.1])
  have h6 : 2 * A * (4e7 * (-c)) ≤ 1000 * (4e7 * (-c)) := mul_le_mul_of_nonneg_right (by linarith [hA.2]) (by linarith)
  linarith

/-- Under strains above 0.002 at the axis the section is stretched. -/
theorem force_high (hA : 100 ≤ A) (hL : ∀ v, |v| ≤ 0.045 → L.stress v = 200000 * max (-ey) (min v ey)) {e c : ℝ}
    (hc : c < 0) (hc' : -9.3e-6 ≤ c) (he : 2e-3 ≤ e) (he' : e ≤ 3e-3) : 1 ≤ force L A e c := by
  have hey := ey_bounds
  have ht : -0.0035 ≤ e + c * 250 := by norm_num at *; linarith
  rw [force_eq, core_integral (by norm_num) hc.le ht]
  have hint : ∀ z0 z1 : ℝ, z0 ≤ z1 → z1 ≤ 250 →
      IntervalIntegrable (fun y => (ParabolaRectangle.new 20 0.002 0.0035 2).stress (e + c * y)) volume z0 z1 := by
    intro z0 z1 h h'
    exact stress_integrable h hc.le (ht.trans (by linarith [mul_le_mul_of_nonpos_left h' hc.le]))
  rw [← intervalIntegral.integral_add_adjacent_intervals (hint (-250) 215 (by norm_num) (by norm_num)) (hint 215 250 (by norm_num) le_rfl)]
  have h1 : ∫ y in (-250:ℝ)..215, (ParabolaRectangle.new 20 0.002 0.0035 2).stress (e + c * y) = 0 := by
    rw [intervalIntegral.integral_congr (g := fun _ => (0:ℝ)), intervalIntegral.integral_zero]
    intro y hy
    rw [Set.uIcc_of_le (by norm_num)] at hy
    refine pr_stress_tension 20 0.002 0.0035 (by norm_num) (by norm_num [abs_of_pos]) ?_
    have := mul_le_mul_of_nonpos_left hy.2 hc.le
    norm_num at *
    linarith
  have h2 : ∫ y in (215:ℝ)..250, (-6.5:ℝ) ≤ ∫ y in (215:ℝ)..250, (ParabolaRectangle.new 20 0.002 0.0035 2).stress (e + c * y) := by
    refine intervalIntegral.integral_mono_on (by norm_num) (by simp) (hint 215 250 (by norm_num) le_rfl) fun y hy => ?_
    refine stress_up ?_
    have := mul_le_mul_of_nonpos_left hy.2 hc.le
    norm_num at *
    linarith
  rw [intervalIntegral.integral_const, smul_eq_mul] at h2
  have h4 : 400 ≤ L.stress (e - 200 * c) := by
    rw [hL _ (by rw [abs_le]; constructor <;> norm_num at * <;> linarith)]
    have : 0.002 ≤ max (-ey) (min (e - 200 * c) ey) := (le_min (by norm_num at *; linarith) (by norm_num at *; linarith)).trans (le_max_right _ _)
    linarith
  have h5 : 2 * 100 * 400 ≤ 2 * A * L.stress (e - 200 * c) := mul_le_mul (by linarith) h4 (by norm_num) (by linarith)
  rw [h1]
  have h6 : ((250:ℝ) - 215) * -6.5 = -227.5 := by norm_num
  rw [h6] at h2
  linarith

/-- Under the strain 0.001 and hardly any curvature the section is stretched. -/
theorem force_first (hA : 100 ≤ A) (hL : ∀ v, |v| ≤ 0.045 → L.stress v = 200000 * max (-ey) (min v ey)) {c : ℝ}
    (hc : c < 0) (hc' : -1e-8 ≤ c) : 1 ≤ force L A 1e-3 c := by
  have hey := ey_bounds
  have ht : -0.0035 ≤ 1e-3 + c * 250 := by norm_num at *; linarith
  rw [force_eq, core_integral (by norm_num) hc.le ht]
  have h1 : ∫ y in (-250:ℝ)..250, (ParabolaRectangle.new 20 0.002 0.0035 2).stress (1e-3 + c * y) = 0 := by
    rw [intervalIntegral.integral_congr (g := fun _ => (0:ℝ)), intervalIntegral.integral_zero]
    intro y hy
    rw [Set.uIcc_of_le (by norm_num)] at hy
    refine pr_stress_tension 20 0.002 0.0035 (by norm_num) (by norm_num [abs_of_pos]) ?_
    have := mul_le_mul_of_nonpos_left hy.2 hc.le
    norm_num at *
    linarith
  have h4 : 200 ≤ L.stress (1e-3 - 200 * c) := by
    rw [hL _ (by rw [abs_le]; constructor <;> norm_num at * <;> linarith)]
    have : 0.001 ≤ max (-ey) (min (1e-3 - 200 * c) ey) := (le_min (by norm_num at *; linarith) (by norm_num at *; linarith)).trans (le_max_right _ _)
    linarith
  have h5 : 2 * 100 * 200 ≤ 2 * A * L.stress (1e-3 - 200 * c) := mul_le_mul (by linarith) h4 (by norm_num) (by linarith)
  rw [h1]
  linarith

end DiagramBeam

end SC
