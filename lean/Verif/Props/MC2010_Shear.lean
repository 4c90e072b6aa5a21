import Verif.Model.MC2010Resist

/-! # C46: shear and torsion resistance of MC2010 -/

set_option autoImplicit false

namespace SC.MC2010

/-! ### Angles -/

theorem rad_pos {x : ℝ} (h : 0 < x) : 0 < rad x := by unfold rad; have := Real.pi_pos; positivity
theorem rad_lt_pi {x : ℝ} (h : x < 180) : rad x < Real.pi := by unfold rad; have := Real.pi_pos; nlinarith
theorem rad_le_half {x : ℝ} (h : x ≤ 90) : rad x ≤ Real.pi / 2 := by unfold rad; have := Real.pi_pos; nlinarith
theorem rad_gt_half {x : ℝ} (h : 90 < x) : Real.pi / 2 < rad x := by unfold rad; have := Real.pi_pos; nlinarith
theorem sin_pos {x : ℝ} (h0 : 0 < x) (h1 : x < 180) : 0 < Real.sin (rad x) := Real.sin_pos_of_pos_of_lt_pi (rad_pos h0) (rad_lt_pi h1)
theorem cos_nonneg {x : ℝ} (h0 : 0 < x) (h1 : x ≤ 90) : 0 ≤ Real.cos (rad x) :=
  Real.cos_nonneg_of_neg_pi_div_two_le_of_le (by have := rad_pos h0; have := Real.pi_pos; linarith) (rad_le_half h1)
theorem cotd_nonneg {x : ℝ} (h0 : 0 < x) (h1 : x ≤ 90) : 0 ≤ cotd x :=
  div_nonneg (cos_nonneg h0 h1) (sin_pos h0 (by linarith)).le
theorem cotd_90 : cotd 90 = 0 := by
  have : rad 90 = Real.pi / 2 := by unfold rad; ring
  simp [cotd, this]
theorem sin_90 : Real.sin (rad 90) = 1 := by
  have : rad 90 = Real.pi / 2 := by unfold rad; ring
  simp [this]
theorem cotd_45 : cotd 45 = 1 := by
  have : rad 45 = Real.pi / 4 := by unfold rad; ring
  have h2 : (0 : ℝ) < Real.sqrt 2 := Real.sqrt_pos.2 (by norm_num)
  simp only [cotd, this, Real.cos_pi_div_four, Real.sin_pi_div_four]
  exact div_self (by positivity)

/-- The cotangent falls on `(0, 180)`. -/
theorem cotd_anti {x y : ℝ} (h0 : 0 < x) (hxy : x ≤ y) (h1 : y < 180) : cotd y ≤ cotd x := by
  unfold cotd
  rw [div_le_div_iff₀ (sin_pos (by linarith) h1) (sin_pos h0 (by linarith))]
  have : 0 ≤ Real.sin (rad y - rad x) := by
    apply Real.sin_nonneg_of_nonneg_of_le_pi
    · unfold rad; have := Real.pi_pos; nlinarith
    · have := rad_lt_pi h1; have := rad_pos h0; linarith
  rw [Real.sin_sub] at this
  linarith

theorem strut_eq (t a : ℝ) (h0 : 0 < t) (h1 : t < 180) :
    strut t a = (cotd t + cotd a) * Real.sin (rad t) ^ 2 := by
  have hs := sin_pos h0 h1
  have : 1 + cotd t ^ 2 = 1 / Real.sin (rad t) ^ 2 := by
    have := Real.sin_sq_add_cos_sq (rad t)
    unfold cotd; field_simp; linarith
  unfold strut; rw [this]; field_simp

theorem strut_90 (t : ℝ) (h0 : 0 < t) (h1 : t < 180) : strut t 90 = Real.sin (rad t) * Real.cos (rad t) := by
  have hs := sin_pos h0 h1
  rw [strut_eq t 90 h0 h1, cotd_90, add_zero]
  unfold cotd; field_simp

theorem strut_nonneg (t a : ℝ) (h0 : 0 < t) (h1 : t ≤ 90) (a0 : 0 < a) (a1 : a ≤ 90) : 0 ≤ strut t a := by
  have := cotd_nonneg h0 h1
  have := cotd_nonneg a0 a1
  unfold strut; positivity

/-! ### Longitudinal strain and strength factor -/

/-- **C46 (longitudinal strain).** It is never negative, does not depend on the signs of moment and shear, and never
decreases with their magnitudes or (for `delta_e ≥ -z/2`) with the axial force. -/
theorem C46_epsilon_x (E As z : ℝ) (hE : 0 < E) (hA : 0 < As) (hz : 0 < z) (l : Loads) :
    0 ≤ epsilon_x E As z l ∧
    epsilon_x E As z { l with Med := -l.Med, Ved := -l.Ved } = epsilon_x E As z l ∧
    (∀ M V, |l.Med| ≤ |M| → |l.Ved| ≤ |V| → epsilon_x E As z l ≤ epsilon_x E As z { l with Med := M, Ved := V }) ∧
    (∀ N, l.Ned ≤ N → -z / 2 ≤ l.delta_e → epsilon_x E As z l ≤ epsilon_x E As z { l with Ned := N }) := by
  have hk : 0 < 1 / (2 * E * As) := by positivity
  refine ⟨le_max_right _ _, by simp [epsilon_x], fun M V hM hV => ?_, fun N hN he => ?_⟩
  · unfold epsilon_x
    apply max_le_max _ le_rfl
    apply mul_le_mul_of_nonneg_left _ hk.le
    have := div_le_div_of_nonneg_right hM hz.le
    simp only; linarith
  · unfold epsilon_x
    apply max_le_max _ le_rfl
    apply mul_le_mul_of_nonneg_left _ hk.le
    have h1 : 0 ≤ 1 / 2 + l.delta_e / z := by
      have : -(1 / 2) ≤ l.delta_e / z := by rw [le_div_iff₀ hz]; linarith
      linarith
    simp only; nlinarith

/-- **C46 (strength factor).** In `(0, 1]`, 1 exactly up to 30 MPa, never increasing. -/
theorem C46_eta_fc (f : ℝ) (hf : 0 < f) : 0 < eta_fc f ∧ eta_fc f ≤ 1 ∧ (eta_fc f = 1 ↔ f ≤ 30) ∧
    ∀ g, f ≤ g → eta_fc g ≤ eta_fc f := by
  have hp : 0 < (30 / f) ^ ((1 : ℝ) / 3) := Real.rpow_pos_of_pos (by positivity) _
  refine ⟨lt_min hp one_pos, min_le_right _ _, ⟨fun h => ?_, fun h => ?_⟩, fun g hg => ?_⟩
  · by_contra hc
    have : (30 / f) ^ ((1 : ℝ) / 3) < 1 :=
      Real.rpow_lt_one (by positivity) ((div_lt_one hf).2 (not_le.1 hc)) (by norm_num)
    unfold eta_fc at h
    rw [min_eq_left this.le] at h
    linarith
  · exact min_eq_right (Real.one_le_rpow ((one_le_div hf).2 h) (by norm_num))
  · apply min_le_min _ le_rfl
    apply Real.rpow_le_rpow (by have : 0 < g := by linarith
                                positivity) (div_le_div_of_nonneg_left (by norm_num) hf hg) (by norm_num)

/-! ### Crushing of the struts -/

theorem k_epsilon_bounds (e t : ℝ) (he : 0 ≤ e) : 0 < k_epsilon e t ∧ k_epsilon e t ≤ 0.65 := by
  refine ⟨lt_min ?_ (by norm_num), min_le_right _ _⟩
  have : 0 ≤ (e + 0.002) * cotd t ^ 2 := by positivity
  positivity

/-- **C46 (crushing, level 1).** For strut angles and stirrup inclinations in `(0°, 90°]` the resistance is
non-negative; with vertical stirrups it is symmetric about 45 degrees, positive inside `(0°, 90°)`, largest at 45 degrees
and equal to the truss formula with `sin θ cos θ`. -/
theorem C46_v_rd_max1 (f bw z g : ℝ) (hf : 0 < f) (hb : 0 < bw) (hz : 0 < z) (hg : 0 < g) (t : ℝ) (t0 : 0 < t) (t1 : t ≤ 90) :
    (∀ a, 0 < a → a ≤ 90 → 0 ≤ v_rd_max_approx1 f bw t z a g) ∧
    v_rd_max_approx1 f bw t z 90 g = 0.55 * eta_fc f * (f / g) * bw * z * (Real.sin (rad t) * Real.cos (rad t)) ∧
    v_rd_max_approx1 f bw t z 90 g ≤ v_rd_max_approx1 f bw 45 z 90 g ∧
    v_rd_max_approx1 f bw 45 z 90 g ≤ 0.275 * (f / g) * bw * z ∧
    (t < 90 → 0 < v_rd_max_approx1 f bw t z 90 g ∧ v_rd_max_approx1 f bw (90 - t) z 90 g = v_rd_max_approx1 f bw t z 90 g) := by
  have he := C46_eta_fc f hf
  have hk : 0 < 0.55 * eta_fc f * (f / g) * bw * z := by have := he.1; positivity
  have h45 : strut 45 90 = 1 / 2 := by
    rw [strut, cotd_45, cotd_90]; norm_num
  have hsc : Real.sin (rad t) * Real.cos (rad t) ≤ 1 / 2 := by
    have := Real.sin_sq_add_cos_sq (rad t)
    nlinarith [sq_nonneg (Real.sin (rad t) - Real.cos (rad t))]
  refine ⟨fun a a0 a1 => ?_, ?_, ?_, ?_, fun t2 => ⟨?_, ?_⟩⟩
  · exact mul_nonneg hk.le (strut_nonneg t a t0 t1 a0 a1)
  · unfold v_rd_max_approx1; rw [strut_90 t t0 (by linarith)]
  · unfold v_rd_max_approx1; rw [strut_90 t t0 (by linarith), h45]
    exact mul_le_mul_of_nonneg_left hsc hk.le
  · unfold v_rd_max_approx1; rw [h45]
    have : eta_fc f * (f / g * bw * z) ≤ 1 * (f / g * bw * z) := mul_le_mul_of_nonneg_right he.2.1 (by positivity)
    linarith
  · unfold v_rd_max_approx1; rw [strut_90 t t0 (by linarith)]
    have hc : 0 < Real.cos (rad t) := Real.cos_pos_of_mem_Ioo ⟨by have := rad_pos t0; have := Real.pi_pos; linarith, by
      unfold rad; have := Real.pi_pos; nlinarith⟩
    have := sin_pos t0 (by linarith)
    positivity
  · unfold v_rd_max_approx1; rw [strut_90 t t0 (by linarith), strut_90 (90 - t) (by linarith) (by linarith)]
    have : rad (90 - t) = Real.pi / 2 - rad t := by unfold rad; ring
    rw [this, Real.sin_pi_div_two_sub, Real.cos_pi_div_two_sub, mul_comm (Real.cos _)]

example : (0 : ℝ) < 30 ∧ (30 : ℝ) ≤ 90 := by norm_num

/-- **C46 (crushing, level 2).** Non-negative in the same range, at most `0.65 / 0.55` times level 1, and never
increasing with the magnitudes of moment and shear. -/
theorem C46_v_rd_max2 (f bw z g E As : ℝ) (hf : 0 < f) (hb : 0 < bw) (hz : 0 < z) (hg : 0 < g) (hE : 0 < E) (hA : 0 < As)
    (l : Loads) (t a : ℝ) (t0 : 0 < t) (t1 : t ≤ 90) (a0 : 0 < a) (a1 : a ≤ 90) :
    0 ≤ v_rd_max_approx2 f bw t z E As l a g ∧
    v_rd_max_approx2 f bw t z E As l a g ≤ 0.65 / 0.55 * v_rd_max_approx1 f bw t z a g ∧
    (∀ M V, |l.Med| ≤ |M| → |l.Ved| ≤ |V| →
      v_rd_max_approx2 f bw t z E As { l with Med := M, Ved := V } a g ≤ v_rd_max_approx2 f bw t z E As l a g) := by
  have he := (C46_eta_fc f hf).1
  have hx := C46_epsilon_x E As z hE hA hz l
  have hs := strut_nonneg t a t0 t1 a0 a1
  have hk := k_epsilon_bounds (epsilon_x E As z l) t hx.1
  have hR : 0 ≤ eta_fc f * (f / g) * bw * z * strut t a := by positivity
  have e2 : ∀ l', v_rd_max_approx2 f bw t z E As l' a g =
      k_epsilon (epsilon_x E As z l') t * (eta_fc f * (f / g) * bw * z * strut t a) := fun l' => by
    unfold v_rd_max_approx2; ring
  refine ⟨by rw [e2]; exact mul_nonneg hk.1.le hR, ?_, fun M V hM hV => ?_⟩
  · rw [e2]
    have : 0.65 / 0.55 * v_rd_max_approx1 f bw t z a g = 0.65 * (eta_fc f * (f / g) * bw * z * strut t a) := by
      unfold v_rd_max_approx1; ring
    rw [this]
    exact mul_le_mul_of_nonneg_right hk.2 hR
  · rw [e2, e2]
    apply mul_le_mul_of_nonneg_right _ hR
    have h1 := hx.2.2.1 M V hM hV
    have h0 := hx.1
    unfold k_epsilon
    apply min_le_min _ le_rfl
    have hc : 0 ≤ cotd t ^ 2 := by positivity
    apply one_div_le_one_div_of_le
    · have : 0 ≤ (epsilon_x E As z l + 0.002) * cotd t ^ 2 := by positivity
      linarith
    · nlinarith

/-- **C46 (crushing, level 3), partial.** As long as the longitudinal strain is at most 0.7 per cent the resistance is
non-negative.  Missing: larger strains, for which it is negative (`C46_v_rd_max3_violated`). -/
theorem C46_v_rd_max3_partial (f bw z g E As : ℝ) (hf : 0 < f) (hb : 0 < bw) (hz : 0 < z) (hg : 0 < g) (hE : 0 < E)
    (hA : 0 < As) (l : Loads) (hx : epsilon_x E As z l ≤ 0.007) (a : ℝ) (a0 : 0 < a) (a1 : a ≤ 90) :
    0 ≤ v_rd_max_approx3 f bw z E As l a g := by
  have h0 := (C46_epsilon_x E As z hE hA hz l).1
  exact (C46_v_rd_max2 f bw z g E As hf hb hz hg hE hA l _ a (by unfold theta_min; linarith)
    (by unfold theta_min; linarith) a0 a1).1

/-- **C46 (crushing, level 3), violated.** Whenever the longitudinal strain is between 0.7 and 1.6 per cent (nothing
limits it) the level 3 crushing resistance with vertical stirrups is negative. -/
theorem C46_v_rd_max3_violated (f bw z g E As : ℝ) (hf : 0 < f) (hb : 0 < bw) (hz : 0 < z) (hg : 0 < g) (l : Loads)
    (h1 : 0.007 < epsilon_x E As z l) (h2 : epsilon_x E As z l < 0.016) : v_rd_max_approx3 f bw z E As l 90 g < 0 := by
  have t0 : 90 < theta_min (epsilon_x E As z l) := by unfold theta_min; linarith
  have t1 : theta_min (epsilon_x E As z l) < 180 := by unfold theta_min; linarith
  have hs := sin_pos (by linarith) t1
  have hc : Real.cos (rad (theta_min (epsilon_x E As z l))) < 0 :=
    Real.cos_neg_of_pi_div_two_lt_of_lt (rad_gt_half t0) (by have := rad_lt_pi t1; have := Real.pi_pos; linarith)
  have hk := (k_epsilon_bounds (epsilon_x E As z l) (theta_min (epsilon_x E As z l)) (by linarith)).1
  have he := (C46_eta_fc f hf).1
  unfold v_rd_max_approx3 v_rd_max_approx2
  rw [strut_90 _ (by linarith) t1]
  apply mul_neg_of_pos_of_neg (by positivity)
  exact mul_neg_of_pos_of_neg hs hc

/-- A section, with 900 kNm on a single bar of 800 mm², in the range of `C46_v_rd_max3_violated`. -/
example : 0.007 < epsilon_x 200000 800 400 ⟨900e6, 100e3, 0, 0⟩ ∧ epsilon_x 200000 800 400 ⟨900e6, 100e3, 0, 0⟩ < 0.016 := by
  unfold epsilon_x
  norm_num [abs_of_pos]

/-! ### Concrete without shear reinforcement -/

/-- **C46 (concrete contribution, level 1).** Non-negative, increasing with the strength up to 64 MPa and constant
beyond. -/
theorem C46_v_rdc1 (f z bw g : ℝ) (hf : 0 ≤ f) (hz : 0 ≤ z) (hb : 0 ≤ bw) (hg : 0 < g) :
    0 ≤ v_rdc_approx1 f z bw g ∧ (∀ f', f ≤ f' → v_rdc_approx1 f z bw g ≤ v_rdc_approx1 f' z bw g) ∧
    (64 ≤ f → v_rdc_approx1 f z bw g = v_rdc_approx1 64 z bw g) := by
  have h64 : ∀ x : ℝ, 64 ≤ x → min (x ^ (0.5 : ℝ)) 8 = 8 := fun x hx => by
    apply min_eq_right
    have h1 : (64 : ℝ) ^ (0.5 : ℝ) = 8 := by
      rw [show (64 : ℝ) = 8 ^ (2 : ℝ) by norm_num, ← Real.rpow_mul (by norm_num)]; norm_num
    rw [← h1]; exact Real.rpow_le_rpow (by norm_num) hx (by norm_num)
  have hm : 0 ≤ min (f ^ (0.5 : ℝ)) 8 := le_min (Real.rpow_nonneg hf _) (by norm_num)
  refine ⟨by unfold v_rdc_approx1; positivity, fun f' hff => ?_, fun h => ?_⟩
  · unfold v_rdc_approx1
    apply div_le_div_of_nonneg_right _ hg.le
    apply mul_le_mul_of_nonneg_right _ hb
    apply mul_le_mul_of_nonneg_right _ hz
    apply mul_le_mul_of_nonneg_left _ (by positivity)
    exact min_le_min (Real.rpow_le_rpow hf hff (by norm_num)) le_rfl
  · unfold v_rdc_approx1; rw [h64 f h, h64 64 le_rfl]

theorem kDg_pos (f d : ℝ) : 0.75 ≤ kDgShear f d := le_max_right _ _

/-- **C46 (concrete contribution, level 2).** Non-negative, never increasing with the magnitudes of moment and shear,
at most the value without loads; above 70 MPa the aggregate size is irrelevant. -/
theorem C46_v_rdc2 (f z bw d g E As : ℝ) (hf : 0 ≤ f) (hz : 0 < z) (hb : 0 ≤ bw) (hg : 0 < g) (hE : 0 < E) (hA : 0 < As)
    (l : Loads) : 0 ≤ v_rdc_approx2 f z bw d E As l g ∧
    (∀ M V, |l.Med| ≤ |M| → |l.Ved| ≤ |V| →
      v_rdc_approx2 f z bw d E As { l with Med := M, Ved := V } g ≤ v_rdc_approx2 f z bw d E As l g) ∧
    (70 < f → ∀ d', v_rdc_approx2 f z bw d' E As l g = v_rdc_approx2 f z bw d E As l g) ∧
    (f ≤ 70 → 0 ≤ d → ∀ d', d ≤ d' → v_rdc_approx2 f z bw d E As l g ≤ v_rdc_approx2 f z bw d' E As l g) := by
  have hm : 0 ≤ min (f ^ (0.5 : ℝ)) 8 := le_min (Real.rpow_nonneg hf _) (by norm_num)
  have hx := C46_epsilon_x E As z hE hA hz l
  have hk : ∀ d, 0 < kDgShear f d := fun d => by have := kDg_pos f d; linarith
  have h0 := hx.1
  refine ⟨by unfold v_rdc_approx2; have := hk d; positivity, fun M V hM hV => ?_, fun h d' => ?_, fun h hd d' hd' => ?_⟩
  · have h1 := hx.2.2.1 M V hM hV
    unfold v_rdc_approx2
    apply div_le_div_of_nonneg_right _ hg.le
    apply mul_le_mul_of_nonneg_right _ hb
    apply mul_le_mul_of_nonneg_right _ hz.le
    apply mul_le_mul_of_nonneg_right _ hm
    apply mul_le_mul_of_nonneg_right _ (by have := hk d; positivity)
    apply div_le_div_of_nonneg_left (by norm_num) (by positivity)
    linarith
  · unfold v_rdc_approx2 kDgShear; simp [h]
  · unfold v_rdc_approx2
    apply div_le_div_of_nonneg_right _ hg.le
    apply mul_le_mul_of_nonneg_right _ hb
    apply mul_le_mul_of_nonneg_right _ hz.le
    apply mul_le_mul_of_nonneg_right _ hm
    apply mul_le_mul_of_nonneg_left _ (by positivity)
    have h1 : kDgShear f d' ≤ kDgShear f d := by
      unfold kDgShear
      simp only [gt_iff_lt, not_lt.2 h, if_false]
      apply max_le_max _ le_rfl
      exact div_le_div_of_nonneg_left (by norm_num) (by linarith) (by linarith)
    apply div_le_div_of_nonneg_left (by norm_num) (by have := hk d'; positivity)
    nlinarith

/-- **C46 (concrete contribution, level 3), partial.** Never negative; 0 once the shear force reaches a positive
crushing resistance; below the level 2 bound `0.4 / (1 + 1500 ε)` for a non-negative shear force.  Missing: the same for
negative shear forces (`C46_v_rdc3_violated`). -/
theorem C46_v_rdc3_partial (f z bw g e V m : ℝ) (hf : 0 ≤ f) (hz : 0 ≤ z) (hb : 0 ≤ bw) (hg : 0 < g) (he : 0 ≤ e) :
    0 ≤ vrdc3 f z bw g e V m ∧ (0 < m → m ≤ V → vrdc3 f z bw g e V m = 0) ∧
    (0 < m → 0 ≤ V → vrdc3 f z bw g e V m ≤ 0.4 / (1 + 1500 * e) * min (f ^ (0.5 : ℝ)) 8 * z * bw / g) := by
  have hm : 0 ≤ min (f ^ (0.5 : ℝ)) 8 := le_min (Real.rpow_nonneg hf _) (by norm_num)
  have hk : 0 < 0.4 / (1 + 1500 * e) := by positivity
  refine ⟨?_, fun h1 h2 => ?_, fun h1 h2 => ?_⟩
  · unfold vrdc3
    have : 0 ≤ max (0.4 / (1 + 1500 * e) * (1 - V / m)) 0 := le_max_right _ _
    positivity
  · have : 1 ≤ V / m := (one_le_div h1).2 h2
    unfold vrdc3
    rw [max_eq_right (mul_nonpos_of_nonneg_of_nonpos hk.le (by linarith))]
    simp
  · unfold vrdc3
    apply div_le_div_of_nonneg_right _ hg.le
    apply mul_le_mul_of_nonneg_right _ hb
    apply mul_le_mul_of_nonneg_right _ hz
    apply mul_le_mul_of_nonneg_right _ hm
    apply max_le _ hk.le
    have : 0 ≤ V / m := by positivity
    nlinarith

/-- **C46 (concrete contribution, level 3), violated.** The sign of the shear force matters: a shear force of
magnitude `V` below the crushing resistance gives a strictly larger resistance when it is entered as negative. -/
theorem C46_v_rdc3_violated (f z bw g e V m : ℝ) (hf : 0 < f) (hz : 0 < z) (hb : 0 < bw) (hg : 0 < g) (he : 0 ≤ e)
    (hV : 0 < V) (hm : 0 < m) : vrdc3 f z bw g e V m < vrdc3 f z bw g e (-V) m := by
  have hs : 0 < min (f ^ (0.5 : ℝ)) 8 := lt_min (Real.rpow_pos_of_pos hf _) (by norm_num)
  have hk : 0 < 0.4 / (1 + 1500 * e) := by positivity
  have hq : 0 < V / m := by positivity
  have h1 : max (0.4 / (1 + 1500 * e) * (1 - V / m)) 0 < max (0.4 / (1 + 1500 * e) * (1 - -V / m)) 0 := by
    have e : (1 : ℝ) - -V / m = 1 + V / m := by ring
    rw [e]
    apply lt_max_of_lt_left
    apply max_lt
    · apply mul_lt_mul_of_pos_left _ hk; linarith
    · positivity
  unfold vrdc3
  apply div_lt_div_of_pos_right _ hg
  apply mul_lt_mul_of_pos_right _ hb
  apply mul_lt_mul_of_pos_right _ hz
  exact mul_lt_mul_of_pos_right h1 hs

/-! ### Stirrups -/

/-- **C46 (stirrups).** With vertical stirrups, the truss formula `asw / sw · z · fywd · cot θ`; non-negative for angles in
`(0°, 90°]` and never increasing with the angle; proportional to the reinforcement. -/
theorem C46_v_rds (asw sw z f g t : ℝ) (ha : 0 ≤ asw) (hs : 0 < sw) (hz : 0 ≤ z) (hf : 0 ≤ f) (hg : 0 < g) (t0 : 0 < t)
    (t1 : t ≤ 90) :
    v_rds asw sw z f t 90 g = asw / sw * z * (f / g) * cotd t ∧ 0 ≤ v_rds asw sw z f t 90 g ∧
    (∀ u, t ≤ u → u ≤ 90 → v_rds asw sw z f u 90 g ≤ v_rds asw sw z f t 90 g) ∧
    (∀ k a, v_rds (k * asw) sw z f t a g = k * v_rds asw sw z f t a g) ∧
    (∀ a, 0 < a → a ≤ 90 → 0 ≤ v_rds asw sw z f t a g) := by
  have e : ∀ t, v_rds asw sw z f t 90 g = asw / sw * z * (f / g) * cotd t := fun t => by
    unfold v_rds; rw [cotd_90, sin_90]; ring
  have hk : 0 ≤ asw / sw * z * (f / g) := by positivity
  refine ⟨e t, ?_, fun u htu hu => ?_, fun k a => by unfold v_rds; ring, fun a a0 a1 => ?_⟩
  · rw [e]; exact mul_nonneg hk (cotd_nonneg t0 t1)
  · rw [e, e]; exact mul_le_mul_of_nonneg_left (cotd_anti t0 htu (by linarith)) hk
  · have := cotd_nonneg t0 t1
    have := cotd_nonneg a0 a1
    have := (sin_pos a0 (by linarith)).le
    unfold v_rds; positivity

/-! ### Dispatch and the combined resistance -/

theorem v_rd12_ok {lvl : ℤ} {f z bw E As : ℝ} {l : Loads} {asw sw fy t a gc r : ℝ}
    (h : v_rd12 lvl f z bw E As l asw sw fy t a gc = .ok r) :
    ∃ m, v_rd_max lvl f bw t z E As l a gc = .ok m ∧ r = min (v_rds asw sw z fy t a) m := by
  simp only [v_rd12, except_bind_ok, except_pure_ok] at h
  obtain ⟨m, h1, h2⟩ := h
  exact ⟨m, h1, h2.symm⟩

theorem v_rd_max_levels (f bw t z E As : ℝ) (l : Loads) (a gc : ℝ) (lvl : ℤ) :
    ((∃ m, v_rd_max lvl f bw t z E As l a gc = .ok m) ↔ lvl = 1 ∨ lvl = 2 ∨ lvl = 3) ∧
    (∀ e, v_rd_max lvl f bw t z E As l a gc = .error e → e = .valueError) := by
  unfold v_rd_max
  split_ifs with h1 h2 h3
  · exact ⟨⟨fun _ => .inl h1, fun _ => ⟨_, rfl⟩⟩, fun e h => by simp at h⟩
  · exact ⟨⟨fun _ => .inr (.inl h2), fun _ => ⟨_, rfl⟩⟩, fun e h => by simp at h⟩
  · exact ⟨⟨fun _ => .inr (.inr h3), fun _ => ⟨_, rfl⟩⟩, fun e h => by simp at h⟩
  · exact ⟨⟨fun ⟨m, h⟩ => by simp at h, fun h => by rcases h with h | h | h <;> contradiction⟩, fun e h => by simpa using h.symm⟩

/-- **C46 (shear dispatch).** Crushing resistance, concrete contribution and total resistance return a value exactly
for the levels 1, 2 and 3, and otherwise a `ValueError` — with or without shear reinforcement, all arguments given. -/
theorem C46_dispatch (f z bw dg E As : ℝ) (l : Loads) (asw sw fy t a gc gs : ℝ) (lvl : ℤ) (w : Bool) :
    ((∃ m, v_rd_max lvl f bw t z E As l a gc = .ok m) ↔ lvl ∈ ({1, 2, 3} : Set ℤ)) ∧
    ((∃ m, v_rdc lvl f z bw dg E As l a gc = .ok m) ↔ lvl ∈ ({1, 2, 3} : Set ℤ)) ∧
    ((∃ m, v_rd lvl w f z bw dg E As l (some asw) (some sw) (some fy) (some t) a gc gs = .ok m) ↔ lvl ∈ ({1, 2, 3} : Set ℤ)) ∧
    (∀ e, v_rd lvl w f z bw dg E As l (some asw) (some sw) (some fy) (some t) a gc gs = .error e → e = .valueError) := by
  simp only [Set.mem_insert_iff, Set.mem_singleton_iff]
  by_cases h1 : lvl = 1
  · subst h1
    cases w <;> simp [v_rd_max, v_rdc, v_rd, v_rd_with, v_rd12, bind, Except.bind, pure, Except.pure]
  by_cases h2 : lvl = 2
  · subst h2
    cases w <;> simp [v_rd_max, v_rdc, v_rd, v_rd_with, v_rd12, bind, Except.bind, pure, Except.pure]
  by_cases h3 : lvl = 3
  · subst h3
    cases w <;> simp [v_rd_max, v_rdc, v_rd, v_rd_with, v_rd12, v_rdc_approx3, v_rd3, bind, Except.bind, pure, Except.pure]
    · split_ifs <;> simp
  · cases w <;> simp [v_rd_max, v_rdc, v_rd, v_rd_with, h1, h2, h3]

/-- **C46 (missing arguments).** With shear reinforcement and one of the documented levels, leaving out the strength,
area, spacing or angle raises a `TypeError`; without shear reinforcement they are not needed. -/
theorem C46_missing (f z bw dg E As : ℝ) (l : Loads) (asw sw fy t : Option ℝ) (a gc gs : ℝ) (lvl : ℤ)
    (hl : lvl ∈ ({1, 2, 3} : Set ℤ)) :
    (asw = none ∨ sw = none ∨ fy = none ∨ t = none → v_rd lvl true f z bw dg E As l asw sw fy t a gc gs = .error .typeError) ∧
    v_rd lvl false f z bw dg E As l asw sw fy t a gc gs = v_rdc lvl f z bw dg E As l a gc := by
  have hl' : lvl = 1 ∨ lvl = 2 ∨ lvl = 3 := by simpa using hl
  refine ⟨fun h => ?_, rfl⟩
  unfold v_rd
  cases fy with
  | none => rfl
  | some y =>
    cases asw <;> cases sw <;> cases t <;> simp_all

/-- **C46 (the resistance is limited by crushing).** With shear reinforcement the resistance never exceeds the
crushing resistance of the level asked for or, at level 3, of level 2 (to which the code falls back), and at levels 1 and 2
never the stirrups' resistance. -/
theorem C46_v_rd_le (f z bw dg E As : ℝ) (l : Loads) (asw sw fy t a gc gs : ℝ) (lvl : ℤ) (r : ℝ)
    (h : v_rd lvl true f z bw dg E As l (some asw) (some sw) (some fy) (some t) a gc gs = .ok r) :
    ∃ m, (v_rd_max lvl f bw t z E As l a gc = .ok m ∨ lvl = 3 ∧ v_rd_max 2 f bw t z E As l a gc = .ok m) ∧ r ≤ m ∧
      (lvl ≠ 3 → r ≤ v_rds asw sw z fy t a ∧ (r = m ∨ r = v_rds asw sw z fy t a)) := by
  simp only [v_rd, v_rd_with] at h
  split_ifs at h with h1 h3
  · obtain ⟨m, hm, rfl⟩ := v_rd12_ok h
    exact ⟨m, .inl hm, min_le_right _ _, fun _ => ⟨min_le_left _ _, (min_choice _ _).symm⟩⟩
  · simp only [except_bind_ok] at h
    obtain ⟨c, hc, m, hm, h⟩ := h
    unfold v_rd3 at h
    split_ifs at h with hlt
    · have : c + v_rds asw sw z (fy / gs) t a = r := by simpa using h
      exact ⟨m, .inl hm, by rw [← this]; exact hlt.le, fun hn => absurd h3 hn⟩
    · obtain ⟨m', hm', rfl⟩ := v_rd12_ok h
      exact ⟨m', .inr ⟨h3, hm'⟩, min_le_right _ _, fun hn => absurd h3 hn⟩

/-- **C46 (safety factor of steel), violated.** At levels 1 and 2 the caller's `gamma_s` has no effect. -/
theorem C46_gamma_s_violated (f z bw dg E As : ℝ) (l : Loads) (asw sw fy t : Option ℝ) (a gc gs gs' : ℝ) (lvl : ℤ)
    (hl : lvl = 1 ∨ lvl = 2) : v_rd lvl true f z bw dg E As l asw sw fy t a gc gs = v_rd lvl true f z bw dg E As l asw sw fy t a gc gs' := by
  unfold v_rd
  cases fy with
  | none => rfl
  | some y =>
    cases asw <;> cases sw <;> cases t <;> simp [v_rd_with, hl]

/-- **C46 (safety factor of steel), violated.** At level 3 the steel strength is divided twice: whenever the sum of the
contributions governs, the stirrups count with `f_ywk / gamma_s / 1.15`. -/
theorem C46_gamma_s_twice_violated (f z bw E As : ℝ) (l : Loads) (asw sw fy t a gc gs c m : ℝ)
    (h : c + v_rds asw sw z fy t a gs / 1.15 < m) :
    v_rd3 f z bw E As l asw sw fy t a gc (fy / gs) c m = .ok (c + v_rds asw sw z fy t a gs / 1.15) := by
  have e : v_rds asw sw z (fy / gs) t a = v_rds asw sw z fy t a gs / 1.15 := by unfold v_rds; ring
  unfold v_rd3
  rw [e, if_pos h]

/-! ### Hollow core slabs -/

/-- **C46 (tension failure).** Levels 1 and 2 only; at level 1 the resistance is non-negative and never decreases with
the prestress or the distance from the support. -/
theorem C46_v_rd_ct (f i s b σ lx lb S bw y yc A Ay yp p dp : ℝ) (lvl : ℤ) (hf : 0 ≤ f) (hi : 0 ≤ i) (hs : 0 < s) (hb : 0 ≤ b)
    (hσ : 0 ≤ σ) (hlx : 0 ≤ lx) (hlb : 0 < lb) :
    ((∃ r, v_rd_ct lvl f i s b σ lx lb S bw y yc A Ay yp p dp = .ok r) ↔ lvl = 1 ∨ lvl = 2) ∧
    (∀ e, v_rd_ct lvl f i s b σ lx lb S bw y yc A Ay yp p dp = .error e → e = .valueError) ∧
    0.8 * (i * b / s) * f ≤ v_rd_ct_approx1 f i s b σ lx lb ∧
    (∀ σ' lx', σ ≤ σ' → lx ≤ lx' → v_rd_ct_approx1 f i s b σ lx lb ≤ v_rd_ct_approx1 f i s b σ' lx' lb) := by
  refine ⟨?_, ?_, ?_, fun σ' lx' h1 h2 => ?_⟩
  · unfold v_rd_ct; split_ifs with h1 h2 <;> simp [h1] ; exact h2; exact h2
  · unfold v_rd_ct; split_ifs with h1 h2 <;> simp
  · unfold v_rd_ct_approx1
    apply mul_le_mul_of_nonneg_left _ (by positivity)
    calc f = (f ^ (2 : ℕ)) ^ (0.5 : ℝ) := by
          rw [← Real.rpow_natCast, ← Real.rpow_mul hf]; norm_num
      _ ≤ _ := Real.rpow_le_rpow (by positivity) (by have : 0 ≤ lx / (1.2 * lb) * σ * f := by positivity
                                                     linarith) (by norm_num)
  · unfold v_rd_ct_approx1
    apply mul_le_mul_of_nonneg_left _ (by positivity)
    apply Real.rpow_le_rpow (by positivity) _ (by norm_num)
    have hlx' : 0 ≤ lx' := hlx.trans h2
    have : lx / (1.2 * lb) * σ ≤ lx' / (1.2 * lb) * σ' :=
      mul_le_mul (div_le_div_of_nonneg_right h2 (by positivity)) h1 hσ (by positivity)
    nlinarith

/-! ### Torsion -/

/-- **C46 (torsion levels), violated.** The documented levels return a value; any other level is an
`UnboundLocalError`, not a `ValueError` as in the shear functions. -/
theorem C46_torsion_dispatch_violated (f d ak t z E As : ℝ) (l : Loads) (g : ℝ) (lvl : ℤ) :
    (lvl ∈ ({1, 2, 3} : Set ℤ) → ∃ r, t_rd_max f d ak t lvl z E As l g = .ok r) ∧
    (lvl ∉ ({1, 2, 3} : Set ℤ) → t_rd_max f d ak t lvl z E As l g = .error .unboundLocal) := by
  simp only [Set.mem_insert_iff, Set.mem_singleton_iff]
  constructor
  · rintro (rfl | rfl | rfl) <;> simp [t_rd_max, torsionK, bind, Except.bind, pure, Except.pure]
  · intro h; push Not at h
    simp [t_rd_max, torsionK, h.1, h.2.1, h.2.2, bind, Except.bind]

/-- **C46 (torsional crushing).** For strut angles in `(0°, 90°)` the resistance is positive and at most 0.65 times the
geometric bound; at level 1 it is largest at 45 degrees. -/
theorem C46_t_rd_max (f d ak t z E As g : ℝ) (l : Loads) (hf : 0 < f) (hd : 0 < d) (ha : 0 < ak) (hz : 0 < z) (hE : 0 < E)
    (hA : 0 < As) (hg : 0 < g) (t0 : 0 < t) (t1 : t < 90) (lvl : ℤ) (r : ℝ) (h : t_rd_max f d ak t lvl z E As l g = .ok r) :
    0 < r ∧ r ≤ 0.65 * f * (d / 8) * ak / g ∧
    (lvl = 1 → ∃ r', t_rd_max f d ak 45 1 z E As l g = .ok r' ∧ r ≤ r') := by
  have hx := (C46_epsilon_x E As z hE hA hz l).1
  have he := C46_eta_fc f hf
  have hs := sin_pos t0 (by linarith)
  have hc : 0 < Real.cos (rad t) := Real.cos_pos_of_mem_Ioo ⟨by have := rad_pos t0; have := Real.pi_pos; linarith, by
      unfold rad; have := Real.pi_pos; nlinarith⟩
  have hsc : Real.sin (rad t) * Real.cos (rad t) ≤ 1 / 2 := by
    have := Real.sin_sq_add_cos_sq (rad t)
    nlinarith [sq_nonneg (Real.sin (rad t) - Real.cos (rad t))]
  simp only [t_rd_max, except_bind_ok, except_pure_ok] at h
  obtain ⟨k, hk, rfl⟩ := h
  have hkb : 0 < k ∧ k ≤ 0.65 := by
    unfold torsionK at hk
    split_ifs at hk <;> simp at hk <;> subst hk
    · norm_num
    · exact k_epsilon_bounds _ _ hx
    · exact k_epsilon_bounds _ _ hx
  have hk0 := hkb.1
  have he0 := he.1
  refine ⟨by positivity, ?_, fun hl => ?_⟩
  · apply div_le_div_of_nonneg_right _ hg.le
    have e1 : eta_fc f * k * f * (d / 8) * 2 * ak * Real.sin (rad t) * Real.cos (rad t) =
      (eta_fc f * k) * (f * (d / 8) * ak) * (2 * (Real.sin (rad t) * Real.cos (rad t))) := by ring
    rw [e1]
    have h1 : eta_fc f * k ≤ 0.65 := by nlinarith [he.2.1]
    have h2 : 0 < f * (d / 8) * ak := by positivity
    calc _ ≤ (0.65 * (f * (d / 8) * ak)) * 1 := by
          apply mul_le_mul _ (by linarith) (by positivity) (by positivity)
          exact mul_le_mul_of_nonneg_right h1 h2.le
      _ = _ := by ring
  · subst hl
    have h45 : rad 45 = Real.pi / 4 := by unfold rad; ring
    have hk' : k = 0.55 := by simpa [torsionK] using hk.symm
    refine ⟨_, by simp [t_rd_max, torsionK, bind, Except.bind, pure, Except.pure]; rfl, ?_⟩
    subst hk'
    apply div_le_div_of_nonneg_right _ hg.le
    rw [h45, Real.sin_pi_div_four, Real.cos_pi_div_four]
    have h2 : Real.sqrt 2 * Real.sqrt 2 = 2 := Real.mul_self_sqrt (by norm_num)
    have hB : 0 < eta_fc f * 0.55 * f * (d / 8) * 2 * ak := by positivity
    generalize eta_fc f * 0.55 * f * (d / 8) * 2 * ak = B at *
    have : B * (Real.sqrt 2 / 2) * (Real.sqrt 2 / 2) = B * (1 / 2) := by
      have : B * (Real.sqrt 2 / 2) * (Real.sqrt 2 / 2) = B * (Real.sqrt 2 * Real.sqrt 2) / 4 := by ring
      rw [this, h2]; ring
    rw [this]
    nlinarith

/-- **C46 (torsion check).** The combined check passes exactly when `(T/TRd)² + (V/VRd)² ≤ 1`; when it passes, torsion and
shear are each within their own resistance; and at level 1, where the resistances do not depend on the loads, smaller
torsion and shear pass as well. -/
theorem C46_t_rd (T f bw t z E As d ak a g : ℝ) (l : Loads) (lvl : ℤ) (m v : ℝ)
    (hm : t_rd_max f d ak t lvl z E As l g = .ok m) (hv : v_rd_max lvl f bw t z E As l a g = .ok v) (hm0 : 0 < m) (hv0 : 0 < v) :
    (t_rd T lvl f bw t z E As l d ak a g = .ok true ↔ (T / m) ^ 2 + (l.Ved / v) ^ 2 ≤ 1) ∧
    (t_rd T lvl f bw t z E As l d ak a g = .ok true → |T| ≤ m ∧ |l.Ved| ≤ v) ∧
    (lvl = 1 → t_rd T lvl f bw t z E As l d ak a g = .ok true → ∀ T' V', |T'| ≤ |T| → |V'| ≤ |l.Ved| →
      t_rd T' lvl f bw t z E As { l with Ved := V' } d ak a g = .ok true) := by
  have key : ∀ T, t_rd T lvl f bw t z E As l d ak a g = .ok true ↔ (T / m) ^ 2 + (l.Ved / v) ^ 2 ≤ 1 := by
    intro T
    simp [t_rd, hm, hv, pyDiv_ok hm0.ne', pyDiv_ok hv0.ne', bind, Except.bind, pure, Except.pure, interaction]
  refine ⟨key T, fun h => ?_, fun hl h T' V' h1 h2 => ?_⟩
  · rw [key] at h
    have a1 := sq_nonneg (T / m)
    have a2 := sq_nonneg (l.Ved / v)
    have b1 : |T / m| ≤ 1 := by rw [← sq_le_one_iff_abs_le_one]; linarith
    have b2 : |l.Ved / v| ≤ 1 := by rw [← sq_le_one_iff_abs_le_one]; linarith
    rw [abs_div, abs_of_pos hm0, div_le_one hm0] at b1
    rw [abs_div, abs_of_pos hv0, div_le_one hv0] at b2
    exact ⟨b1, b2⟩
  · rw [key] at h
    subst hl
    have hm' : t_rd_max f d ak t 1 z E As { l with Ved := V' } g = .ok m := by
      rw [← hm]; simp [t_rd_max, torsionK]
    have hv' : v_rd_max 1 f bw t z E As { l with Ved := V' } a g = .ok v := by
      rw [← hv]; simp [v_rd_max]
    simp only [t_rd, hm', hv', pyDiv_ok hm0.ne', pyDiv_ok hv0.ne', bind, Except.bind, pure, Except.pure, interaction,
      Except.ok.injEq, decide_eq_true_eq]
    have c1 : (T' / m) ^ 2 ≤ (T / m) ^ 2 := by
      apply sq_le_sq.2; rw [abs_div, abs_div]; exact div_le_div_of_nonneg_right h1 (abs_nonneg m)
    have c2 : (V' / v) ^ 2 ≤ (l.Ved / v) ^ 2 := by
      apply sq_le_sq.2; rw [abs_div, abs_div]; exact div_le_div_of_nonneg_right h2 (abs_nonneg v)
    linarith

/-- A case in which the check passes. -/
example : (1 / (2 : ℝ)) ^ 2 + (1 / (2 : ℝ)) ^ 2 ≤ 1 := by norm_num

end SC.MC2010
