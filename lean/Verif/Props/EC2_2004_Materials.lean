import Verif.Model.EC2_2004
import Mathlib.Analysis.Complex.ExponentialBounds
import Mathlib.Analysis.SpecialFunctions.Pow.Continuity

/-! # C40: concrete properties of EC2 2004 -/

set_option autoImplicit false

namespace SC.EC2_2004

/-! ### Sign of the input -/

/-- **C40 (sign).** No function of the strength depends on its sign. -/
theorem C40_sign (f : ℝ) : fcm (-f) = fcm f ∧ fctm (-f) = fctm f ∧ Ecm (-f) = Ecm f ∧ eps_c1 (-f) = eps_c1 f ∧
    eps_cu1 (-f) = eps_cu1 f ∧ eps_c2 (-f) = eps_c2 f ∧ eps_cu2 (-f) = eps_cu2 f ∧
    n_parabolic_rectangular (-f) = n_parabolic_rectangular f ∧ eps_c3 (-f) = eps_c3 f ∧ eps_cu3 (-f) = eps_cu3 f ∧
    (∀ a g, fcd (-f) a g = fcd f a g) ∧ fctk_5 (-f) = fctk_5 f ∧ fctk_95 (-f) = fctk_95 f := by
  simp [fcm, fctm, Ecm, eps_c1, eps_cu1, eps_c2, eps_cu2, n_parabolic_rectangular, eps_c3, eps_cu3, fcd, fctk_5, fctk_95]

/-! ### Ordering and positivity -/

theorem fcm_eq (f d : ℝ) : fcm f d = |f| + |d| := by simp [fcm, MC2010.fcm]

theorem fctm_pos (f : ℝ) (hf : f ≠ 0) : 0 < fctm f := by
  have h : 0 < |f| := abs_pos.2 hf
  simp only [fctm, MC2010.fctm, abs_abs]
  split_ifs
  · have := Real.rpow_pos_of_pos h ((2 : ℝ) / 3); positivity
  · have : 0 < Real.log (1 + 0.1 * MC2010.fcm |f|) := by
      apply Real.log_pos
      have : 0 < MC2010.fcm |f| := by simp only [MC2010.fcm, abs_abs]; positivity
      linarith
    positivity

/-- **C40 (ordering of strengths).** For every strength other than 0 and every margin other than 0:
the mean strength exceeds the characteristic one, and the tensile strengths are positive and ordered. -/
theorem C40_strengths (f d : ℝ) (hf : f ≠ 0) (hd : d ≠ 0) :
    |f| < fcm f d ∧ 0 < fctk_5 (fctm f) ∧ fctk_5 (fctm f) < fctm f ∧ fctm f < fctk_95 (fctm f) := by
  have h := fctm_pos f hf
  refine ⟨by rw [fcm_eq]; have := abs_pos.2 hd; linarith, ?_, ?_, ?_⟩ <;>
    simp only [fctk_5, fctk_95, MC2010.fctkmin, MC2010.fctkmax, abs_of_pos h] <;> linarith

/-- **C40 (design strength).** `fcd` is at most `fck` for `alpha_cc ≤ 1 ≤ gamma_c`, and it decreases with
`gamma_c`; `gamma_c = 0` raises. -/
theorem C40_fcd (f a g : ℝ) : fcd f a 0 = .error .zeroDivision ∧
    (0 < |g| → fcd f a g = .ok (|a| * |f| / |g|)) ∧
    (|a| ≤ 1 → 1 ≤ |g| → ∃ r, fcd f a g = .ok r ∧ 0 ≤ r ∧ r ≤ |f|) ∧
    (∀ g', 0 < |g| → |g| ≤ |g'| → ∃ r r', fcd f a g = .ok r ∧ fcd f a g' = .ok r' ∧ r' ≤ r) := by
  refine ⟨by simp [fcd, pyDiv], fun h => by simp [fcd, pyDiv, abs_pos.1 h], fun ha hg => ?_, fun g' hg hgg => ?_⟩
  · have h0 : |g| ≠ 0 := by linarith
    refine ⟨_, pyDiv_ok h0, by positivity, ?_⟩
    rw [div_le_iff₀ (by linarith)]
    have := abs_nonneg f
    nlinarith
  · refine ⟨_, _, pyDiv_ok hg.ne', pyDiv_ok (by linarith), ?_⟩
    apply div_le_div_of_nonneg_left (by positivity) hg hgg

theorem eps_c1_nonneg (f : ℝ) : 0 ≤ eps_c1 f := by
  unfold eps_c1
  have : 0 ≤ |f| ^ (0.31 : ℝ) := Real.rpow_nonneg (abs_nonneg f) _
  have : 0 ≤ min (0.7 * |f| ^ (0.31 : ℝ)) 2.8 := le_min (by positivity) (by norm_num)
  positivity

theorem eps_c1_le (f : ℝ) : eps_c1 f ≤ 2.8 / 1000 := by
  unfold eps_c1
  have := min_le_right (0.7 * |f| ^ (0.31 : ℝ)) 2.8
  linarith

theorem eps_cu1_ge (f : ℝ) : 2.8 / 1000 ≤ eps_cu1 f := by
  unfold eps_cu1
  split_ifs
  · norm_num
  · have : 0 ≤ ((98 - fcm |f|) / 100) ^ 4 := by positivity
    linarith

/-- **C40 (Sargin strains).** Peak strain at most the ultimate strain, for every strength and every mean
strength, both non-negative. -/
theorem C40_eps_c1_le_eps_cu1 (f m : ℝ) : 0 ≤ eps_c1 m ∧ eps_c1 m ≤ eps_cu1 f :=
  ⟨eps_c1_nonneg m, (eps_c1_le m).trans (eps_cu1_ge f)⟩

theorem eps_cu2_ge (f : ℝ) : 2.6 / 1000 ≤ eps_cu2 f := by
  unfold eps_cu2
  split_ifs
  · norm_num
  · have : 0 ≤ ((90 - |f|) / 100) ^ 4 := by positivity
    linarith

/-- **C40 (bilinear strains).** For strengths up to 90 (up to 111 in fact) the bilinear strains are
positive and ordered. -/
theorem C40_eps_c3_le_eps_cu3 (f : ℝ) (hf : |f| ≤ 90) : 0 < eps_c3 f ∧ eps_c3 f < eps_cu3 f := by
  have := eps_cu2_ge f
  have habs := abs_nonneg f
  unfold eps_c3 eps_cu3
  split_ifs with h
  · exact ⟨by norm_num, by linarith⟩
  · push Not at h
    constructor <;> nlinarith

theorem rpow_lt_of_pow {x y : ℝ} (hx : 0 ≤ x) (hy : 0 ≤ y) (p q : ℕ) (hq : 0 < q) (h : x ^ p < y ^ q) :
    x ^ ((p : ℝ) / q) < y := by
  have hq' : (q : ℝ) ≠ 0 := by exact_mod_cast hq.ne'
  have e : (x ^ ((p : ℝ) / q)) ^ q = x ^ p := by
    rw [← Real.rpow_natCast, ← Real.rpow_mul hx, div_mul_cancel₀ _ hq', Real.rpow_natCast]
  exact lt_of_pow_lt_pow_left₀ q hy (by rw [e]; exact h)

theorem lt_rpow_of_pow {x y : ℝ} (hx : 0 ≤ x) (p q : ℕ) (hq : 0 < q) (h : y ^ q < x ^ p) :
    y < x ^ ((p : ℝ) / q) := by
  have hq' : (q : ℝ) ≠ 0 := by exact_mod_cast hq.ne'
  have e : (x ^ ((p : ℝ) / q)) ^ q = x ^ p := by
    rw [← Real.rpow_natCast, ← Real.rpow_mul hx, div_mul_cancel₀ _ hq', Real.rpow_natCast]
  exact lt_of_pow_lt_pow_left₀ q (Real.rpow_nonneg hx _) (by rw [e]; exact h)

/-- **C40 (parabola-rectangle strains), partial.** For strengths up to 89: positive and ordered. -/
theorem C40_eps_c2_le_eps_cu2_partial (f : ℝ) (hf : |f| ≤ 89) : 0 < eps_c2 f ∧ eps_c2 f < eps_cu2 f := by
  have := eps_cu2_ge f
  have h39 : (39 : ℝ) ^ (0.53 : ℝ) < 7.05 := by
    have := rpow_lt_of_pow (x := 39) (y := 7.05) (by norm_num) (by norm_num) 53 100 (by norm_num) (by norm_num)
    convert this using 2; norm_num
  unfold eps_c2
  split_ifs with h
  · exact ⟨by norm_num, by linarith⟩
  · push Not at h
    have h1 : (|f| - 50) ^ (0.53 : ℝ) ≤ 39 ^ (0.53 : ℝ) :=
      Real.rpow_le_rpow (by linarith) (by linarith) (by norm_num)
    have h0 : 0 ≤ (|f| - 50) ^ (0.53 : ℝ) := Real.rpow_nonneg (by linarith) _
    constructor
    · positivity
    · linarith

/-- **C40, violated.** For C90/105, the highest class of the standard, the peak strain of the
parabola-rectangle diagram is greater than its ultimate strain (2.6005 against 2.6 per mille). -/
theorem C40_C90_violated : eps_cu2 90 < eps_c2 90 := by
  have h40 : (7.06 : ℝ) < (40 : ℝ) ^ (0.53 : ℝ) := by
    have := lt_rpow_of_pow (x := 40) (y := 7.06) (by norm_num) 53 100 (by norm_num) (by norm_num)
    convert this using 2; norm_num
  have h90 : ¬ |(90 : ℝ)| ≤ 50 := by rw [abs_of_pos (by norm_num)]; norm_num
  unfold eps_cu2 eps_c2
  rw [if_neg h90, if_neg h90, abs_of_pos (by norm_num : (0 : ℝ) < 90)]
  norm_num at h40 ⊢
  linarith

/-! ### Monotonicity -/

/-- **C40 (moduli and strains increase with strength).** `fcm`, `Ecm`, `eps_c1`, `eps_c2`, `eps_c3` are
non-decreasing over all non-negative strengths. -/
theorem C40_monotone (a b : ℝ) (h0 : 0 ≤ a) (hab : a ≤ b) :
    fcm a ≤ fcm b ∧ Ecm a ≤ Ecm b ∧ eps_c1 a ≤ eps_c1 b ∧ eps_c2 a ≤ eps_c2 b ∧ eps_c3 a ≤ eps_c3 b := by
  have hb : 0 ≤ b := h0.trans hab
  refine ⟨?_, ?_, ?_, ?_, ?_⟩
  · rw [fcm_eq, fcm_eq, abs_of_nonneg h0, abs_of_nonneg hb]; linarith
  · unfold Ecm
    rw [abs_of_nonneg h0, abs_of_nonneg hb]
    have : (a / 10) ^ (0.3 : ℝ) ≤ (b / 10) ^ (0.3 : ℝ) :=
      Real.rpow_le_rpow (by positivity) (by linarith) (by norm_num)
    linarith
  · unfold eps_c1
    rw [abs_of_nonneg h0, abs_of_nonneg hb]
    have : a ^ (0.31 : ℝ) ≤ b ^ (0.31 : ℝ) := Real.rpow_le_rpow h0 hab (by norm_num)
    have : min (0.7 * a ^ (0.31 : ℝ)) 2.8 ≤ min (0.7 * b ^ (0.31 : ℝ)) 2.8 :=
      min_le_min (by linarith) le_rfl
    linarith
  · unfold eps_c2
    rw [abs_of_nonneg h0, abs_of_nonneg hb]
    split_ifs with h1 h2 h2
    · exact le_rfl
    · have : 0 ≤ (b - 50) ^ (0.53 : ℝ) := Real.rpow_nonneg (by linarith) _
      linarith
    · exact absurd (hab.trans h2) h1
    · have : (a - 50) ^ (0.53 : ℝ) ≤ (b - 50) ^ (0.53 : ℝ) :=
        Real.rpow_le_rpow (by linarith) (by linarith) (by norm_num)
      linarith
  · unfold eps_c3
    rw [abs_of_nonneg h0, abs_of_nonneg hb]
    split_ifs with h1 h2 h2
    · exact le_rfl
    · linarith
    · exact absurd (hab.trans h2) h1
    · linarith

theorem pow4_anti {x y : ℝ} (h : 0 ≤ y) (hxy : y ≤ x) : y ^ 4 ≤ x ^ 4 := pow_le_pow_left₀ h hxy 4

/-- **C40 (ultimate strains decrease with strength).** `eps_cu1`, `eps_cu2`, `eps_cu3` and the exponent `n`
are non-increasing for strengths from 0 to 90. -/
theorem C40_antitone (a b : ℝ) (h0 : 0 ≤ a) (hab : a ≤ b) (hb90 : b ≤ 90) :
    eps_cu1 b ≤ eps_cu1 a ∧ eps_cu2 b ≤ eps_cu2 a ∧ eps_cu3 b ≤ eps_cu3 a ∧
    n_parabolic_rectangular b ≤ n_parabolic_rectangular a := by
  have hb : 0 ≤ b := h0.trans hab
  have hcu2 : eps_cu2 b ≤ eps_cu2 a := by
    unfold eps_cu2
    rw [abs_of_nonneg h0, abs_of_nonneg hb]
    split_ifs with h1 h2 h2
    · exact le_rfl
    · exact absurd (hab.trans h1) h2
    · push Not at h1
      have := pow4_anti (x := (0.4 : ℝ)) (y := (90 - b) / 100) (by linarith) (by linarith)
      norm_num at this ⊢
      linarith
    · push Not at h2
      have := pow4_anti (x := (90 - a) / 100) (y := (90 - b) / 100) (by linarith) (by linarith)
      linarith
  refine ⟨?_, hcu2, hcu2, ?_⟩
  · unfold eps_cu1
    rw [abs_of_nonneg h0, abs_of_nonneg hb, fcm_eq, fcm_eq, abs_of_nonneg h0, abs_of_nonneg hb,
      abs_of_pos (by norm_num : (0 : ℝ) < 8)]
    split_ifs with h1 h2 h2
    · exact le_rfl
    · exact absurd (lt_of_le_of_lt hab h1) h2
    · push Not at h1
      have := pow4_anti (x := (0.4 : ℝ)) (y := (98 - (b + 8)) / 100) (by linarith) (by linarith)
      norm_num at this ⊢
      linarith
    · push Not at h2
      have := pow4_anti (x := (98 - (a + 8)) / 100) (y := (98 - (b + 8)) / 100) (by linarith) (by linarith)
      linarith
  · unfold n_parabolic_rectangular
    rw [abs_of_nonneg h0, abs_of_nonneg hb]
    split_ifs with h1 h2 h2
    · exact le_rfl
    · exact absurd (hab.trans h1) h2
    · push Not at h1
      have := pow4_anti (x := (0.4 : ℝ)) (y := (90 - b) / 100) (by linarith) (by linarith)
      norm_num at this ⊢
      linarith
    · push Not at h2
      have := pow4_anti (x := (90 - a) / 100) (y := (90 - b) / 100) (by linarith) (by linarith)
      linarith

/-- **C40 (tensile strength), partial.** Increasing up to 50 and above 50. -/
theorem C40_fctm_partial (a b : ℝ) (h0 : 0 ≤ a) (hab : a ≤ b) (h : b ≤ 50 ∨ 50 < a) : fctm a ≤ fctm b := by
  have hb : 0 ≤ b := h0.trans hab
  simp only [fctm, MC2010.fctm, abs_abs]
  rw [abs_of_nonneg h0, abs_of_nonneg hb]
  rcases h with h | h
  · rw [if_pos (hab.trans h), if_pos h]
    have : a ^ ((2 : ℝ) / 3) ≤ b ^ ((2 : ℝ) / 3) := Real.rpow_le_rpow h0 hab (by norm_num)
    linarith
  · rw [if_neg (by linarith), if_neg (by linarith)]
    simp only [MC2010.fcm, abs_of_nonneg h0, abs_of_nonneg hb, abs_of_pos (by norm_num : (0 : ℝ) < 8)]
    have : Real.log (1 + 0.1 * (a + 8)) ≤ Real.log (1 + 0.1 * (b + 8)) :=
      Real.log_le_log (by linarith) (by linarith)
    linarith

/-- **C40, violated.** The tensile strength falls when the strength rises from 50 to 50.1 (it jumps at
50, where the formula changes). -/
theorem C40_fctm_violated : fctm 50.1 < fctm 50 := by
  have h1 : (13.57 : ℝ) < (50 : ℝ) ^ ((2 : ℝ) / 3) := by
    have := lt_rpow_of_pow (x := 50) (y := 13.57) (by norm_num) 2 3 (by norm_num) (by norm_num)
    convert this using 2
    norm_num
  have h2 : Real.log 6.81 < 1.92 := by
    rw [Real.log_lt_iff_lt_exp (by norm_num)]
    have h3 : (1.6158 : ℝ) < Real.exp 0.48 := by
      have := Real.sum_le_exp_of_nonneg (x := 0.48) (by norm_num) 5
      simp [Finset.sum_range_succ, Nat.factorial] at this
      norm_num at this ⊢
      linarith
    have h4 : Real.exp 1.92 = Real.exp 0.48 ^ 4 := by
      rw [← Real.exp_nat_mul]; norm_num
    rw [h4]
    calc (6.81 : ℝ) < 1.6158 ^ 4 := by norm_num
      _ ≤ _ := pow_le_pow_left₀ (by norm_num) h3.le 4
  simp only [fctm, MC2010.fctm, abs_abs, MC2010.fcm]
  rw [abs_of_pos (by norm_num : (0 : ℝ) < 50.1), abs_of_pos (by norm_num : (0 : ℝ) < 50),
    abs_of_pos (by norm_num : (0 : ℝ) < 8), if_neg (by norm_num), if_pos (by norm_num)]
  rw [show (1 + 0.1 * (50.1 + 8) : ℝ) = 6.81 by norm_num]
  linarith

/-! ### Continuity at 50 -/

/-- **C40 (no jump), partial.** `eps_c2` and `eps_c3` are continuous in the strength everywhere. -/
theorem C40_continuous_partial : Continuous eps_c2 ∧ Continuous eps_c3 := by
  constructor
  · unfold eps_c2
    apply Continuous.if_le continuous_const _ continuous_abs continuous_const
    · intro x hx; rw [hx]; simp
      right; exact Real.zero_rpow (by norm_num)
    · apply Continuous.div_const
      apply Continuous.add continuous_const
      apply Continuous.mul continuous_const
      exact (continuous_abs.sub continuous_const).rpow_const fun x => Or.inr (by norm_num)
  · unfold eps_c3
    apply Continuous.if_le continuous_const _ continuous_abs continuous_const
    · intro x hx; rw [hx]; simp
    · fun_prop

/-- **C40, violated (jumps at 50).** Immediately above 50, `eps_cu2` and `n` are below 3.4961 per mille
and 1.9991, against 3.5 per mille and 2 at 50; `eps_cu1` is 3.5 per mille below 50 and 3.4912 at 50. -/
theorem C40_jump_violated (f : ℝ) (h : 50 < f) (h90 : f ≤ 90) :
    eps_cu2 f < 3.4961 / 1000 ∧ eps_cu2 50 = 3.5 / 1000 ∧
    n_parabolic_rectangular f < 1.9991 ∧ n_parabolic_rectangular 50 = 2 ∧
    eps_cu1 50 = 3.4912 / 1000 ∧ ∀ g, 0 ≤ g → g < 50 → eps_cu1 g = 3.5 / 1000 := by
  have h4 := pow4_anti (x := (0.4 : ℝ)) (y := (90 - f) / 100) (by linarith) (by linarith)
  have hf : |f| = f := abs_of_pos (by linarith)
  have h50 : |(50 : ℝ)| = 50 := abs_of_pos (by norm_num)
  refine ⟨?_, ?_, ?_, ?_, ?_, ?_⟩
  · unfold eps_cu2; rw [hf, if_neg (by linarith)]; norm_num at h4 ⊢; linarith
  · unfold eps_cu2; rw [h50, if_pos le_rfl]
  · unfold n_parabolic_rectangular; rw [hf, if_neg (by linarith)]; norm_num at h4 ⊢; linarith
  · unfold n_parabolic_rectangular; rw [h50, if_pos le_rfl]
  · unfold eps_cu1; rw [h50, if_neg (by norm_num), fcm_eq, h50, abs_of_pos (by norm_num : (0 : ℝ) < 8)]; norm_num
  · intro g hg hg50; unfold eps_cu1; rw [abs_of_nonneg hg, if_pos hg50]

/-! ### Development in time -/

/-- **C40 (strength development).** For `s ≥ 0` and positive ages: the factor is 1 at 28 days,
non-decreasing, and below `exp s` at every age. -/
theorem C40_beta_cc (s : ℝ) (hs : 0 ≤ s) : beta_cc 28 s = 1 ∧
    (∀ t u, 0 < t → t ≤ u → beta_cc t s ≤ beta_cc u s) ∧ (∀ t, 0 < t → 0 < beta_cc t s ∧ beta_cc t s ≤ Real.exp s) := by
  refine ⟨by simp [beta_cc], fun t u ht htu => ?_, fun t ht => ⟨Real.exp_pos _, ?_⟩⟩
  · unfold beta_cc
    apply Real.exp_le_exp.2
    apply mul_le_mul_of_nonneg_left _ hs
    have : Real.sqrt (28 / u) ≤ Real.sqrt (28 / t) :=
      Real.sqrt_le_sqrt (div_le_div_of_nonneg_left (by norm_num) ht htu)
    linarith
  · unfold beta_cc
    apply Real.exp_le_exp.2
    have := Real.sqrt_nonneg (28 / t)
    nlinarith

/-- **C40 (scalar and array ages agree).** -/
theorem C40_beta_ct_array {ι : Type*} (t : ι → ℝ) (s : ℝ) (i : ι) : beta_ct_arr t s i = beta_ct (t i) s := by
  unfold beta_ct_arr beta_ct maskSet
  by_cases h : t i < 28
  · simp [h]
  · simp [h, not_lt.1 h]

/-- **C40 (tensile factor).** It is the strength factor up to 28 days, 1 at 28 days, and lies between 1 and
the strength factor after. -/
theorem C40_beta_ct (s : ℝ) (hs : 0 ≤ s) (t : ℝ) : (t < 28 → beta_ct t s = beta_cc t s) ∧ beta_ct 28 s = 1 ∧
    (28 ≤ t → 1 ≤ beta_ct t s ∧ beta_ct t s ≤ beta_cc t s) := by
  obtain ⟨h28, hmono, -⟩ := C40_beta_cc s hs
  refine ⟨fun h => by simp [beta_ct, h], by simp [beta_ct, h28], fun h => ?_⟩
  have h1 : 1 ≤ beta_cc t s := by rw [← h28]; exact hmono 28 t (by norm_num) h
  simp only [beta_ct, if_neg (not_lt.2 h)]
  exact ⟨Real.one_le_rpow h1 (by norm_num), by
    calc beta_cc t s ^ ((2 : ℝ) / 3) ≤ beta_cc t s ^ (1 : ℝ) := Real.rpow_le_rpow_of_exponent_le h1 (by norm_num)
      _ = _ := Real.rpow_one _⟩

/-- **C40 (modulus).** The modulus from the strength at an age is the modulus times the factor of that
age. -/
theorem C40_Ecm_time (t s m E : ℝ) (hm : m ≠ 0) : Ecm_time m (fcm_time m (beta_cc t s)) E = beta_E t s * E := by
  simp only [Ecm_time, fcm_time, beta_E]
  rw [mul_div_cancel_left₀ _ hm]

/-- **C40 (cement classes).** Exactly the strings that are `s`, `n`, `r` up to case and surrounding
blanks are accepted. -/
theorem C40_cement (c : List Char) : (∃ s, s_time_development (some c) = .ok s ∧ 0.2 ≤ s ∧ s ≤ 0.38) ↔
    pyStrip (pyUpper c) ∈ [['R'], ['N'], ['S']] := by
  unfold s_time_development
  simp only
  constructor
  · rintro ⟨s, h, -⟩
    by_contra hc
    simp only [List.mem_cons, List.not_mem_nil, or_false, not_or] at hc
    have : sDict (pyStrip (pyUpper c)) = none := by
      unfold sDict
      split <;> simp_all
    rw [this] at h; simp at h
  · intro h
    simp only [List.mem_cons, List.not_mem_nil, or_false] at h
    rcases h with h | h | h <;> rw [h] <;> refine ⟨_, rfl, ?_, ?_⟩ <;> norm_num

theorem C40_cement_none : s_time_development none = .error .valueError := rfl

example : pyStrip (pyUpper [' ', 'n', ' ']) ∈ [['R'], ['N'], ['S']] := by decide

/-! ### Reinforcement -/

/-- **C40 (steel).** `fyd` is at most `fyk`, `epsud` at most `epsuk`; negative strengths and strains, and
partial factors on the wrong side of 1, raise. -/
theorem C40_steel (fyk gs euk ge : ℝ) :
    (fyk < 0 ∨ gs < 1 → fyd fyk gs = .error .valueError) ∧
    (0 ≤ fyk → 1 ≤ gs → ∃ r, fyd fyk gs = .ok r ∧ r * gs = fyk ∧ 0 ≤ r ∧ r ≤ fyk) ∧
    (euk < 0 ∨ 1 < ge → epsud euk ge = .error .valueError) ∧
    (0 ≤ euk → ge ≤ 1 → ∃ r, epsud euk ge = .ok r ∧ r ≤ euk) := by
  refine ⟨fun h => ?_, fun h1 h2 => ?_, fun h => ?_, fun h1 h2 => ?_⟩
  · unfold fyd; by_cases h1 : fyk < 0
    · simp [h1]
    · simp [h1, h.resolve_left h1]
  · refine ⟨fyk / gs, by simp [fyd, not_lt.2 h1, not_lt.2 h2], by field_simp, by positivity, ?_⟩
    exact div_le_self h1 h2
  · unfold epsud; by_cases h1 : euk < 0
    · simp [h1]
    · simp [h1, h.resolve_left h1]
  · exact ⟨euk * ge, by simp [epsud, not_lt.2 h1, not_lt.2 h2], by nlinarith⟩

/-- **C40, violated.** A negative `gamma_eps` is accepted and gives a negative ultimate strain. -/
theorem C40_epsud_violated : epsud 0.05 (-1) = .ok (0.05 * (-1)) := by
  unfold epsud; rw [if_neg (by norm_num), if_neg (by norm_num)]

end SC.EC2_2004
