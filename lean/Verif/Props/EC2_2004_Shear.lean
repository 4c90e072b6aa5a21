import Verif.Model.EC2_2004
import Mathlib.Analysis.SpecialFunctions.Pow.Continuity
import Mathlib.Analysis.SpecialFunctions.Trigonometric.Arctan

/-! # C42: shear resistance of EC2 2004 -/

set_option autoImplicit false

namespace SC.EC2_2004

/-! ### Members without shear reinforcement -/

theorem kShear_bounds (d : ℝ) : 1 ≤ kShear d ∧ kShear d ≤ 2 :=
  ⟨le_min (by have := Real.sqrt_nonneg (200 / d); linarith) (by norm_num), min_le_right _ _⟩

/-- **C42 (size factor).** `k` lies in `[1, 2]`, is 2 up to 200 mm and never increases with the depth. -/
theorem C42_k (d d' : ℝ) (h : 0 < d) (hd : d ≤ d') :
    1 ≤ kShear d ∧ kShear d ≤ 2 ∧ kShear d' ≤ kShear d ∧ (d ≤ 200 ↔ kShear d = 2) := by
  refine ⟨(kShear_bounds d).1, (kShear_bounds d).2, ?_, ?_⟩
  · apply min_le_min_right
    have : Real.sqrt (200 / d') ≤ Real.sqrt (200 / d) :=
      Real.sqrt_le_sqrt (div_le_div_of_nonneg_left (by norm_num) h hd)
    linarith
  · have e : kShear d = 2 ↔ 1 ≤ Real.sqrt (200 / d) := by
      unfold kShear
      rw [min_eq_right_iff]
      constructor <;> intro h <;> linarith
    rw [e, Real.one_le_sqrt, le_div_iff₀ h, one_mul]

/-- **C42 (reinforcement ratio).** Never above 2 %, never below 0, the ratio itself up to 2 %. -/
theorem C42_rho (A A' bw d : ℝ) (hb : 0 < bw) (hd : 0 < d) (hA : 0 ≤ A) (hAA : A ≤ A') :
    0 ≤ rho_L A bw d ∧ rho_L A bw d ≤ 0.02 ∧ rho_L A bw d ≤ rho_L A' bw d ∧
    (A ≤ 0.02 * (bw * d) ↔ rho_L A bw d * (bw * d) = A) := by
  have h : 0 < bw * d := by positivity
  refine ⟨le_min (by positivity) (by norm_num), min_le_right _ _, min_le_min_right _ (by gcongr), ?_⟩
  unfold rho_L
  constructor
  · intro hh
    rw [min_eq_left ((div_le_iff₀ h).2 hh), div_mul_cancel₀ _ h.ne']
  · intro hh
    rw [← hh]
    exact mul_le_mul_of_nonneg_right (min_le_right _ _) h.le

/-- **C42 (VRdc).** Non-negative for every input; and for admissible input at least the minimum resistance,
non-decreasing in the strength, in the tension reinforcement and in the axial compression. -/
theorem C42_VRdc (fck fck' d A A' bw N N' Ac fcd k1 gc : ℝ) (C : Option ℝ)
    (hf : 0 ≤ fck) (hff : fck ≤ fck') (hd : 0 < d) (hA : 0 ≤ A) (hAA : A ≤ A') (hb : 0 < bw) (hN : N ≤ N')
    (hAc : 0 < Ac) (hk : 0 ≤ k1) (hg : 0 < gc) (hC : ∀ c ∈ C, 0 ≤ c) :
    0 ≤ VRdc fck d A bw N Ac fcd k1 gc C ∧
    (vmin fck d + k1 * sigma_cp N Ac fcd) * bw * d ≤ VRdc fck d A bw N Ac fcd k1 gc C ∧
    VRdc fck d A bw N Ac fcd k1 gc C ≤ VRdc fck' d A' bw N' Ac fcd k1 gc C := by
  have hCR : 0 ≤ orDefault C (0.18 / gc) := by
    unfold orDefault
    cases C with
    | none => positivity
    | some c => simp only; split_ifs
                · positivity
                · exact hC c rfl
  have hk0 : 0 ≤ kShear d := by linarith [(kShear_bounds d).1]
  have hs : sigma_cp N Ac fcd ≤ sigma_cp N' Ac fcd := min_le_min_right _ (by gcongr)
  have hr0 : 0 ≤ rho_L A bw d := le_min (by positivity) (by norm_num)
  have hr : rho_L A bw d ≤ rho_L A' bw d := min_le_min_right _ (by gcongr)
  refine ⟨le_max_right _ _, ?_, ?_⟩
  · refine le_trans ?_ (le_max_left _ _)
    gcongr
    exact le_max_right _ _
  · unfold VRdc vmin
    simp only
    apply max_le_max_right
    have hr1 : 0 ≤ rho_L A' bw d := hr0.trans hr
    gcongr

example : ∃ fck fck' d A A' bw N N' Ac k1 gc : ℝ, 0 ≤ fck ∧ fck ≤ fck' ∧ 0 < d ∧ 0 ≤ A ∧ A ≤ A' ∧ 0 < bw ∧ N ≤ N' ∧
    0 < Ac ∧ 0 ≤ k1 ∧ 0 < gc := ⟨25, 30, 450, 600, 800, 300, -100, 100, 150000, 0.15, 1.5, by norm_num, by norm_num,
      by norm_num, by norm_num, by norm_num, by norm_num, by norm_num, by norm_num, by norm_num, by norm_num⟩

/-- **C42 (default coefficient).** Without `CRdc`, or with `CRdc = 0`, the coefficient is `0.18/gamma_c`: an
explicit zero is silently replaced. -/
theorem C42_CRdc_zero_violated (fck d A bw N Ac fcd k1 gc : ℝ) :
    VRdc fck d A bw N Ac fcd k1 gc (some 0) = VRdc fck d A bw N Ac fcd k1 gc none := by
  simp [VRdc, orDefault]

/-! ### Prestress coefficient -/

/-- **C42 (alpha_cw).** For `fcd > 0`: raises exactly when the mean stress reaches `fcd`; otherwise it is 1 in
tension, rises linearly to 1.25, stays, and falls linearly to 0 (one continuous expression), so it is in `(0, 1.25]`. -/
theorem C42_alpha_cw (N A fcd : ℝ) (hf : 0 < fcd) :
    (fcd ≤ N / A ↔ alpha_cw N A fcd = .error .valueError) ∧
    (N / A < fcd → alpha_cw N A fcd = .ok (min (min (1 + max (N / A) 0 / fcd) 1.25) (2.5 * (1 - N / A / fcd)))) ∧
    (∀ r, alpha_cw N A fcd = .ok r → 0 < r ∧ r ≤ 1.25) := by
  have key : N / A < fcd →
      alpha_cw N A fcd = .ok (min (min (1 + max (N / A) 0 / fcd) 1.25) (2.5 * (1 - N / A / fcd))) := by
    intro h
    unfold alpha_cw
    generalize N / A = s at h ⊢
    have hx : s / fcd < 1 := (div_lt_one hf).2 h
    split_ifs with h1 h2 h3
    · have : s / fcd ≤ 0 := div_nonpos_of_nonpos_of_nonneg h1 hf.le
      rw [max_eq_right h1, zero_div, add_zero]; congr 1; simp only [min_def]; split_ifs <;> linarith
    · have : s / fcd ≤ 0.25 := (div_le_iff₀ hf).2 h2
      rw [max_eq_left (not_le.1 h1).le]; congr 1; simp only [min_def]; split_ifs <;> linarith
    · have h4 : s / fcd ≤ 0.5 := (div_le_iff₀ hf).2 h3
      have h5 : 0.25 ≤ s / fcd := (le_div_iff₀ hf).2 (not_le.1 h2).le
      rw [max_eq_left (not_le.1 h1).le]; congr 1; simp only [min_def]; split_ifs <;> linarith
    · have h5 : 0.5 ≤ s / fcd := (le_div_iff₀ hf).2 (not_le.1 h3).le
      rw [max_eq_left (not_le.1 h1).le]; congr 1; simp only [min_def]; split_ifs <;> linarith
  have err : fcd ≤ N / A → alpha_cw N A fcd = .error .valueError := by
    intro h
    unfold alpha_cw
    rw [if_neg (by linarith), if_neg (by linarith), if_neg (by linarith), if_neg (by linarith)]
  refine ⟨⟨err, fun h => ?_⟩, key, fun r hr => ?_⟩
  · by_contra hn
    rw [key (not_le.1 hn)] at h; cases h
  · have hlt : N / A < fcd := by
      by_contra hn
      rw [err (not_lt.1 hn)] at hr; cases hr
    rw [key hlt] at hr
    cases hr
    have hx : N / A / fcd < 1 := (div_lt_one hf).2 hlt
    have : 0 ≤ max (N / A) 0 / fcd := div_nonneg (le_max_right _ _) hf.le
    exact ⟨lt_min (lt_min (by linarith) (by norm_num)) (by linarith), (min_le_left _ _).trans (min_le_right _ _)⟩

/-! ### Strut angle -/

theorem round2_lt_one (c : ℝ) : round2 c < 1 ↔ c < 0.995 := by
  unfold round2
  rw [div_lt_one (by norm_num), round_eq]
  rw [show (100 : ℝ) = ((100 : ℤ) : ℝ) by norm_num, Int.cast_lt, Int.floor_lt]
  constructor <;> intro h <;> push_cast at * <;> linarith

theorem round2_gt (c : ℝ) : round2 c > 2.5 ↔ 2.505 ≤ c := by
  unfold round2
  rw [gt_iff_lt, lt_div_iff₀ (by norm_num), round_eq]
  rw [show (2.5 * 100 : ℝ) = ((250 : ℤ) : ℝ) by norm_num, Int.cast_lt, Int.lt_iff_add_one_le, Int.le_floor]
  constructor <;> intro h <;> push_cast at * <;> linarith

/-- **C42 (strut angle), partial.** The angle is accepted exactly when its cotangent, rounded to two decimals, is in
`[1, 2.5]`: in particular every cotangent in `[1, 2.5]` is accepted, and every one below 0.995 or from 2.505 on
raises. An angle without cotangent raises `ZeroDivisionError`. (Missing from C42: the limits are exceeded by the
rounding, see `C42_theta_violated`.) -/
theorem C42_theta_partial (th : ℝ) :
    (Real.sin (radians th) = 0 → thetaCheck th = .error .zeroDivision) ∧
    (Real.sin (radians th) ≠ 0 →
      (thetaCheck th = .ok () ↔ 0.995 ≤ Real.cot (radians th) ∧ Real.cot (radians th) < 2.505) ∧
      (thetaCheck th = .error .valueError ↔ ¬ (0.995 ≤ Real.cot (radians th) ∧ Real.cot (radians th) < 2.505))) := by
  refine ⟨fun h => by simp [thetaCheck, pyCot, h], fun h => ?_⟩
  have e : Real.cot (radians th) = Real.cos (radians th) / Real.sin (radians th) := Real.cot_eq_cos_div_sin _
  have : thetaCheck th = if Real.cot (radians th) < 0.995 ∨ 2.505 ≤ Real.cot (radians th) then .error .valueError
      else .ok () := by
    unfold thetaCheck pyCot
    rw [if_neg h, ← e]
    simp only [round2_lt_one, round2_gt]
  rw [this]
  split_ifs with hc
  · constructor
    · constructor
      · intro h; cases h
      · rintro ⟨h1, h2⟩; rcases hc with hc | hc <;> linarith
    · constructor
      · rintro - ⟨h1, h2⟩; rcases hc with hc | hc <;> linarith
      · intro _; rfl
  · push Not at hc
    simp [hc]

theorem radians_deg (x : ℝ) : radians (x * 180 / Real.pi) = x := by
  unfold radians; have := Real.pi_ne_zero; field_simp

/-- **C42 (strut angle), violated.** An angle steeper than 45 degrees, with a cotangent below the documented
minimum 1, is accepted. -/
theorem C42_theta_violated : ∃ th, Real.cot (radians th) < 1 ∧ 45 < th ∧ thetaCheck th = .ok () := by
  refine ⟨Real.arctan (1 / 0.996) * 180 / Real.pi, ?_, ?_, ?_⟩
  · rw [radians_deg, Real.cot_eq_cos_div_sin, ← inv_div, ← Real.tan_eq_sin_div_cos, Real.tan_arctan]; norm_num
  · have : Real.arctan 1 < Real.arctan (1 / 0.996) := Real.arctan_strictMono (by norm_num)
    rw [Real.arctan_one] at this
    have hp := Real.pi_pos
    rw [lt_div_iff₀ hp]; linarith
  · have hs : Real.sin (radians (Real.arctan (1 / 0.996) * 180 / Real.pi)) ≠ 0 := by
      rw [radians_deg, Real.sin_arctan]; positivity
    rw [((C42_theta_partial _).2 hs).1, radians_deg, Real.cot_eq_cos_div_sin, ← inv_div, ← Real.tan_eq_sin_div_cos,
      Real.tan_arctan]
    norm_num

/-! ### Members with shear reinforcement -/

theorem pyCot_eq_ok {x r : ℝ} : pyCot x = .ok r ↔ Real.sin x ≠ 0 ∧ Real.cot x = r := by
  unfold pyCot; rw [Real.cot_eq_cos_div_sin]; split_ifs with h <;> simp [h]

theorem VRds_ok {A s z th fyk al gs r : ℝ} : VRds A s z th fyk al gs = .ok r ↔
    gs ≠ 0 ∧ thetaCheck th = .ok () ∧ s ≠ 0 ∧ Real.sin (radians th) ≠ 0 ∧ Real.sin (radians al) ≠ 0 ∧
    A / s * z * (fyk / gs) * (Real.cot (radians th) + Real.cot (radians al)) * Real.sin (radians al) = r := by
  simp only [VRds, except_bind_ok, pyDiv_eq_ok, pyCot_eq_ok, except_pure_ok]
  constructor
  · rintro ⟨a, ⟨h1, rfl⟩, ⟨⟩, h2, b, ⟨h3, rfl⟩, c, ⟨h4, rfl⟩, d, ⟨h5, rfl⟩, rfl⟩
    exact ⟨h1, h2, h3, h4, h5, rfl⟩
  · rintro ⟨h1, h2, h3, h4, h5, rfl⟩
    exact ⟨_, ⟨h1, rfl⟩, (), h2, _, ⟨h3, rfl⟩, _, ⟨h4, rfl⟩, _, ⟨h5, rfl⟩, rfl⟩

theorem Asw_s_required_ok {V z th f al r : ℝ} : Asw_s_required V z th f al = .ok r ↔
    z ≠ 0 ∧ f ≠ 0 ∧ Real.sin (radians th) ≠ 0 ∧ Real.sin (radians al) ≠ 0 ∧
    Real.cot (radians th) + Real.cot (radians al) ≠ 0 ∧
    V / z / f / (Real.cot (radians th) + Real.cot (radians al)) / Real.sin (radians al) = r := by
  simp only [Asw_s_required, except_bind_ok, pyDiv_eq_ok, pyCot_eq_ok]
  constructor
  · rintro ⟨a, ⟨h1, rfl⟩, b, ⟨h2, rfl⟩, c, ⟨h3, rfl⟩, d, ⟨h4, rfl⟩, e, ⟨h5, rfl⟩, h6, rfl⟩
    exact ⟨h1, h2, h3, h4, h5, rfl⟩
  · rintro ⟨h1, h2, h3, h4, h5, rfl⟩
    exact ⟨_, ⟨h1, rfl⟩, _, ⟨h2, rfl⟩, _, ⟨h3, rfl⟩, _, ⟨h4, rfl⟩, _, ⟨h5, rfl⟩, h4, rfl⟩

theorem VRdmax_ok {bw z fck th N Ac fcd al : ℝ} {lim : Bool} {r : ℝ} : VRdmax bw z fck th N Ac fcd al lim = .ok r ↔
    thetaCheck th = .ok () ∧ ∃ a, alpha_cw N Ac fcd = .ok a ∧ Real.sin (radians th) ≠ 0 ∧ Real.sin (radians al) ≠ 0 ∧
    a * bw * z * (if lim then v1 fck else v fck) * fcd * (Real.cot (radians th) + Real.cot (radians al)) /
      (1 + Real.cot (radians th) ^ 2) = r := by
  simp only [VRdmax, except_bind_ok, pyCot_eq_ok, except_pure_ok]
  constructor
  · rintro ⟨⟨⟩, h1, a, h2, c, ⟨h3, rfl⟩, d, ⟨h4, rfl⟩, rfl⟩
    exact ⟨h1, a, h2, h3, h4, rfl⟩
  · rintro ⟨h1, a, h2, h3, h4, rfl⟩
    exact ⟨(), h1, a, h2, _, ⟨h3, rfl⟩, _, ⟨h4, rfl⟩, rfl⟩

theorem Asw_max_ok {fcd fck bw s f N Ac al r : ℝ} : Asw_max fcd fck bw s f N Ac al = .ok r ↔
    ∃ a, alpha_cw N Ac fcd = .ok a ∧ f * Real.sin (radians al) ≠ 0 ∧
      1 / 2 * a * v fck * fcd * bw * s / (f * Real.sin (radians al)) = r := by
  simp only [Asw_max, except_bind_ok, pyDiv_eq_ok]

theorem radians_45 : radians 45 = Real.pi / 4 := by unfold radians; ring
theorem radians_90 : radians 90 = Real.pi / 2 := by unfold radians; ring
theorem cot_45 : Real.cot (radians 45) = 1 := by
  rw [radians_45, Real.cot_eq_cos_div_sin, Real.cos_pi_div_four, Real.sin_pi_div_four, div_self (by positivity)]
theorem sin_45 : Real.sin (radians 45) ≠ 0 := by rw [radians_45, Real.sin_pi_div_four]; positivity
theorem cot_90 : Real.cot (radians 90) = 0 := by
  rw [radians_90, Real.cot_eq_cos_div_sin, Real.cos_pi_div_two, zero_div]
theorem sin_90 : Real.sin (radians 90) = 1 := by rw [radians_90, Real.sin_pi_div_two]
theorem theta_45 : thetaCheck 45 = .ok () := by
  rw [((C42_theta_partial 45).2 sin_45).1, cot_45]; norm_num

/-- **C42 (design).** The reinforcement required for a shear force gives exactly that resistance, for every force,
lever arm, strut angle within the limits and stirrup inclination. -/
theorem C42_required (V z th fyk al gs s q r : ℝ) (hq : Asw_s_required V z th (fyk / gs) al = .ok q) (hs : s ≠ 0)
    (hr : VRds (q * s) s z th fyk al gs = .ok r) : r = V := by
  rw [Asw_s_required_ok] at hq
  rw [VRds_ok] at hr
  obtain ⟨h1, h2, h3, h4, h5, rfl⟩ := hq
  obtain ⟨g1, g2, g3, g4, g5, rfl⟩ := hr
  have hf : fyk ≠ 0 := fun h => h2 (by rw [h, zero_div])
  generalize Real.cot (radians th) + Real.cot (radians al) = c at *
  generalize Real.sin (radians al) = σ at *
  field_simp

/-- The hypotheses of `C42_required` hold for a beam with `V = 100 kN`, `z = 450`, 45 degree struts and vertical stirrups. -/
example : ∃ q r, Asw_s_required 100000 450 45 (500 / 1.15) 90 = .ok q ∧ VRds (q * 200) 200 450 45 500 90 1.15 = .ok r := by
  refine ⟨_, _, Asw_s_required_ok.2 ⟨by norm_num, by norm_num, sin_45, ?_, ?_, rfl⟩,
    VRds_ok.2 ⟨by norm_num, theta_45, by norm_num, sin_45, ?_, rfl⟩⟩
  · rw [sin_90]; norm_num
  · rw [cot_45, cot_90]; norm_num
  · rw [sin_90]; norm_num

/-- **C42 (steel resistance).** Proportional to the area, and for struts from 0 to 90 degrees a flatter strut never gives
a smaller resistance. -/
theorem C42_VRds_flatter (A s z th th' fyk al gs r r' : ℝ) (hA : 0 ≤ A) (hs : 0 < s) (hz : 0 ≤ z) (hf : 0 ≤ fyk)
    (hg : 0 < gs) (hal : 0 ≤ Real.sin (radians al)) (h0 : 0 < th) (htt : th ≤ th') (h90 : th' < 180)
    (hr : VRds A s z th fyk al gs = .ok r) (hr' : VRds A s z th' fyk al gs = .ok r') : r' ≤ r := by
  rw [VRds_ok] at hr hr'
  obtain ⟨-, -, -, -, -, rfl⟩ := hr
  obtain ⟨-, -, -, -, -, rfl⟩ := hr'
  have hp := Real.pi_pos
  have a0 : 0 < radians th := by unfold radians; positivity
  have a1 : radians th ≤ radians th' := by unfold radians; gcongr
  have a2 : radians th' < Real.pi := by
    unfold radians; rw [div_lt_iff₀ (by norm_num)]; nlinarith
  have hc : Real.cot (radians th') ≤ Real.cot (radians th) := by
    have s1 := Real.sin_pos_of_pos_of_lt_pi a0 (a1.trans_lt a2)
    have s2 := Real.sin_pos_of_pos_of_lt_pi (a0.trans_le a1) a2
    rw [Real.cot_eq_cos_div_sin, Real.cot_eq_cos_div_sin, div_le_div_iff₀ s2 s1]
    have h3 : 0 ≤ Real.sin (radians th' - radians th) :=
      Real.sin_nonneg_of_nonneg_of_le_pi (by linarith) (by linarith)
    rw [Real.sin_sub] at h3
    linarith
  gcongr

/-- **C42 (crushing resistance).** For vertical stirrups the crushing resistance is largest at 45 degrees. -/
theorem C42_VRdmax_45 (bw z fck th N Ac fcd : ℝ) (lim : Bool) (r : ℝ) (hb : 0 ≤ bw) (hz : 0 ≤ z) (hf : 0 < fcd)
    (hck : fck ≤ 250) (hr : VRdmax bw z fck th N Ac fcd 90 lim = .ok r) :
    ∃ r45, VRdmax bw z fck 45 N Ac fcd 90 lim = .ok r45 ∧ r ≤ r45 ∧ 0 ≤ r := by
  rw [VRdmax_ok] at hr
  obtain ⟨h1, a, h2, h3, h4, rfl⟩ := hr
  refine ⟨_, VRdmax_ok.2 ⟨theta_45, a, h2, sin_45, h4, rfl⟩, ?_, ?_⟩ <;>
  · have ha := ((C42_alpha_cw N Ac fcd hf).2.2 a h2).1
    have hv : 0 ≤ (if lim then v1 fck else v fck) := by
      cases lim
      · simp only [v, Bool.false_eq_true, if_false]; linarith
      · simp only [v1, if_true]; split_ifs
        · norm_num
        · exact le_max_of_le_right (by norm_num)
    have hc := ((C42_theta_partial th).2 h3).1.1 h1
    rw [cot_90]
    try rw [cot_45]
    simp only [add_zero]
    have hK : 0 ≤ a * bw * z * (if lim then v1 fck else v fck) * fcd := by positivity
    generalize a * bw * z * (if lim then v1 fck else v fck) * fcd = K at hK ⊢
    generalize Real.cot (radians th) = c at *
    have hc0 : 0 ≤ c := by linarith [hc.1]
    first
    | positivity
    | rw [div_le_div_iff₀ (by positivity) (by positivity)]
      nlinarith [sq_nonneg (c - 1), mul_nonneg hK (sq_nonneg (c - 1))]

/-- **C42 (largest useful stirrups).** With the largest effective area, the steel resistance at 45 degrees equals the
crushing resistance at 45 degrees, for every inclination of the stirrups. -/
theorem C42_Asw_max (fcd fck bw s z fyk gs N Ac al A r : ℝ) (hs : s ≠ 0)
    (hA : Asw_max fcd fck bw s (fyk / gs) N Ac al = .ok A) (hr : VRds A s z 45 fyk al gs = .ok r) :
    VRdmax bw z fck 45 N Ac fcd al = .ok r := by
  rw [Asw_max_ok] at hA
  rw [VRds_ok] at hr
  obtain ⟨a, h1, h2, rfl⟩ := hA
  obtain ⟨g1, g2, g3, g4, g5, rfl⟩ := hr
  rw [VRdmax_ok]
  refine ⟨theta_45, a, h1, sin_45, g5, ?_⟩
  have hf : fyk ≠ 0 := fun h => h2 (by rw [h]; simp)
  rw [cot_45]
  simp only [Bool.false_eq_true, if_false]
  generalize Real.cot (radians al) = c at *
  generalize Real.sin (radians al) = σ at *
  field_simp
  ring

example : ∃ A r, Asw_max 20 30 300 200 (500 / 1.15) 0 150000 90 = .ok A ∧ VRds A 200 450 45 500 90 1.15 = .ok r := by
  refine ⟨_, _, Asw_max_ok.2 ⟨1, by simp [alpha_cw], ?_, rfl⟩,
    VRds_ok.2 ⟨by norm_num, theta_45, by norm_num, sin_45, ?_, rfl⟩⟩
  · rw [sin_90]; norm_num
  · rw [sin_90]; norm_num

/-- **C42 (strength factors).** `v1` is at least `v`'s documented floor 0.5, at most 0.6, and neither factor increases with
the strength. -/
theorem C42_v (f g : ℝ) (h : f ≤ g) : v g ≤ v f ∧ v1 g ≤ v1 f ∧ 0.5 ≤ v1 f ∧ v1 f ≤ 0.6 := by
  refine ⟨by unfold v; linarith, ?_, ?_, ?_⟩
  · unfold v1
    split_ifs with h1 h2 h2
    · exact le_rfl
    · exact absurd (h.trans h1) h2
    · exact max_le (by linarith) (by norm_num)
    · exact max_le_max_right _ (by linarith)
  · unfold v1; split_ifs
    · norm_num
    · exact le_max_right _ _
  · unfold v1; split_ifs
    · norm_num
    · exact max_le (by linarith) (by norm_num)

/-- **C42 (strength factor `v`).** For the strengths of the code, at most 0.6 and positive; it is the factor 0.6 of the other function
lessened in proportion to the strength, and vanishes at 250 MPa; beyond 60 MPa `v1`, which is used with reduced steel stresses, is the
larger. -/
theorem C42_v_range (f : ℝ) (h : 0 ≤ f) :
    v f ≤ 0.6 ∧ v f ≤ v1 f ∧ (0 < v f ↔ f < 250) ∧ (v f = 0.6 ↔ f = 0) ∧ (f ≤ 60 → v1 f = 0.6) ∧
    (60 ≤ f → f ≤ 80 → v1 f = 0.9 - f / 200) := by
  refine ⟨by unfold v; linarith, ?_, ?_, ?_, fun h6 => by unfold v1; simp [h6], fun h6 h8 => ?_⟩
  · unfold v v1; split_ifs with h1
    · linarith
    · refine le_max_of_le_right ?_; push Not at h1; linarith
  · unfold v; constructor <;> intro h' <;> linarith
  · unfold v; constructor <;> intro h' <;> linarith
  · unfold v1; split_ifs with h1
    · have : f = 60 := le_antisymm h1 h6
      subst this; norm_num
    · exact max_eq_left (by linarith)

example : v 30 = 0.528 := by unfold v; norm_num

/-- **C42, violated.** The strength factor `v` turns negative beyond 250 MPa, and with it the maximum shear force of an
unreinforced member: no input check. -/
theorem C42_v_violated : VEdmax_unreinf 300 450 260 20 < 0 := by unfold VEdmax_unreinf v; norm_num

/-- **C42 (principal stress).** The two optional lengths only act together, and the resistance with the reduced prestress
never exceeds the one with the full prestress. -/
theorem C42_prin_stress (Iy bw S fctd N Ac x y : ℝ) (hI : 0 ≤ Iy * bw / S) (hf : 0 ≤ fctd) (hs : 0 ≤ N / Ac) :
    VRdc_prin_stress Iy bw S fctd N Ac (some x) none = VRdc_prin_stress Iy bw S fctd N Ac none none ∧
    VRdc_prin_stress Iy bw S fctd N Ac none (some y) = VRdc_prin_stress Iy bw S fctd N Ac none none ∧
    VRdc_prin_stress Iy bw S fctd N Ac (some x) (some y) ≤ VRdc_prin_stress Iy bw S fctd N Ac none none ∧
    (0 < y → y ≤ x → VRdc_prin_stress Iy bw S fctd N Ac (some x) (some y) = VRdc_prin_stress Iy bw S fctd N Ac none none) := by
  refine ⟨rfl, rfl, ?_, fun hy hxy => ?_⟩
  · unfold VRdc_prin_stress
    simp only
    apply mul_le_mul_of_nonneg_left _ hI
    apply Real.sqrt_le_sqrt
    have : alpha_l x y ≤ 1 := min_le_right _ _
    gcongr
  · unfold VRdc_prin_stress alpha_l
    simp only
    rw [min_eq_right ((one_le_div hy).2 hxy)]

end SC.EC2_2004
