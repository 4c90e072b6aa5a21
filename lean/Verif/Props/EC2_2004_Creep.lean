import Verif.Model.EC2_2004
import Verif.Lemmas.InterpMono
import Mathlib.Analysis.SpecialFunctions.Pow.Continuity
import Mathlib.Analysis.SpecialFunctions.Pow.Asymptotics
import Mathlib.Analysis.SpecialFunctions.Exp

/-! # C41: creep and shrinkage of EC2 2004 -/

set_option autoImplicit false

namespace SC.EC2_2004

open Filter Topology

/-! ### `x / (x + c)` on non-negative `x` -/

theorem ratio_bounds {x c : ℝ} (hx : 0 ≤ x) (hc : 0 < c) : 0 ≤ x / (x + c) ∧ x / (x + c) < 1 :=
  ⟨by positivity, (div_lt_one (by linarith)).2 (by linarith)⟩

theorem ratio_mono {x y c : ℝ} (hx : 0 ≤ x) (hxy : x ≤ y) (hc : 0 < c) : x / (x + c) ≤ y / (y + c) := by
  rw [div_le_div_iff₀ (by linarith) (by linarith)]; nlinarith

theorem ratio_tendsto {c : ℝ} : Tendsto (fun x : ℝ => x / (x + c)) atTop (𝓝 1) := by
  have h1 : Tendsto (fun x : ℝ => 1 - c / (x + c)) atTop (𝓝 (1 - 0)) := by
    apply Tendsto.sub tendsto_const_nhds
    exact Tendsto.div_atTop tendsto_const_nhds (tendsto_atTop_add_const_right _ _ tendsto_id)
  rw [sub_zero] at h1
  apply h1.congr'
  filter_upwards [eventually_gt_atTop (-c)] with x hx
  have : x + c ≠ 0 := by linarith
  field_simp; ring

theorem age_tendsto (t0 : ℝ) : Tendsto (fun t : ℝ => max (t - t0) 0) atTop atTop :=
  tendsto_atTop_mono (fun t => le_max_left (t - t0) 0) (tendsto_atTop_add_const_right _ (-t0) tendsto_id)

/-! ### Drying shrinkage -/

/-- **C41 (drying).** For every notional size and every start of drying: the development factor is in
`[0, 1)`, is 0 up to the start of drying, never decreases with time, never increases with the size,
and approaches 1. -/
theorem C41_beta_ds (t_s h_0 : ℝ) (hh : 0 < h_0) :
    (∀ t, 0 ≤ beta_ds t t_s h_0 ∧ beta_ds t t_s h_0 < 1) ∧
    (∀ t, t ≤ t_s ↔ beta_ds t t_s h_0 = 0) ∧
    (∀ t t', t ≤ t' → beta_ds t t_s h_0 ≤ beta_ds t' t_s h_0) ∧
    (∀ t h_0', h_0 ≤ h_0' → beta_ds t t_s h_0' ≤ beta_ds t t_s h_0) ∧
    Tendsto (fun t => beta_ds t t_s h_0) atTop (𝓝 1) := by
  have hc : 0 < 0.04 * h_0 ^ ((3 : ℝ) / 2) := by have := Real.rpow_pos_of_pos hh ((3 : ℝ) / 2); positivity
  refine ⟨fun t => ratio_bounds (le_max_right _ _) hc, fun t => ⟨fun h => ?_, fun h => ?_⟩, fun t t' h => ?_,
    fun t h' hle => ?_, ?_⟩
  · simp [beta_ds, max_eq_right (by linarith : t - t_s ≤ 0)]
  · by_contra hn
    have h1 : 0 < max (t - t_s) 0 := lt_max_of_lt_left (by linarith [not_le.1 hn])
    have : 0 < beta_ds t t_s h_0 := div_pos h1 (by linarith)
    linarith
  · exact ratio_mono (le_max_right _ _) (max_le_max_right 0 (by linarith)) hc
  · apply div_le_div_of_nonneg_left (le_max_right _ _)
    · have := le_max_right (t - t_s) 0; linarith
    · have := Real.rpow_le_rpow hh.le hle (by norm_num : (0 : ℝ) ≤ 3 / 2); linarith
  · exact ratio_tendsto.comp (age_tendsto t_s)

/-- **C41 (arrays).** An array of times gives exactly the array of the scalar results. -/
theorem C41_arrays {ι : Type*} (t : ι → ℝ) (t_s h_0 t0 bH : ℝ) (i : ι) :
    beta_ds_arr t t_s h_0 i = beta_ds (t i) t_s h_0 ∧ beta_c_arr t0 t bH i = beta_c t0 (t i) bH := by
  constructor
  · simp only [beta_ds_arr, beta_ds, maskSet]
    split_ifs with h
    · rw [max_eq_right h.le]
    · rw [max_eq_left (not_lt.1 h)]
  · simp only [beta_c_arr, beta_c, maskSet]
    split_ifs with h
    · rw [max_eq_right h.le]
    · rw [max_eq_left (not_lt.1 h)]

theorem kh_falling : Falling (0.7 : ℝ) [(100, 1), (200, 0.85), (300, 0.75), (500, 0.7)] := by
  refine ⟨by norm_num, by norm_num, by norm_num, by norm_num, by norm_num, by norm_num, ?_⟩
  simp [Falling]

/-- **C41 (size factor).** `k_h` takes the values of Table 3.3 at its nodes, never increases with the
size and stays between 0.7 and 1 for every size (also outside the table). -/
theorem C41_k_h : (∀ h h', h ≤ h' → k_h h' ≤ k_h h) ∧ (∀ h, 0.7 ≤ k_h h ∧ k_h h ≤ 1) ∧
    k_h 100 = 1 ∧ k_h 200 = 0.85 ∧ k_h 300 = 0.75 ∧ k_h 500 = 0.7 ∧
    (∀ h, h ≤ 100 → k_h h = 1) ∧ (∀ h, 500 ≤ h → k_h h = 0.7) := by
  refine ⟨fun h h' hle => interp_anti _ _ _ kh_falling le_rfl hle,
    fun h => interp_fall_bounds _ _ _ kh_falling le_rfl, ?_, ?_, ?_, ?_, fun h hh => ?_, fun h hh => ?_⟩
  · simp only [k_h, interp, interpGo]; norm_num
  · simp only [k_h, interp, interpGo]; norm_num
  · simp only [k_h, interp, interpGo]; norm_num
  · simp only [k_h, interp, interpGo]; norm_num
  · simp only [k_h, interp, interpGo]
    rcases hh.lt_or_eq with h1 | h1
    · rw [if_pos h1]
    · rw [h1]; norm_num
  · simp only [k_h, interp, interpGo]
    rw [if_neg (by linarith), if_neg (by linarith), if_neg (by linarith), if_neg (by linarith)]
    split_ifs <;> rfl

/-- **C41 (humidity).** For a relative humidity in `[0, RH_0]`: `beta_RH` is in `[0, 1.55]`, zero exactly
at saturation, and decreases with the humidity. -/
theorem C41_beta_RH (R R' R0 : ℝ) (h0 : 0 ≤ R) (hRR : R ≤ R') (hR : R' ≤ R0) (hp : 0 < R0) :
    0 ≤ beta_RH R R0 ∧ beta_RH R R0 ≤ 1.55 ∧ beta_RH R' R0 ≤ beta_RH R R0 ∧ (beta_RH R R0 = 0 ↔ R = R0) := by
  have h1 : R / R0 ≤ R' / R0 := by gcongr
  have h2 : R' / R0 ≤ 1 := (div_le_one hp).2 hR
  have h3 : 0 ≤ R / R0 := by positivity
  have h4 : (R / R0) ^ 3 ≤ (R' / R0) ^ 3 := pow_le_pow_left₀ h3 h1 3
  have h5 : (R' / R0) ^ 3 ≤ 1 := pow_le_one₀ (h3.trans h1) h2
  have h6 : 0 ≤ (R / R0) ^ 3 := by positivity
  refine ⟨?_, ?_, ?_, ?_⟩
  · simp only [beta_RH]; linarith
  · simp only [beta_RH]; linarith
  · simp only [beta_RH]; linarith
  · simp only [beta_RH]
    constructor
    · intro h
      have h7 : (R / R0) ^ 3 = 1 := by linarith
      have := (pow_eq_one_iff_of_nonneg h3 (by norm_num)).1 h7
      rwa [div_eq_one_iff_eq hp.ne'] at this
    · intro h; rw [h, div_self hp.ne']; norm_num

example : (0 : ℝ) ≤ 50 ∧ (50 : ℝ) ≤ 80 ∧ (80 : ℝ) ≤ 100 ∧ (0 : ℝ) < 100 := by norm_num

/-- **C41 (autogenous).** For non-negative times `beta_as` is in `[0, 1)`, starts at 0, never decreases
and approaches 1. -/
theorem C41_beta_as : beta_as 0 = 0 ∧ (∀ t, 0 ≤ t → 0 ≤ beta_as t ∧ beta_as t < 1) ∧
    (∀ t t', 0 ≤ t → t ≤ t' → beta_as t ≤ beta_as t') ∧ Tendsto beta_as atTop (𝓝 1) := by
  have key : ∀ t t', 0 ≤ t → t ≤ t' → beta_as t ≤ beta_as t' := fun t t' h0 h => by
    have h1 := Real.rpow_le_rpow h0 h (by norm_num : (0 : ℝ) ≤ 0.5)
    have h2 : Real.exp (-0.2 * t' ^ (0.5 : ℝ)) ≤ Real.exp (-0.2 * t ^ (0.5 : ℝ)) :=
      Real.exp_le_exp.2 (by linarith)
    simp only [beta_as]; linarith
  have z : beta_as 0 = 0 := by
    simp only [beta_as]; rw [Real.zero_rpow (by norm_num)]; simp
  refine ⟨z, fun t h => ⟨?_, ?_⟩, key, ?_⟩
  · rw [← z]; exact key 0 t le_rfl h
  · simp only [beta_as]; have := Real.exp_pos (-0.2 * t ^ (0.5 : ℝ)); linarith
  · have h1 : Tendsto (fun t : ℝ => t ^ (0.5 : ℝ)) atTop atTop := tendsto_rpow_atTop (by norm_num)
    have h2 : Tendsto (fun t : ℝ => -(0.2 * t ^ (0.5 : ℝ))) atTop atBot :=
      tendsto_neg_atTop_atBot.comp (h1.const_mul_atTop (by norm_num))
    have h3 := Real.tendsto_exp_atBot.comp h2
    have h4 : Tendsto (fun t : ℝ => 1 - Real.exp (-(0.2 * t ^ (0.5 : ℝ)))) atTop (𝓝 (1 - 0)) :=
      tendsto_const_nhds.sub h3
    rw [sub_zero] at h4
    refine h4.congr fun t => ?_
    simp only [beta_as, neg_mul]

/-- The total shrinkage strain at time `t` as the functions of the module compose it. -/
noncomputable def totalShrinkage (t t_s h0 fck fcm RH a1 a2 : ℝ) : ℝ :=
  eps_cs (eps_cd (beta_ds t t_s h0) (k_h h0) (eps_cd_0 a1 a2 fcm (beta_RH RH)))
    (eps_ca (beta_as t) (eps_ca_inf fck))

/-- **C41 (total shrinkage).** For every concrete with `fck ≥ 10`, every size and every humidity in
`[0, 100]` the total shrinkage is non-negative, never decreases with time, and stays below its
composition of the two final values. -/
theorem C41_shrinkage (t t' t_s h0 fck fcm RH a1 a2 : ℝ) (ht : 0 ≤ t) (htt : t ≤ t') (hh : 0 < h0) (hf : 10 ≤ fck)
    (hR0 : 0 ≤ RH) (hR : RH ≤ 100) (ha : 0 ≤ a1) :
    0 ≤ totalShrinkage t t_s h0 fck fcm RH a1 a2 ∧
    totalShrinkage t t_s h0 fck fcm RH a1 a2 ≤ totalShrinkage t' t_s h0 fck fcm RH a1 a2 ∧
    totalShrinkage t t_s h0 fck fcm RH a1 a2 ≤ eps_cd_0 a1 a2 fcm (beta_RH RH) + eps_ca_inf fck := by
  obtain ⟨hb, -, hm, -, -⟩ := C41_beta_ds t_s h0 hh
  obtain ⟨-, hab, ham, -⟩ := C41_beta_as
  obtain ⟨-, hk, -⟩ := C41_k_h
  have hRH := (C41_beta_RH RH RH 100 hR0 le_rfl hR (by norm_num)).1
  have hcd : 0 ≤ eps_cd_0 a1 a2 fcm (beta_RH RH) := by unfold eps_cd_0; positivity
  have h1 : 0 ≤ eps_ca_inf fck := by unfold eps_ca_inf; have : 0 ≤ fck - 10 := by linarith
                                     positivity
  obtain ⟨k1, k2⟩ := hk h0
  have kk : 0 ≤ k_h h0 := by linarith
  simp only [totalShrinkage, eps_cs, eps_cd, eps_ca]
  have b1 := hb t; have b2 := hab t ht
  refine ⟨?_, ?_, ?_⟩
  · have := b1.1; have := b2.1; positivity
  · have := hm t t' htt; have := ham t t' ht htt
    gcongr
  · have : beta_ds t t_s h0 * k_h h0 ≤ 1 * 1 := mul_le_mul b1.2.le k2 kk (by norm_num)
    nlinarith [b2.2, b2.1]

example : ∃ t t' h0 fck RH a1 : ℝ, 0 ≤ t ∧ t ≤ t' ∧ 0 < h0 ∧ 10 ≤ fck ∧ 0 ≤ RH ∧ RH ≤ 100 ∧ 0 ≤ a1 :=
  ⟨28, 365, 200, 30, 60, 4, by norm_num, by norm_num, by norm_num, by norm_num, by norm_num, by norm_num, by norm_num⟩

/-! ### Creep -/

/-- **C41 (creep development).** For every `beta_H > 0` and loading age: in `[0, 1)`, zero up to loading,
never decreasing with time, never increasing with the age at loading, approaching 1. -/
theorem C41_beta_c (t0 bH : ℝ) (hb : 0 < bH) :
    (∀ t, 0 ≤ beta_c t0 t bH ∧ beta_c t0 t bH < 1) ∧ (∀ t, t ≤ t0 ↔ beta_c t0 t bH = 0) ∧
    (∀ t t', t ≤ t' → beta_c t0 t bH ≤ beta_c t0 t' bH) ∧
    (∀ t t0', t0 ≤ t0' → beta_c t0' t bH ≤ beta_c t0 t bH) ∧
    (∀ t bH', bH ≤ bH' → beta_c t0 t bH' ≤ beta_c t0 t bH) ∧
    Tendsto (fun t => beta_c t0 t bH) atTop (𝓝 1) := by
  have hx : ∀ t0 t : ℝ, 0 ≤ max (t - t0) 0 := fun t0 t => le_max_right _ _
  have hr : ∀ t0 t : ℝ, 0 ≤ max (t - t0) 0 / (bH + max (t - t0) 0) := fun t0 t => by
    have := hx t0 t; positivity
  refine ⟨fun t => ⟨Real.rpow_nonneg (hr t0 t) _, ?_⟩, fun t => ⟨fun h => ?_, fun h => ?_⟩, fun t t' h => ?_,
    fun t t0' h => ?_, fun t bH' h => ?_, ?_⟩
  · apply Real.rpow_lt_one (hr t0 t) _ (by norm_num)
    have := ratio_bounds (hx t0 t) hb
    rw [add_comm]; exact this.2
  · simp only [beta_c, max_eq_right (by linarith : t - t0 ≤ 0), zero_div]
    exact Real.zero_rpow (by norm_num)
  · by_contra hn
    have h1 : 0 < max (t - t0) 0 := lt_max_of_lt_left (by linarith [not_le.1 hn])
    have : 0 < beta_c t0 t bH := Real.rpow_pos_of_pos (by positivity) _
    linarith
  · apply Real.rpow_le_rpow (hr t0 t) _ (by norm_num)
    rw [add_comm bH, add_comm bH]
    exact ratio_mono (hx t0 t) (max_le_max_right 0 (by linarith)) hb
  · apply Real.rpow_le_rpow (hr t0' t) _ (by norm_num)
    rw [add_comm bH, add_comm bH]
    exact ratio_mono (hx t0' t) (max_le_max_right 0 (by linarith)) hb
  · have := hx t0 t
    apply Real.rpow_le_rpow (by have : 0 < bH' := by linarith
                                positivity) _ (by norm_num)
    apply div_le_div_of_nonneg_left this (by linarith) (by linarith)
  · have h1 : Tendsto (fun t => max (t - t0) 0 / (max (t - t0) 0 + bH)) atTop (𝓝 1) :=
      ratio_tendsto.comp (age_tendsto t0)
    have h2 := h1.rpow_const (p := (0.3 : ℝ)) (Or.inl one_ne_zero)
    rw [Real.one_rpow] at h2
    refine h2.congr fun t => ?_
    simp only [beta_c, add_comm bH]

/-- **C41 (strength factors).** The factors `alpha_1..3` are 1 at `fcm = 35`, and below 1 and decreasing
beyond. -/
theorem C41_alpha (f g : ℝ) (hf : 0 < f) (hfg : f ≤ g) :
    alpha_1 35 = 1 ∧ alpha_2 35 = 1 ∧ alpha_3 35 = 1 ∧
    alpha_1 g ≤ alpha_1 f ∧ alpha_2 g ≤ alpha_2 f ∧ alpha_3 g ≤ alpha_3 f ∧
    0 < alpha_1 f ∧ 0 < alpha_2 f ∧ 0 < alpha_3 f ∧
    (35 ≤ f → alpha_1 f ≤ 1 ∧ alpha_2 f ≤ 1 ∧ alpha_3 f ≤ 1) := by
  have e : (35 : ℝ) / 35 = 1 := by norm_num
  have hg : 0 < g := by linarith
  have h1 : 35 / g ≤ 35 / f := by gcongr
  have h2 : 0 < 35 / g := by positivity
  have h3 : 0 < 35 / f := by positivity
  refine ⟨by simp [alpha_1, e], by simp [alpha_2, e], by simp [alpha_3, e], ?_, ?_, ?_, ?_, ?_, ?_, fun h => ⟨?_, ?_, ?_⟩⟩
  · exact Real.rpow_le_rpow h2.le h1 (by norm_num)
  · exact Real.rpow_le_rpow h2.le h1 (by norm_num)
  · exact Real.rpow_le_rpow h2.le h1 (by norm_num)
  · exact Real.rpow_pos_of_pos h3 _
  · exact Real.rpow_pos_of_pos h3 _
  · exact Real.rpow_pos_of_pos h3 _
  all_goals
    have h4 : 35 / f ≤ 1 := (div_le_one hf).2 h
    exact Real.rpow_le_one h3.le h4 (by norm_num)

/-- The notional creep humidity factor with the strength factors of the same concrete. -/
noncomputable def phiRH (h0 fcm RH : ℝ) : ℝ := phi_RH h0 fcm RH (alpha_1 fcm) (alpha_2 fcm)
/-- The creep development coefficient with the strength factor of the same concrete. -/
noncomputable def betaH (h0 fcm RH : ℝ) : ℝ := beta_H h0 fcm RH (alpha_3 fcm)

/-- **C41 (no jump at 35).** The humidity factor and `beta_H`, with the factors of the same concrete, are
continuous in the mean strength over all positive strengths. -/
theorem C41_continuous (h0 RH : ℝ) :
    ContinuousOn (fun f => phiRH h0 f RH) (Set.Ioi 0) ∧ ContinuousOn (fun f => betaH h0 f RH) (Set.Ioi 0) := by
  have ha : ∀ p : ℝ, ContinuousOn (fun f : ℝ => ((35 : ℝ) / f) ^ p) (Set.Ioi 0) := fun p => by
    apply ContinuousOn.rpow_const
    · exact continuousOn_const.div continuousOn_id fun x hx => (Set.mem_Ioi.1 hx).ne'
    · intro x hx; left; have := Set.mem_Ioi.1 hx; positivity
  have e : (35 : ℝ) / 35 = 1 := by norm_num
  have hcl : ∀ x : ℝ, x ∈ frontier {f : ℝ | f ≤ 35} → x = 35 := fun x hx => by
    have := frontier_le_subset_eq continuous_id continuous_const hx
    exact this
  constructor
  · simp only [phiRH, phi_RH]
    apply ContinuousOn.if
    · intro x hx
      have : x = 35 := hcl x hx.2
      subst this
      simp [alpha_1, alpha_2, e]
    · fun_prop
    · apply ContinuousOn.mul
      · apply ContinuousOn.add continuousOn_const
        exact continuousOn_const.mul ((ha 0.7).mono fun x hx => hx.1)
      · exact (ha 0.2).mono fun x hx => hx.1
  · simp only [betaH, beta_H]
    apply ContinuousOn.if
    · intro x hx
      have : x = 35 := hcl x hx.2
      subst this
      simp [alpha_3, e]
    · fun_prop
    · refine continuous_min.comp_continuousOn (ContinuousOn.prodMk ?_ ?_)
      · apply ContinuousOn.add continuousOn_const
        exact continuousOn_const.mul ((ha 0.5).mono fun x hx => hx.1)
      · exact continuousOn_const.mul ((ha 0.5).mono fun x hx => hx.1)

/-- **C41 (limits of the two factors).** For humidities in `[0, 100]`: the humidity factor is positive, at most
its value without the strength factors; `beta_H` lies between 0 and 1500. -/
theorem C41_phiRH (h0 f RH : ℝ) (hh : 0 < h0) (hf : 0 < f) (hR0 : 0 ≤ RH) (hR : RH ≤ 100) :
    0 < phiRH h0 f RH ∧ phiRH h0 f RH ≤ 1 + (1 - RH / 100) / (0.1 * h0 ^ ((1 : ℝ) / 3)) ∧
    0 < betaH h0 f RH ∧ betaH h0 f RH ≤ 1500 := by
  obtain ⟨-, -, -, -, -, -, p1, p2, p3, hle⟩ := C41_alpha f f hf le_rfl
  have hx : 0 ≤ (1 - RH / 100) / (0.1 * h0 ^ ((1 : ℝ) / 3)) := by
    have := Real.rpow_pos_of_pos hh ((1 : ℝ) / 3)
    have : 0 ≤ 1 - RH / 100 := by linarith
    positivity
  have hy : 0 < 1.5 * (1 + (0.012 * RH) ^ 18) * h0 := by positivity
  simp only [phiRH, phi_RH, betaH, beta_H]
  split_ifs with h
  · refine ⟨by linarith, le_rfl, lt_min (by linarith) (by norm_num), min_le_right _ _⟩
  · obtain ⟨q1, q2, q3⟩ := hle (not_le.1 h).le
    set x := (1 - RH / 100) / (0.1 * h0 ^ ((1 : ℝ) / 3))
    refine ⟨by positivity, ?_, lt_min (by positivity) (by positivity), (min_le_right _ _).trans (by linarith)⟩
    have h1 : x * alpha_1 f ≤ x := mul_le_of_le_one_right hx q1
    have h2 : (1 + x * alpha_1 f) * alpha_2 f ≤ 1 + x * alpha_1 f := mul_le_of_le_one_right (by positivity) q2
    linarith

/-- The creep coefficient as the functions of the module compose it. -/
noncomputable def creep (t t0 h0 fcm RH : ℝ) : ℝ :=
  phi (phi_0 (phiRH h0 fcm RH) (beta_fcm fcm) (beta_t0 t0)) (beta_c t0 t (betaH h0 fcm RH))

/-- **C41 (creep coefficient).** For every concrete, size and humidity in `[0, 100]` and every positive
loading age: the creep coefficient is non-negative, zero up to loading, never decreases with time, and
concrete loaded later creeps less. -/
theorem C41_creep (t t' t0 t0' h0 fcm RH : ℝ) (hh : 0 < h0) (hf : 0 < fcm) (hR0 : 0 ≤ RH) (hR : RH ≤ 100)
    (ht0 : 0 < t0) (htt : t ≤ t') (h00 : t0 ≤ t0') :
    0 ≤ creep t t0 h0 fcm RH ∧ (t ≤ t0 → creep t t0 h0 fcm RH = 0) ∧
    creep t t0 h0 fcm RH ≤ creep t' t0 h0 fcm RH ∧ creep t t0' h0 fcm RH ≤ creep t t0 h0 fcm RH ∧
    Tendsto (fun s => creep s t0 h0 fcm RH) atTop (𝓝 (phi_0 (phiRH h0 fcm RH) (beta_fcm fcm) (beta_t0 t0))) := by
  obtain ⟨p1, -, p2, -⟩ := C41_phiRH h0 fcm RH hh hf hR0 hR
  obtain ⟨b1, b2, b3, b4, -, b6⟩ := C41_beta_c t0 (betaH h0 fcm RH) p2
  have hbf : 0 < beta_fcm fcm := by have := Real.rpow_pos_of_pos hf (0.5 : ℝ); unfold beta_fcm; positivity
  have hbt : 0 < beta_t0 t0 := by have := Real.rpow_pos_of_pos ht0 (0.20 : ℝ); unfold beta_t0; positivity
  have hbt' : beta_t0 t0' ≤ beta_t0 t0 := by
    unfold beta_t0
    have h1 := Real.rpow_pos_of_pos ht0 (0.20 : ℝ)
    have h2 := Real.rpow_le_rpow ht0.le h00 (by norm_num : (0 : ℝ) ≤ 0.20)
    apply one_div_le_one_div_of_le (by linarith) (by linarith)
  have hbc' := (C41_beta_c t0' (betaH h0 fcm RH) p2).1 t
  have hz : creep t t0 h0 fcm RH = phi_0 (phiRH h0 fcm RH) (beta_fcm fcm) (beta_t0 t0) * beta_c t0 t (betaH h0 fcm RH) := rfl
  refine ⟨?_, fun h => ?_, ?_, ?_, ?_⟩
  · have := (b1 t).1; simp only [creep, phi, phi_0]; positivity
  · rw [hz, (b2 t).1 h, mul_zero]
  · have := b3 t t' htt; simp only [creep, phi, phi_0]; gcongr
  · have h1 := b4 t t0' h00
    have h2 := hbc'.1
    simp only [creep, phi, phi_0]
    apply mul_le_mul _ h1 h2 (by positivity)
    gcongr
  · have := b6.const_mul (phi_0 (phiRH h0 fcm RH) (beta_fcm fcm) (beta_t0 t0))
    rwa [mul_one] at this

example : ∃ t t' t0 t0' h0 fcm RH : ℝ, 0 < h0 ∧ 0 < fcm ∧ 0 ≤ RH ∧ RH ≤ 100 ∧ 0 < t0 ∧ t ≤ t' ∧ t0 ≤ t0' :=
  ⟨100, 200, 28, 56, 300, 38, 60, by norm_num, by norm_num, by norm_num, by norm_num, by norm_num, by norm_num, by norm_num⟩

/-! ### Adjusted ages -/

/-- **C41 (adjusted loading age).** Never below half a day; the age itself for cement class N from half a day on;
non-decreasing in the cement exponent (slow ≤ normal ≤ rapid). -/
theorem C41_t0_adj (t0 a a' : ℝ) (ht : 0 ≤ t0) (haa : a ≤ a') :
    0.5 ≤ t0_adj t0 a ∧ (0.5 ≤ t0 → t0_adj t0 0 = t0) ∧ t0_adj t0 a ≤ t0_adj t0 a' := by
  have hb : 1 ≤ 9 / (2 + t0 ^ (1.2 : ℝ)) + 1 := by
    have := Real.rpow_nonneg ht (1.2 : ℝ)
    have : 0 ≤ 9 / (2 + t0 ^ (1.2 : ℝ)) := by positivity
    linarith
  refine ⟨le_max_right _ _, fun h => ?_, ?_⟩
  · simp only [t0_adj, Real.rpow_zero, mul_one]; exact max_eq_left h
  · apply max_le_max_right
    exact mul_le_mul_of_nonneg_left (Real.rpow_le_rpow_of_exponent_le hb haa) ht

/-- **C41 (temperature-adjusted age).** Arrays of different lengths raise; a single period gives the scalar
result; consecutive periods add up; higher temperatures never give a smaller age; at 20 degrees the age is
within 0.2 % of the time. -/
theorem C41_t_T (T T' dt : ℝ) (Ts dts Ts' dts' : List ℝ) :
    (Ts.length ≠ dts.length ↔ t_T_arr Ts dts = .error .valueError) ∧
    t_T_arr [T] [dt] = .ok (t_T T dt) ∧
    (∀ r r', t_T_arr Ts dts = .ok r → t_T_arr Ts' dts' = .ok r' → t_T_arr (Ts ++ Ts') (dts ++ dts') = .ok (r + r')) ∧
    (0 ≤ dt → -273 < T → T ≤ T' → t_T T dt ≤ t_T T' dt) ∧
    (0 ≤ dt → 0.998 * dt ≤ t_T 20 dt ∧ t_T 20 dt ≤ dt) := by
  refine ⟨?_, ?_, ?_, ?_, ?_⟩
  · unfold t_T_arr; split_ifs with h <;> simp [h]
  · simp [t_T_arr, t_T]
  · intro r r' h h'
    unfold t_T_arr at h h' ⊢
    split_ifs at h h' with h1 h2
    simp only [not_not] at h1 h2
    rw [if_neg (by simp [h1, h2])]
    simp only [Except.ok.injEq] at h h' ⊢
    rw [List.zip_append h1, List.map_append, List.sum_append, h, h']
  · intro h0 h1 h2
    simp only [t_T]
    apply mul_le_mul_of_nonneg_right _ h0
    apply Real.exp_le_exp.2
    have : 4000 / (273 + T') ≤ 4000 / (273 + T) := by
      apply div_le_div_of_nonneg_left (by norm_num) (by linarith) (by linarith)
    linarith
  · intro h0
    simp only [t_T]
    constructor
    · apply mul_le_mul_of_nonneg_right _ h0
      have := Real.add_one_le_exp (13.65 - 4000 / (273 + 20) : ℝ)
      refine le_trans ?_ this
      norm_num
    · have : Real.exp (13.65 - 4000 / (273 + 20)) ≤ 1 := Real.exp_le_one_iff.2 (by norm_num)
      nlinarith

/-! ### Cement classes -/

/-- **C41 (cement classes), shrinkage.** Exactly the names `R`, `N`, `S`, up to case and surrounding blanks, are
accepted; everything else raises a `ValueError`. -/
theorem C41_cement_shrinkage (c : List Char) :
    (alpha_ds1 c = .ok 6 ∧ alpha_ds2 c = .ok 0.11 ∧ pyStrip (pyUpper c) = ['R']) ∨
    (alpha_ds1 c = .ok 4 ∧ alpha_ds2 c = .ok 0.12 ∧ pyStrip (pyUpper c) = ['N']) ∨
    (alpha_ds1 c = .ok 3 ∧ alpha_ds2 c = .ok 0.13 ∧ pyStrip (pyUpper c) = ['S']) ∨
    (alpha_ds1 c = .error .valueError ∧ alpha_ds2 c = .error .valueError ∧
      pyStrip (pyUpper c) ∉ [['R'], ['N'], ['S']]) := by
  unfold alpha_ds1 alpha_ds2 getAlphaDs
  generalize pyStrip (pyUpper c) = u
  by_cases h1 : u = ['R']
  · subst h1; left; exact ⟨rfl, rfl, rfl⟩
  by_cases h2 : u = ['N']
  · subst h2; right; left; exact ⟨rfl, rfl, rfl⟩
  by_cases h3 : u = ['S']
  · subst h3; right; right; left; exact ⟨rfl, rfl, rfl⟩
  have : alphaDsDict u = none := by unfold alphaDsDict; split <;> simp_all
  right; right; right
  rw [this]; exact ⟨rfl, rfl, by simp [h1, h2, h3]⟩

/-- **C41 (cement classes), creep.** Exactly the names `R`, `N`, `S` up to case are accepted. -/
theorem C41_cement_creep (c : List Char) :
    (alpha_cement c = .ok 1 ∧ pyUpper c = ['R']) ∨ (alpha_cement c = .ok 0 ∧ pyUpper c = ['N']) ∨
    (alpha_cement c = .ok (-1) ∧ pyUpper c = ['S']) ∨
    (alpha_cement c = .error .valueError ∧ pyUpper c ∉ [['R'], ['N'], ['S']]) := by
  unfold alpha_cement
  generalize pyUpper c = u
  by_cases h1 : u = ['R']
  · subst h1; left; exact ⟨rfl, rfl⟩
  by_cases h2 : u = ['N']
  · subst h2; right; left; exact ⟨rfl, rfl⟩
  by_cases h3 : u = ['S']
  · subst h3; right; right; left; exact ⟨rfl, rfl⟩
  have : alphaCementDict u = none := by unfold alphaCementDict; split <;> simp_all
  right; right; right
  rw [this]; exact ⟨rfl, by simp [h1, h2, h3]⟩

/-- **C41, violated.** The two functions do not accept the same class names: `" R "` is accepted for shrinkage
(blanks are stripped) and rejected for creep. -/
theorem C41_cement_violated : alpha_ds1 [' ', 'R', ' '] = .ok 6 ∧ alpha_cement [' ', 'R', ' '] = .error .valueError := by
  constructor
  · have : pyStrip (pyUpper [' ', 'R', ' ']) = ['R'] := by decide
    simp only [alpha_ds1, getAlphaDs, this, alphaDsDict]; rfl
  · have : pyUpper [' ', 'R', ' '] = [' ', 'R', ' '] := by decide
    rcases C41_cement_creep [' ', 'R', ' '] with h | h | h | h
    all_goals first | exact h.1 | (rw [this] at h; exact absurd h.2 (by decide))

end SC.EC2_2004
