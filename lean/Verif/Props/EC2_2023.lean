import Verif.Model.EC2_2023
import Verif.Lemmas.InterpMono
import Verif.Props.EC2_2004_Materials

/-! # C44: EC2 2023, materials and serviceability -/

set_option autoImplicit false

namespace SC.EC2_2023

/-! ### Strengths -/

/-- **C44 (ordering, sign).** For every non-zero strength: mean above characteristic, tensile strengths positive and ordered, and
nothing depends on the sign. -/
theorem C44_strengths (f d : ℝ) (hf : f ≠ 0) (hd : d ≠ 0) :
    |f| < fcm f d ∧ 0 < fctk_5 (fctm f) ∧ fctk_5 (fctm f) < fctm f ∧ fctm f < fctk_95 (fctm f) ∧
    fcm (-f) d = fcm f d ∧ fctm (-f) = fctm f := by
  have h : 0 < |f| := abs_pos.2 hf
  have h' := abs_pos.2 hd
  have ht : 0 < fctm f := by
    unfold fctm; split_ifs
    · have := Real.rpow_pos_of_pos h ((2 : ℝ) / 3); positivity
    · have := Real.rpow_pos_of_pos h ((1 : ℝ) / 3); positivity
  refine ⟨by simp only [fcm, MC2010.fcm]; linarith, ?_, ?_, ?_, by simp [fcm, MC2010.fcm], by simp [fctm]⟩ <;>
    simp only [fctk_5, fctk_95, abs_of_pos ht] <;> linarith

/-- **C44 (tensile strength), partial.** Non-decreasing up to 50 and above 50. -/
theorem C44_fctm_partial (a b : ℝ) (h0 : 0 ≤ a) (hab : a ≤ b) (h : b ≤ 50 ∨ 50 < a) : fctm a ≤ fctm b := by
  have hb : 0 ≤ b := h0.trans hab
  simp only [fctm]
  rw [abs_of_nonneg h0, abs_of_nonneg hb]
  rcases h with h | h
  · rw [if_pos (hab.trans h), if_pos h]
    have := Real.rpow_le_rpow h0 hab (by norm_num : (0 : ℝ) ≤ 2 / 3)
    linarith
  · rw [if_neg (by linarith), if_neg (by linarith)]
    have := Real.rpow_le_rpow h0 hab (by norm_num : (0 : ℝ) ≤ 1 / 3)
    linarith

/-- **C44, violated.** The tensile strength falls when the strength rises from 50 to 50.1. -/
theorem C44_fctm_violated : fctm 50.1 < fctm 50 := by
  have h1 : (13.57 : ℝ) < (50 : ℝ) ^ ((2 : ℝ) / 3) := by
    have := EC2_2004.lt_rpow_of_pow (x := 50) (y := 13.57) (by norm_num) 2 3 (by norm_num) (by norm_num)
    convert this using 2
    norm_num
  have h2 : (50.1 : ℝ) ^ ((1 : ℝ) / 3) < 3.69 := by
    have := EC2_2004.rpow_lt_of_pow (x := 50.1) (y := 3.69) (by norm_num) (by norm_num) 1 3 (by norm_num) (by norm_num)
    convert this using 2
    norm_num
  unfold fctm
  rw [abs_of_pos (by norm_num : (0 : ℝ) < 50.1), abs_of_pos (by norm_num : (0 : ℝ) < 50),
    if_neg (by norm_num), if_pos le_rfl]
  linarith

/-- **C44 (elastic modulus).** Raises exactly outside the documented ranges; otherwise non-decreasing in strength and aggregate
factor. -/
theorem C44_Ecm (f f' kE kE' : ℝ) (h0 : 0 ≤ f) (hf : f ≤ f') (h1 : 5000 ≤ kE) (hk : kE ≤ kE') (h2 : kE' ≤ 13000) :
    (∃ r r', Ecm f kE = .ok r ∧ Ecm f' kE' = .ok r' ∧ 0 ≤ r ∧ r ≤ r') ∧
    (∀ g k, g < 0 ∨ k < 5000 ∨ k > 13000 ↔ Ecm g k = .error .valueError) := by
  constructor
  · refine ⟨kE * f ^ ((1 : ℝ) / 3), kE' * f' ^ ((1 : ℝ) / 3), ?_, ?_, ?_, ?_⟩
    · simp only [Ecm, except_bind_ok, except_pure_ok, raiseIf_ok]
      exact ⟨(), by linarith, (), by linarith, (), by linarith, trivial⟩
    · simp only [Ecm, except_bind_ok, except_pure_ok, raiseIf_ok]
      exact ⟨(), by linarith, (), by linarith, (), by linarith, trivial⟩
    · have := Real.rpow_nonneg h0 ((1 : ℝ) / 3)
      have : 0 ≤ kE := by linarith
      positivity
    · have := Real.rpow_nonneg h0 ((1 : ℝ) / 3)
      have := Real.rpow_le_rpow h0 hf (by norm_num : (0 : ℝ) ≤ 1 / 3)
      have : 0 ≤ kE' := by linarith
      gcongr
  · intro g k
    simp only [Ecm, except_bind_error, except_pure_error, raiseIf_error, raiseIf_ok]
    by_cases a : g < 0 <;> by_cases b : k < 5000 <;> by_cases c : k > 13000 <;> simp [a, b, c]

/-- `eta_cc` on success. -/
theorem eta_cc_ok {f r e : ℝ} : eta_cc f r = .ok e ↔ 12 ≤ f ∧ 0 < r ∧ min ((r / f) ^ ((1 : ℝ) / 3)) 1 = e := by
  simp only [eta_cc, except_bind_ok, except_pure_ok, raiseIf_ok]
  constructor
  · rintro ⟨-, h1, -, h2, rfl⟩; exact ⟨not_lt.1 h1, not_le.1 h2, rfl⟩
  · rintro ⟨h1, h2, rfl⟩; exact ⟨(), not_lt.2 h1, (), not_le.2 h2, rfl⟩

/-- **C44 (brittleness factor).** Strengths below 12 and a reference that is not positive raise; otherwise the factor is in `(0, 1]`, is 1
exactly up to the reference strength, and does not increase; but the reduced strength `eta_cc * fck` never decreases. -/
theorem C44_eta_cc (f f' r : ℝ) (hf : 12 ≤ f) (hff : f ≤ f') (hr : 0 < r) :
    ∃ e e', eta_cc f r = .ok e ∧ eta_cc f' r = .ok e' ∧ 0 < e ∧ e ≤ 1 ∧ (e = 1 ↔ f ≤ r) ∧ e' ≤ e ∧ e * f ≤ e' * f' := by
  have h0 : 0 < f := by linarith
  have h1 : 0 < f' := by linarith
  have p : 0 < r / f := by positivity
  have p' : 0 < r / f' := by positivity
  refine ⟨_, _, eta_cc_ok.2 ⟨hf, hr, rfl⟩, eta_cc_ok.2 ⟨hf.trans hff, hr, rfl⟩,
    lt_min (Real.rpow_pos_of_pos p _) one_pos, min_le_right _ _, ?_, ?_, ?_⟩
  · rw [min_eq_right_iff, ← one_le_div h0]
    constructor
    · intro h
      by_contra hn
      have := Real.rpow_lt_one p.le (not_le.1 hn) (by norm_num : (0 : ℝ) < 1 / 3)
      linarith
    · intro h; exact Real.one_le_rpow h (by norm_num)
  · apply min_le_min_right
    exact Real.rpow_le_rpow p'.le (div_le_div_of_nonneg_left hr.le h0 hff) (by norm_num)
  · have key : ∀ g, 0 < g → min ((r / g) ^ ((1 : ℝ) / 3)) 1 * g = min (r ^ ((1 : ℝ) / 3) * g ^ ((2 : ℝ) / 3)) g := by
      intro g hg
      rw [min_mul_of_nonneg _ _ hg.le, one_mul, Real.div_rpow hr.le hg.le]
      congr 1
      have : g = g ^ ((1 : ℝ) / 3) * g ^ ((2 : ℝ) / 3) := by
        rw [← Real.rpow_add hg]; norm_num
      have h3 : g ^ ((1 : ℝ) / 3) ≠ 0 := (Real.rpow_pos_of_pos hg _).ne'
      rw [div_mul_eq_mul_div, div_eq_iff h3]
      calc r ^ ((1 : ℝ) / 3) * g = r ^ ((1 : ℝ) / 3) * (g ^ ((1 : ℝ) / 3) * g ^ ((2 : ℝ) / 3)) := by rw [← this]
        _ = _ := by ring
    rw [key f h0, key f' h1]
    apply min_le_min _ hff
    have := Real.rpow_le_rpow h0.le hff (by norm_num : (0 : ℝ) ≤ 2 / 3)
    have := Real.rpow_nonneg hr.le ((1 : ℝ) / 3)
    gcongr

example : ∃ f f' r : ℝ, 12 ≤ f ∧ f ≤ f' ∧ 0 < r := ⟨30, 60, 40, by norm_num, by norm_num, by norm_num⟩

/-- **C44 (sustained load factor).** Always 1 or 0.85; 1 exactly for loading after 90 days and a reference age up to 28 days (56 for
slow cement). -/
theorem C44_k_tc (tr t0 : ℝ) (s : List Char) :
    (∀ r, k_tc tr t0 s = .ok r → r = 1 ∨ r = 0.85) ∧
    (∀ d, dev s = .ok d → 0 ≤ tr → 0 ≤ t0 →
      (k_tc tr t0 s = .ok 1 ↔ tr ≤ (if d = .slow then 56 else 28) ∧ 90 < t0)) ∧
    (tr < 0 ∨ t0 < 0 → k_tc tr t0 s = .error .valueError) := by
  refine ⟨fun r hr => ?_, fun d hd h1 h2 => ?_, fun h => ?_⟩
  · simp only [k_tc, except_bind_ok, except_pure_ok, raiseIf_ok] at hr
    obtain ⟨-, -, -, -, d, -, rfl⟩ := hr
    split_ifs <;> simp
  · have hA : refAge d = if d = .slow then 56 else 28 := by cases d <;> rfl
    simp only [k_tc, except_bind_ok, except_pure_ok, raiseIf_ok, ← hA]
    constructor
    · rintro ⟨-, -, -, -, d', hd', h⟩
      rw [hd] at hd'; cases hd'
      split_ifs at h with hc
      · exact hc
      · norm_num at h
    · intro hc
      refine ⟨(), not_lt.2 h1, (), not_lt.2 h2, d, hd, ?_⟩
      rw [if_pos hc]
  · unfold k_tc raiseIf
    by_cases h1 : tr < 0
    · simp [h1, bind, Except.bind]
    · simp [h1, h.resolve_left h1, bind, Except.bind]

/-- **C44 (design strength).** With the factors of the code, the design strength exists for every `fck ≥ 12` and `gamma_c ≥ 1`, is
non-negative, is at most `fck / gamma_c`, and never decreases with `fck`. -/
theorem C44_fcd (f f' r tr t0 g kt : ℝ) (s : List Char) (hf : 12 ≤ f) (hff : f ≤ f') (hr : 0 < r) (hg : 1 ≤ g)
    (hk : k_tc tr t0 s = .ok kt) :
    ∃ e e' x x', eta_cc f r = .ok e ∧ eta_cc f' r = .ok e' ∧ fcd f e kt g = .ok x ∧ fcd f' e' kt g = .ok x' ∧
      0 ≤ x ∧ x ≤ f / g ∧ x ≤ x' := by
  obtain ⟨e, e', he, he', h1, h2, -, h3, h4⟩ := C44_eta_cc f f' r hf hff hr
  have hk0 : 0 ≤ kt ∧ kt ≤ 1 := by
    rcases (C44_k_tc tr t0 s).1 kt hk with h | h <;> rw [h] <;> norm_num
  have h2' : e' ≤ 1 := h3.trans h2
  have h1' : 0 < e' := by rw [eta_cc_ok] at he'; rw [← he'.2.2]
                          exact lt_min (Real.rpow_pos_of_pos (div_pos hr (by linarith)) _) one_pos
  have g0 : 0 < g := by linarith
  refine ⟨e, e', e * kt * f / g, e' * kt * f' / g, he, he', ?_, ?_, ?_, ?_, ?_⟩
  · simp only [fcd, except_bind_ok, except_pure_ok, raiseIf_ok]
    exact ⟨(), not_lt.2 hf, (), by push Not; exact ⟨h1.le, h2⟩, (), not_lt.2 hg, trivial⟩
  · simp only [fcd, except_bind_ok, except_pure_ok, raiseIf_ok]
    exact ⟨(), not_lt.2 (hf.trans hff), (), by push Not; exact ⟨h1'.le, h2'⟩, (), not_lt.2 hg, trivial⟩
  · have := hk0.1; have : 0 ≤ f := by linarith
    positivity
  · apply div_le_div_of_nonneg_right _ g0.le
    have : e * kt ≤ 1 := mul_le_one₀ h2 hk0.1 hk0.2
    nlinarith
  · apply div_le_div_of_nonneg_right _ g0.le
    calc e * kt * f = kt * (e * f) := by ring
      _ ≤ kt * (e' * f') := mul_le_mul_of_nonneg_left h4 hk0.1
      _ = _ := by ring

theorem dev_CN : dev ['C', 'N'] = .ok .normal := by
  have : pyStrip (pyUpper ['C', 'N']) = ['C', 'N'] := by decide
  simp only [dev, this]; decide

example : ∃ kt, k_tc 28 100 ['C', 'N'] = .ok kt :=
  ⟨1, ((C44_k_tc 28 100 _).2.1 .normal dev_CN (by norm_num) (by norm_num)).2 (by
    rw [if_neg (by decide)]; norm_num)⟩

/-- **C44 (tensile design strength).** `k_tt` is 0.8 or 0.7, and the design strength at most `0.8 fctk_5 / gamma_c`. -/
theorem C44_fctd (tr ft kt g x : ℝ) (s : List Char) (hk : k_tt tr s = .ok kt) (hx : fctd ft kt g = .ok x) :
    (kt = 0.8 ∨ kt = 0.7) ∧ 0 ≤ x ∧ x ≤ 0.8 * ft / g ∧ x ≤ ft := by
  simp only [k_tt, fctd, except_bind_ok, except_pure_ok, raiseIf_ok] at hk hx
  obtain ⟨-, -, d, -, rfl⟩ := hk
  obtain ⟨-, h1, -, h2, rfl⟩ := hx
  push Not at h1 h2
  have g0 : 0 < g := by linarith
  have hc : (if tr ≤ refAge d then (0.8 : ℝ) else 0.7) = 0.8 ∨ (if tr ≤ refAge d then (0.8 : ℝ) else 0.7) = 0.7 := by
    split_ifs <;> simp
  generalize (if tr ≤ refAge d then (0.8 : ℝ) else 0.7) = kt at hc ⊢
  have h3 : 0 ≤ kt := by rcases hc with h | h <;> rw [h] <;> norm_num
  have h4 : kt ≤ 0.8 := by rcases hc with h | h <;> rw [h] <;> norm_num
  refine ⟨hc, by positivity, by gcongr, ?_⟩
  rw [div_le_iff₀ g0]
  nlinarith

/-! ### Strains -/

theorem eps_c1_ok {f e : ℝ} : eps_c1 f = .ok e ↔ 20 ≤ f ∧ min (0.7 * f ^ ((1 : ℝ) / 3)) 2.8 / 1000 = e := by
  simp only [eps_c1, except_bind_ok, except_pure_ok, raiseIf_ok, not_lt, exists_const]
theorem eps_cu1_ok {f e : ℝ} : eps_cu1 f = .ok e ↔ 20 ≤ f ∧ min (2.8 + 14 * (1 - f / 108) ^ 4) 3.5 / 1000 = e := by
  simp only [eps_cu1, except_bind_ok, except_pure_ok, raiseIf_ok, not_lt, exists_const]

/-- **C44 (strains).** Raise exactly below 20; the strain at peak is positive, never decreases, and never exceeds the ultimate strain,
which is between 2.8 and 3.5 per mille; the constant pair of section 8 is ordered too. -/
theorem C44_strains (f : ℝ) :
    (f < 20 ↔ eps_c1 f = .error .valueError) ∧ (f < 20 ↔ eps_cu1 f = .error .valueError) ∧
    (20 ≤ f → ∃ e u, eps_c1 f = .ok e ∧ eps_cu1 f = .ok u ∧ 0 < e ∧ e ≤ 2.8 / 1000 ∧ e ≤ u ∧ 2.8 / 1000 ≤ u ∧ u ≤ 3.5 / 1000) ∧
    (∀ f' e e', f ≤ f' → eps_c1 f = .ok e → eps_c1 f' = .ok e' → e ≤ e') ∧
    0 < eps_c2 ∧ eps_c2 < eps_cu2 := by
  refine ⟨?_, ?_, fun h => ?_, fun f' e e' hff he he' => ?_, by norm_num [eps_c2], by norm_num [eps_c2, eps_cu2]⟩
  · simp only [eps_c1, except_bind_error, except_pure_error, raiseIf_error, and_false, exists_false, or_false, and_true]
  · simp only [eps_cu1, except_bind_error, except_pure_error, raiseIf_error, and_false, exists_false, or_false, and_true]
  · refine ⟨_, _, eps_c1_ok.2 ⟨h, rfl⟩, eps_cu1_ok.2 ⟨h, rfl⟩, ?_, ?_, ?_, ?_, ?_⟩
    · have := Real.rpow_pos_of_pos (by linarith : 0 < f) ((1 : ℝ) / 3)
      have : 0 < min (0.7 * f ^ ((1 : ℝ) / 3)) 2.8 := lt_min (by positivity) (by norm_num)
      positivity
    · exact div_le_div_of_nonneg_right (min_le_right _ _) (by norm_num)
    · apply div_le_div_of_nonneg_right _ (by norm_num)
      refine (min_le_right _ _).trans (le_min ?_ (by norm_num))
      have : 0 ≤ (1 - f / 108) ^ 4 := by positivity
      linarith
    · apply div_le_div_of_nonneg_right _ (by norm_num)
      refine le_min ?_ (by norm_num)
      have : 0 ≤ (1 - f / 108) ^ 4 := by positivity
      linarith
    · exact div_le_div_of_nonneg_right (min_le_right _ _) (by norm_num)
  · rw [eps_c1_ok] at he he'
    obtain ⟨h1, rfl⟩ := he
    obtain ⟨h2, rfl⟩ := he'
    apply div_le_div_of_nonneg_right _ (by norm_num)
    apply min_le_min_right
    have := Real.rpow_le_rpow (by linarith) hff (by norm_num : (0 : ℝ) ≤ 1 / 3)
    linarith

/-- **C44 (ultimate strain), partial.** Never increases with the strength up to `fcm = 108` (`fck = 100`). -/
theorem C44_eps_cu1_partial (f f' u u' : ℝ) (hff : f ≤ f') (h : f' ≤ 108) (hu : eps_cu1 f = .ok u)
    (hu' : eps_cu1 f' = .ok u') : u' ≤ u := by
  rw [eps_cu1_ok] at hu hu'
  obtain ⟨h1, rfl⟩ := hu
  obtain ⟨h2, rfl⟩ := hu'
  apply div_le_div_of_nonneg_right _ (by norm_num)
  apply min_le_min_right
  have : (1 - f' / 108) ^ 4 ≤ (1 - f / 108) ^ 4 := pow_le_pow_left₀ (by linarith) (by linarith) 4
  linarith

/-- **C44, violated.** Beyond 108 the ultimate strain rises again: a strength outside the range of the code is accepted, and at
`fcm = 216` the result is that of a very weak concrete. -/
theorem C44_eps_cu1_violated : ∃ u u', eps_cu1 108 = .ok u ∧ eps_cu1 216 = .ok u' ∧ u < u' := by
  refine ⟨_, _, eps_cu1_ok.2 ⟨by norm_num, rfl⟩, eps_cu1_ok.2 ⟨by norm_num, rfl⟩, ?_⟩
  rw [min_eq_left (by norm_num), min_eq_right (by norm_num)]; norm_num

/-! ### Creep and shrinkage tables -/

theorem aPhi_falling (a : Atm) : Falling (aPhiLo a) (aPhiTable a) := by
  cases a
  · refine ⟨by norm_num, by norm_num, by norm_num, by norm_num, by norm_num, by norm_num, ?_⟩; simp [Falling, aPhiLo]
  · refine ⟨by norm_num, by norm_num, by norm_num, by norm_num, by norm_num, by norm_num, ?_⟩; simp [Falling, aPhiLo]

theorem A_phi_ok {h : ℝ} {s : List Char} {r : ℝ} (hr : A_phi_correction_exp h s = .ok r) :
    100 ≤ h ∧ h ≤ 1000 ∧ ∃ a, atm s = .ok a ∧
    r = interp h (aPhiTable a) (aPhiHi a) (aPhiLo a) := by
  simp only [A_phi_correction_exp, except_bind_ok, except_pure_ok, raiseIf_ok] at hr
  obtain ⟨-, h1, -, h2, a, ha, rfl⟩ := hr
  exact ⟨not_lt.1 h1, not_lt.1 h2, a, ha, rfl⟩

/-- **C44 (creep exponent).** Within `[0.72, 0.82]` in dry and `[0.64, 0.71]` in humid conditions and never increasing with the size;
sizes outside `[100, 1000]` and unknown conditions raise; and every exponent returned is accepted by `phi_correction_factor`. -/
theorem C44_A_phi (h h' : ℝ) (s : List Char) (r r' : ℝ) (hr : A_phi_correction_exp h s = .ok r)
    (hr' : A_phi_correction_exp h' s = .ok r') :
    (0.64 ≤ r ∧ r ≤ 0.82) ∧ (atm s = .ok .dry → 0.72 ≤ r) ∧ (atm s = .ok .humid → r ≤ 0.71) ∧ (h ≤ h' → r' ≤ r) ∧
    (∀ f, 12 ≤ f → f ≤ 100 → ∃ p, phi_correction_factor f r = .ok p ∧ 0 < p ∧ (f = 35 → p = 1)) := by
  obtain ⟨-, -, a, ha, rfl⟩ := A_phi_ok hr
  obtain ⟨-, -, a', ha', rfl⟩ := A_phi_ok hr'
  rw [ha] at ha'; cases ha'
  have hb : (0.64 ≤ interp h (aPhiTable a) (aPhiHi a)
        (aPhiLo a) ∧ interp h (aPhiTable a) (aPhiHi a)
        (aPhiLo a) ≤ 0.82) ∧ (atm s = .ok .dry → 0.72 ≤ interp h (aPhiTable a)
        (aPhiHi a) (aPhiLo a)) ∧
        (atm s = .ok .humid → interp h (aPhiTable a) (aPhiHi a)
        (aPhiLo a) ≤ 0.71) ∧
        (h ≤ h' → interp h' (aPhiTable a) (aPhiHi a)
        (aPhiLo a) ≤ interp h (aPhiTable a) (aPhiHi a)
        (aPhiLo a)) := by
      have hf := aPhi_falling a
      cases a
      · obtain ⟨b1, b2⟩ := interp_fall_bounds (l := 0.82) (x := h) _ _ _ hf le_rfl
        have b3 := fun hh : h ≤ h' => interp_anti (l := 0.82) _ _ _ hf le_rfl hh
        change (0.72 : ℝ) ≤ _ at b1
        refine ⟨⟨le_trans (by norm_num) b1, b2⟩, fun _ => b1, fun hc => ?_, b3⟩
        rw [ha] at hc; cases hc
      · obtain ⟨b1, b2⟩ := interp_fall_bounds (l := 0.71) (x := h) _ _ _ hf le_rfl
        have b3 := fun hh : h ≤ h' => interp_anti (l := 0.71) _ _ _ hf le_rfl hh
        change (0.64 : ℝ) ≤ _ at b1
        refine ⟨⟨b1, b2.trans (by norm_num)⟩, fun hc => ?_, fun _ => b2, b3⟩
        rw [ha] at hc; cases hc
  obtain ⟨h1, h2, h3, h4⟩ := hb
  refine ⟨h1, h2, h3, h4, fun f hf1 hf2 => ⟨(35 / f) ^ interp h (aPhiTable a) (aPhiHi a) (aPhiLo a), ?_, Real.rpow_pos_of_pos (div_pos (by norm_num) (by linarith)) _, fun hf => ?_⟩⟩
  · simp only [phi_correction_factor, except_bind_ok, except_pure_ok, raiseIf_ok]
    exact ⟨(), not_lt.2 hf1, (), not_lt.2 hf2, (), not_lt.2 h1.1, (), not_lt.2 h1.2, trivial⟩
  · rw [hf]; norm_num

theorem atm_dry : atm ['D', 'r', 'y', ' '] = .ok .dry := by
  have : pyStrip (pyLower ['D', 'r', 'y', ' ']) = ['d', 'r', 'y'] := by decide
  simp only [atm, this]; decide

example : ∃ r, A_phi_correction_exp 300 ['D', 'r', 'y', ' '] = .ok r := by
  refine ⟨interp 300 (aPhiTable .dry) (aPhiHi .dry) (aPhiLo .dry), ?_⟩
  · simp only [A_phi_correction_exp, except_bind_ok, except_pure_ok, raiseIf_ok]
    exact ⟨(), by norm_num, (), by norm_num, .dry, atm_dry, rfl⟩

/-- The first number in dry, the second in humid conditions. -/
def byAtm (a : Atm) (x y : ℝ) : ℝ :=
  match a with
  | .dry => x
  | .humid => y

theorem orRaise_ok {x : Option ℝ} {r : ℝ} : orRaise x = .ok r ↔ x = some r := by
  cases x <;> simp [orRaise]

theorem phi_data_bounds (d : Dev) (a : Atm) : ∀ x ∈ gridData (phiTimes d) [100, 200, 500, 1000] (phiValues a),
    ((if d = .slow then 3 else 1) ≤ x.1.1 ∧ x.1.1 ≤ 365) ∧
    ((byAtm a 1.0 0.8) ≤ x.2 ∧ x.2 ≤ (byAtm a 4.2 3.0)) := by
  cases d <;> cases a <;>
    (simp only [gridData, byAtm, reduceCtorEq, if_true, if_false, phiTimes, phiValues, List.flatMap_cons, List.flatMap_nil, List.map_cons, List.map_nil,
      List.cons_append, List.nil_append, List.zip_cons_cons, List.zip_nil_left, List.mem_cons, List.not_mem_nil, or_false,
      forall_eq_or_imp, forall_eq]
     norm_num)

/-- **C44 (50 year creep).** Whatever triangulation `griddata` uses: every value returned is within the table (`[1.0, 4.2]` dry,
`[0.8, 3.0]` humid), and only for loading ages within the table (from 3 days for slow, from 1 day for other cements, up to 365)
and sizes in `[100, 1000]`; conversely every such input returns a value. -/
theorem C44_phi_50y (grid : List ((ℝ × ℝ) × ℝ) → ℝ × ℝ → Option ℝ) (hg : IsGriddata grid) (t0 h : ℝ) (sa sd : List Char)
    (a : Atm) (d : Dev) (ha : atm sa = .ok a) (hd : dev sd = .ok d) :
    (∀ r, phi_50y_t0 grid t0 sa h sd = .ok r →
      (byAtm a 1.0 0.8) ≤ r ∧ r ≤ (byAtm a 4.2 3.0) ∧
      (if d = .slow then 3 else 1) ≤ t0 ∧ t0 ≤ 365 ∧ 100 ≤ h ∧ h ≤ 1000) ∧
    ((if d = .slow then 3 else 1) ≤ t0 → t0 ≤ 365 → 100 ≤ h → h ≤ 1000 → ∃ r, phi_50y_t0 grid t0 sa h sd = .ok r) := by
  constructor
  · intro r hr
    simp only [phi_50y_t0, except_bind_ok, raiseIf_ok, orRaise_ok] at hr
    obtain ⟨-, h1, a', ha', -, h2, -, h3, d', hd', h4⟩ := hr
    rw [ha] at ha'; cases ha'
    rw [hd] at hd'; cases hd'
    have hc := hg.value _ _ _ h4
    have hb := phi_data_bounds d a
    have b1 := hc.bounds fun x hx => (hb x hx).2
    have b2 := hc.fst_bounds fun x hx => (hb x hx).1
    exact ⟨b1.1, b1.2, b2.1, b2.2, not_lt.1 h2, not_lt.1 h3⟩
  · intro h1 h2 h3 h4
    set m : ℝ := if d = .slow then 3 else 1 with hm
    have hm1 : 1 ≤ m := by rw [hm]; split_ifs <;> norm_num
    have hm3 : m ≤ 3 := by rw [hm]; split_ifs <;> norm_num
    have hq : 0 < 365 - m := by linarith
    -- weights at the four corners of the table
    set x := (t0 - m) / (365 - m) with hx
    set y := (h - 100) / 900 with hy
    have x0 : 0 ≤ x := div_nonneg (by linarith) hq.le
    have x1 : x ≤ 1 := (div_le_one hq).2 (by linarith)
    have y0 : 0 ≤ y := div_nonneg (by linarith) (by norm_num)
    have y1 : y ≤ 1 := (div_le_one (by norm_num)).2 (by linarith)
    have hxt : m + x * (365 - m) = t0 := by rw [hx, div_mul_cancel₀ _ hq.ne']; ring
    have hyh : 100 + y * 900 = h := by rw [hy]; ring
    have hcomb : ∃ v, Combination (gridData (phiTimes d) [100, 200, 500, 1000] (phiValues a)) (t0, h) v := by
      refine ⟨_, [(1 - x) * (1 - y), 0, 0, (1 - x) * y, 0, 0, 0, 0, 0, 0, 0, 0, 0, 0, 0, 0, x * (1 - y), 0, 0, x * y],
        ?_, ?_, ?_, ?_, ?_, rfl⟩
      · cases d <;> cases a <;> rfl
      · intro z hz
        have e1 : 0 ≤ 1 - x := by linarith
        have e2 : 0 ≤ 1 - y := by linarith
        simp only [List.mem_cons, List.not_mem_nil, or_false] at hz
        rcases hz with h | h | h | h | h | h | h | h | h | h | h | h | h | h | h | h | h | h | h | h <;> rw [h] <;> positivity
      · simp only [List.sum_cons, List.sum_nil]; ring
      · have : ∀ m' : ℝ, m' = m → (List.zipWith (fun a d => a * d.1.1) [(1 - x) * (1 - y), 0, 0, (1 - x) * y, 0, 0, 0, 0, 0, 0, 0, 0, 0, 0, 0,
            0, x * (1 - y), 0, 0, x * y] (gridData (phiTimes d) [100, 200, 500, 1000] (phiValues a))).sum = t0 := by
          intro m' _
          rw [← hxt]
          cases d <;> cases a <;>
            simp [gridData, phiTimes, phiValues] <;> simp [hm] <;> ring
        exact this m rfl
      · simp only
        rw [← hyh]
        cases d <;> cases a <;> simp [gridData, phiTimes, phiValues] <;> ring
    obtain ⟨v, hv⟩ := hcomb
    obtain ⟨v', hv'⟩ := hg.hull _ _ _ hv
    refine ⟨v', ?_⟩
    simp only [phi_50y_t0, except_bind_ok, raiseIf_ok, orRaise_ok]
    exact ⟨(), by linarith, a, ha, (), not_lt.2 h3, (), not_lt.2 h4, d, hd, hv'⟩

example : ∃ grid, IsGriddata grid := exists_griddata
example : atm ['D', 'r', 'y', ' '] = .ok .dry ∧ dev ['C', 'N'] = .ok .normal := ⟨atm_dry, dev_CN⟩

theorem cs_data_bounds (d : Dev) (a : Atm) : ∀ x ∈ gridData (csStrengths d) [100, 200, 500, 1000] (csValues a d),
    ((if d = .rapid then 35 else 20) ≤ x.1.1 ∧ x.1.1 ≤ (if d = .slow then 50 else 80)) ∧
    ((byAtm a 0.35 0.21) ≤ x.2 ∧ x.2 ≤ (byAtm a 0.76 0.42)) := by
  cases d <;> cases a <;>
    (simp only [gridData, byAtm, reduceCtorEq, if_true, if_false, csStrengths, csValues, List.flatMap_cons, List.flatMap_nil, List.map_cons, List.map_nil,
      List.cons_append, List.nil_append, List.zip_cons_cons, List.zip_nil_left, List.mem_cons, List.not_mem_nil, or_false,
      forall_eq_or_imp, forall_eq]
     norm_num)

/-- **C44 (50 year shrinkage).** Every value returned is within the table (`[0.35, 0.76]` per mille dry, `[0.21, 0.42]` humid), and only
for strengths of the class (20 to 50 slow, 20 to 80 normal, 35 to 80 rapid) and sizes in `[100, 1000]`. -/
theorem C44_eps_cs (grid : List ((ℝ × ℝ) × ℝ) → ℝ × ℝ → Option ℝ) (hg : IsGriddata grid) (f h : ℝ) (sa sd : List Char)
    (a : Atm) (d : Dev) (ha : atm sa = .ok a) (hd : dev sd = .ok d) (r : ℝ) (hr : eps_cs_50y grid f sa h sd = .ok r) :
    (byAtm a 0.35 0.21) ≤ r ∧ r ≤ (byAtm a 0.76 0.42) ∧
    (if d = .rapid then 35 else 20) ≤ f ∧ f ≤ (if d = .slow then 50 else 80) ∧ 100 ≤ h ∧ h ≤ 1000 := by
  simp only [eps_cs_50y, except_bind_ok, raiseIf_ok, orRaise_ok] at hr
  obtain ⟨-, -, -, -, a', ha', -, h2, -, h3, d', hd', h4⟩ := hr
  rw [ha] at ha'; cases ha'
  rw [hd] at hd'; cases hd'
  have hc := hg.value _ _ _ h4
  have hb := cs_data_bounds d a
  have b1 := hc.bounds fun x hx => (hb x hx).2
  have b2 := hc.fst_bounds fun x hx => (hb x hx).1
  exact ⟨b1.1, b1.2, b2.1, b2.2, not_lt.1 h2, not_lt.1 h3⟩

/-! ### Steel -/

theorem bilinear_mono {fy fu u E a b ra rb : ℝ} (hE : 0 < E) (hfu : fy ≤ fu) (hu : fy / E < u) (hab : a ≤ b)
    (ha : bilinear fy fu u E a = .ok ra) (hb : bilinear fy fu u E b = .ok rb) : ra ≤ rb := by
  have h0 : 0 < u - fy / E := by linarith
  have hy : fy / E * E = fy := div_mul_cancel₀ _ hE.ne'
  have hm : 0 ≤ (fu - fy) / (u - fy / E) := div_nonneg (by linarith) h0.le
  simp only [bilinear, hardening, pyDiv_ok h0.ne', bind, Except.bind, pure, Except.pure] at ha hb
  split_ifs at ha hb with h1 h2 h2 <;> cases ha <;> cases hb
  · gcongr
  · push Not at h2
    have h3 : a * E ≤ fy := by rw [← hy]; gcongr
    have := mul_nonneg hm (by linarith : 0 ≤ b - fy / E)
    linarith
  · exact absurd (hab.trans h2) h1
  · gcongr

theorem bilinear_yield {fy fu u E : ℝ} (hE : 0 < E) : bilinear fy fu u E (fy / E) = .ok fy := by
  simp only [bilinear, le_refl, if_true]; rw [div_mul_cancel₀ _ hE.ne']

theorem bilinear_ult {fy fu u E : ℝ} (hu : fy / E < u) : bilinear fy fu u E u = .ok fu := by
  have h0 : u - fy / E ≠ 0 := by linarith
  simp only [bilinear, hardening, if_neg (not_le.2 hu), pyDiv_ok h0, bind, Except.bind, pure, Except.pure]
  rw [div_mul_cancel₀ _ h0]; congr 1; ring

theorem sigma_s_ok {eps fy k u E r : ℝ} : sigma_s eps fy k u E = .ok r ↔
    0 ≤ eps ∧ 0 < u ∧ ¬ (eps > u ∧ k > 1) ∧ 0 < E ∧ 0 < fy ∧ 0 ≤ k ∧ bilinear fy (fy * k) u E eps = .ok r := by
  simp only [sigma_s, except_bind_ok, raiseIf_ok, not_lt, not_le, exists_const]

theorem sigma_p_ok {eps fy fu u E r : ℝ} : sigma_p eps fy fu u E = .ok r ↔
    0 ≤ eps ∧ 0 < u ∧ ¬ (u < eps ∧ fy ≠ fu) ∧ 0 < fy ∧ fy ≤ fu ∧ 0 < E ∧ bilinear fy fu u E eps = .ok r := by
  simp only [sigma_p, except_bind_ok, raiseIf_ok, not_lt, not_le, exists_const]

/-- **C44 (reinforcing steel).** For `k ≥ 1` and a yield strain below the ultimate strain: the stress is `fy` at yield and `k fy` at
the ultimate strain, and never decreases; a larger strain raises when `k > 1`, and gives `fy` when `k = 1`. -/
theorem C44_sigma_s (fy k u E : ℝ) (hfy : 0 < fy) (hk : 1 ≤ k) (hE : 0 < E) (hu : fy / E < u) :
    sigma_s (fy / E) fy k u E = .ok fy ∧ sigma_s u fy k u E = .ok (fy * k) ∧
    (∀ a b ra rb, a ≤ b → sigma_s a fy k u E = .ok ra → sigma_s b fy k u E = .ok rb → ra ≤ rb) ∧
    (∀ e, u < e → (1 < k → sigma_s e fy k u E = .error .valueError) ∧ (k = 1 → sigma_s e fy k u E = .ok fy)) := by
  have hy : 0 < fy / E := by positivity
  have u0 : 0 < u := hy.trans hu
  have hk0 : 0 ≤ k := by linarith
  refine ⟨sigma_s_ok.2 ⟨hy.le, u0, fun h => by linarith [h.1], hE, hfy, hk0, bilinear_yield hE⟩,
    sigma_s_ok.2 ⟨u0.le, u0, fun h => by linarith [h.1], hE, hfy, hk0, bilinear_ult hu⟩, fun a b ra rb hab ha hb => ?_,
    fun e he => ⟨fun hk1 => ?_, fun hk1 => ?_⟩⟩
  · rw [sigma_s_ok] at ha hb
    exact bilinear_mono hE (by nlinarith) hu hab ha.2.2.2.2.2.2 hb.2.2.2.2.2.2
  · have h1 : ¬ e < 0 := by linarith
    simp only [sigma_s, raiseIf, h1, if_neg (not_le.2 u0), if_pos (⟨he, hk1⟩ : e > u ∧ k > 1), if_false, bind, Except.bind]
  · refine sigma_s_ok.2 ⟨by linarith, u0, fun h => by linarith [h.2], hE, hfy, hk0, ?_⟩
    have h0 : u - fy / E ≠ 0 := by linarith
    simp only [bilinear, hardening, if_neg (not_le.2 (hu.trans he)), pyDiv_ok h0, bind, Except.bind, pure, Except.pure]
    rw [hk1]; congr 1; simp

example : (0 : ℝ) < 500 ∧ (1 : ℝ) ≤ 1.08 ∧ (0 : ℝ) < 200000 ∧ (500 : ℝ) / 200000 < 0.05 := by norm_num

/-- **C44, violated.** `k < 1`, for which a `ValueError` is documented, is accepted: the steel softens. -/
theorem C44_sigma_s_violated : sigma_s 0.05 500 0.5 0.05 = .ok 250 := by
  rw [sigma_s_ok]
  refine ⟨by norm_num, by norm_num, by norm_num, by norm_num, by norm_num, by norm_num, ?_⟩
  rw [bilinear_ult (by norm_num)]; norm_num

/-- **C44 (prestressing steel).** The same for prestressing steel. -/
theorem C44_sigma_p (fy fu u E : ℝ) (hfy : 0 < fy) (hk : fy ≤ fu) (hE : 0 < E) (hu : fy / E < u) :
    sigma_p (fy / E) fy fu u E = .ok fy ∧ sigma_p u fy fu u E = .ok fu ∧
    (∀ a b ra rb, a ≤ b → sigma_p a fy fu u E = .ok ra → sigma_p b fy fu u E = .ok rb → ra ≤ rb) ∧
    (∀ e, u < e → (fy < fu → sigma_p e fy fu u E = .error .valueError) ∧ (fy = fu → sigma_p e fy fu u E = .ok fy)) := by
  have hy : 0 < fy / E := by positivity
  have u0 : 0 < u := hy.trans hu
  refine ⟨sigma_p_ok.2 ⟨hy.le, u0, fun h => by linarith [h.1], hfy, hk, hE, bilinear_yield hE⟩,
    sigma_p_ok.2 ⟨u0.le, u0, fun h => by linarith [h.1], hfy, hk, hE, bilinear_ult hu⟩, fun a b ra rb hab ha hb => ?_,
    fun e he => ⟨fun hk1 => ?_, fun hk1 => ?_⟩⟩
  · rw [sigma_p_ok] at ha hb
    exact bilinear_mono hE hk hu hab ha.2.2.2.2.2.2 hb.2.2.2.2.2.2
  · have h1 : ¬ e < 0 := by linarith
    simp only [sigma_p, raiseIf, h1, if_neg (not_le.2 u0), if_pos (⟨he, hk1.ne⟩ : u < e ∧ fy ≠ fu), if_false, bind,
      Except.bind]
  · refine sigma_p_ok.2 ⟨by linarith, u0, fun h => h.2 hk1, hfy, hk, hE, ?_⟩
    have h0 : u - fy / E ≠ 0 := by linarith
    simp only [bilinear, hardening, if_neg (not_le.2 (hu.trans he)), pyDiv_ok h0, bind, Except.bind, pure, Except.pure]
    rw [← hk1]; congr 1; simp

/-- **C44 (design values of steel).** Never above the characteristic ones; wrong signs and factors below 1 raise. -/
theorem C44_design (f g : ℝ) :
    (f < 0 ∨ g < 1 ↔ fyd f g = .error .valueError) ∧ (f < 0 ∨ g < 1 ↔ eps_ud f g = .error .valueError) ∧
    (f < 0 ∨ g < 1 ↔ fpd f g = .error .valueError) ∧
    (0 ≤ f → 1 ≤ g → ∃ r, fyd f g = .ok r ∧ eps_ud f g = .ok r ∧ fpd f g = .ok r ∧ 0 ≤ r ∧ r ≤ f ∧ r * g = f) := by
  refine ⟨?_, ?_, ?_, fun h1 h2 => ⟨f / g, ?_, ?_, ?_, by positivity, div_le_self h1 h2, by field_simp⟩⟩
  · unfold fyd raiseIf
    by_cases a : f < 0 <;> by_cases b : g < 1 <;> simp [a, b, bind, Except.bind, pure, Except.pure]
  · unfold eps_ud raiseIf
    by_cases a : f < 0 <;> by_cases b : g < 1 <;> simp [a, b, bind, Except.bind, pure, Except.pure]
  · unfold fpd raiseIf
    by_cases a : f < 0 <;> by_cases b : g < 1 <;> simp [a, b, bind, Except.bind, pure, Except.pure]
  · simp [fyd, raiseIf, not_lt.2 h1, not_lt.2 h2, bind, Except.bind, pure, Except.pure]
  · simp [eps_ud, raiseIf, not_lt.2 h1, not_lt.2 h2, bind, Except.bind, pure, Except.pure]
  · simp [fpd, raiseIf, not_lt.2 h1, not_lt.2 h2, bind, Except.bind, pure, Except.pure]

/-- **C44 (prestressing classes).** For every pair of strings that is accepted, `0 < fp01k < fpk`. -/
theorem C44_p_steel (c e : List Char) (r : ℝ × ℝ) (h : p_steel_stress_params c e = .ok r) : 0 < r.1 ∧ r.1 < r.2 := by
  unfold p_steel_stress_params at h
  cases ht : tendon e with
  | error x => rw [ht] at h; cases h
  | ok t =>
    rw [ht] at h
    simp only at h
    cases hf : (prestressTable t).find? (fun r => r.1 = pyStrip (pyUpper c)) with
    | none => rw [hf] at h; cases h
    | some x =>
      rw [hf] at h
      cases h
      have hm := List.mem_of_find?_eq_some hf
      cases t <;> simp only [prestressTable, List.mem_cons, List.not_mem_nil, or_false] at hm <;>
        rcases hm with h | h | h | h <;> rw [h] <;> norm_num

/-- Classes of prestressing steel by element letter: wires `W`, strands `S`, bars `B` (table 5.6). -/
def classesOf (e : Char) : List ℕ :=
  if e = 'W' then [1570, 1670, 1770, 1860] else if e = 'S' then [1770, 1860, 1960, 2060] else if e = 'B' then [1030, 1050, 1100, 1230] else []

/-- **C44 (prestressing classes, names).** Exactly the listed classes are accepted for wires, strands and bars; the tensile strength
is the number in the name of the class and the proof strength between 80 % and 91 % of it. -/
theorem C44_p_steel_names (c e : List Char) :
    (∀ l ∈ ['W', 'S', 'B'], pyStrip (pyUpper e) = [l] → ∀ k ∈ classesOf l, pyStrip (pyUpper c) = 'Y' :: Nat.toDigits 10 k →
      ∃ r, p_steel_stress_params c e = .ok r ∧ r.2 = k ∧ 0.8 * r.2 ≤ r.1 ∧ r.1 ≤ 0.91 * r.2) ∧
    ((∀ l ∈ ['W', 'S', 'B'], pyStrip (pyUpper e) = [l] → ∀ k ∈ classesOf l, pyStrip (pyUpper c) ≠ 'Y' :: Nat.toDigits 10 k) →
      p_steel_stress_params c e = .error .valueError) := by
  have n1 : "Y1570".toList = 'Y' :: Nat.toDigits 10 1570 := by decide
  have n2 : "Y1670".toList = 'Y' :: Nat.toDigits 10 1670 := by decide
  have n3 : "Y1770".toList = 'Y' :: Nat.toDigits 10 1770 := by decide
  have n4 : "Y1860".toList = 'Y' :: Nat.toDigits 10 1860 := by decide
  have n5 : "Y1960".toList = 'Y' :: Nat.toDigits 10 1960 := by decide
  have n6 : "Y2060".toList = 'Y' :: Nat.toDigits 10 2060 := by decide
  have n7 : "Y1030".toList = 'Y' :: Nat.toDigits 10 1030 := by decide
  have n8 : "Y1050".toList = 'Y' :: Nat.toDigits 10 1050 := by decide
  have n9 : "Y1100".toList = 'Y' :: Nat.toDigits 10 1100 := by decide
  have n0 : "Y1230".toList = 'Y' :: Nat.toDigits 10 1230 := by decide
  constructor
  · intro l hl he k hk hc
    simp only [p_steel_stress_params, tendon, he, hc]
    simp only [List.mem_cons, List.not_mem_nil, or_false] at hl
    rcases hl with rfl | rfl | rfl <;>
      simp only [classesOf, Char.reduceEq, if_true, if_false, List.mem_cons, List.not_mem_nil, or_false] at hk <;>
      rcases hk with rfl | rfl | rfl | rfl
    all_goals
      simp only [List.cons.injEq, Char.reduceEq, and_true, if_true, if_false, prestressTable, List.find?_cons]
      simp (decide := true) only [decide_true, decide_false]
      norm_num
  · intro h
    unfold p_steel_stress_params tendon
    simp only
    split_ifs with g1 g2 g3
    · have := h 'W' (by simp) g1
      simp only [classesOf, if_true, List.mem_cons, List.not_mem_nil, or_false, forall_eq_or_imp, forall_eq] at this
      simp only [prestressTable, List.find?_cons, n1, n2, n3, n4]
      simp [this.1.symm, this.2.1.symm, this.2.2.1.symm, this.2.2.2.symm]
    · have := h 'S' (by simp) g2
      simp only [classesOf, Char.reduceEq, if_true, if_false, List.mem_cons, List.not_mem_nil, or_false, forall_eq_or_imp, forall_eq] at this
      simp only [prestressTable, List.find?_cons, n3, n4, n5, n6]
      simp [this.1.symm, this.2.1.symm, this.2.2.1.symm, this.2.2.2.symm]
    · have := h 'B' (by simp) g3
      simp only [classesOf, Char.reduceEq, if_true, if_false, List.mem_cons, List.not_mem_nil, or_false, forall_eq_or_imp, forall_eq] at this
      simp only [prestressTable, List.find?_cons, n7, n8, n9, n0]
      simp [this.1.symm, this.2.1.symm, this.2.2.1.symm, this.2.2.2.symm]
    · rfl

example : ∃ r, p_steel_stress_params "y1860".toList "s ".toList = .ok r ∧ r.2 = 1860 := by
  obtain ⟨r, h, h2, -⟩ := (C44_p_steel_names "y1860".toList "s ".toList).1 'S' (by simp) (by decide) 1860 (by simp [classesOf]) (by decide)
  exact ⟨r, h, by simpa using h2⟩

/-- **C44, violated.** The documented class `Y1560` is rejected for every element: the tables contain `Y1570` instead. -/
theorem C44_Y1560_violated (e : List Char) : p_steel_stress_params "Y1560".toList e = .error .valueError := by
  unfold p_steel_stress_params
  have hs : pyStrip (pyUpper "Y1560".toList) = "Y1560".toList := by decide
  cases ht : tendon e with
  | error x =>
    have : x = .valueError := by
      unfold tendon at ht; simp only at ht; split_ifs at ht; cases ht; rfl
    rw [this]
  | ok t =>
    simp only [hs]
    have : (prestressTable t).find? (fun r => r.1 = "Y1560".toList) = none := by
      rw [List.find?_eq_none]
      intro x hx
      cases t <;> simp only [prestressTable, List.mem_cons, List.not_mem_nil, or_false] at hx <;>
        rcases hx with h | h | h | h <;> rw [h] <;> simp <;> decide
    rw [this]

/-- **C44, violated.** The coefficients of thermal expansion are ten times the value `10e-6` of 5.1.6(6) and 5.2.4(5): the code computes
`10 * 10e-6 = 1e-4`. -/
theorem C44_thermal_violated : alpha_c_th = 10 * (10 * 1e-6) ∧ alpha_s_th = 10 * (10 * 1e-6) := by
  constructor <;> norm_num [alpha_c_th, alpha_s_th]

/-- **C44 (ductility classes).** The tensile strength exceeds the yield strength, the classes are ordered. -/
theorem C44_ductility (f : ℝ) (hf : 0 < f) (c : List Char) (r : ℝ × ℝ) (h : reinforcement_duct_props f c = .ok r) :
    f < r.2 ∧ 0.025 ≤ r.1 ∧ r.1 ≤ 0.075 ∧ (pyUpper c = ['A'] ∨ pyUpper c = ['B'] ∨ pyUpper c = ['C']) := by
  unfold reinforcement_duct_props at h
  simp only at h
  split_ifs at h with h1 h2 h3 <;> cases h <;> refine ⟨by simp only; linarith, by norm_num, by norm_num, ?_⟩ <;> simp [*]

/-! ### Serviceability -/

/-- **C44 (effective modulus).** `alpha_c` is between 1 and 1.25; the effective modulus never increases with creep. -/
theorem C44_Ec_eff (f p p' kE : ℝ) (hf : 0 ≤ f) (hp : 0 ≤ p) (hpp : p ≤ p') (hk : 0 ≤ kE) :
    1 ≤ alpha_c f ∧ alpha_c f ≤ 1.25 ∧ Ec_eff f p' kE ≤ Ec_eff f p kE ∧ 0 ≤ Ec_eff f p' kE ∧
    (88 ≤ f → alpha_c f = 1) := by
  have h1 : 1 ≤ alpha_c f := le_max_right _ _
  have h2 : alpha_c f ≤ 1.25 := by
    refine max_le ?_ (by norm_num)
    rw [div_le_iff₀ (by positivity)]
    have : 0 ≤ 0.2 * f / 88 := by positivity
    linarith
  have hr := Real.rpow_nonneg hf ((1 : ℝ) / 3)
  have h0 : 0 ≤ alpha_c f * (kE * f ^ ((1 : ℝ) / 3)) := by have : 0 ≤ alpha_c f := by linarith
                                                           positivity
  refine ⟨h1, h2, ?_, div_nonneg h0 (by linarith), fun h => ?_⟩
  · exact div_le_div_of_nonneg_left h0 (by linarith) (by linarith)
  · apply max_eq_right
    rw [div_le_one (by positivity)]
    have : 1 ≤ f / 88 := (one_le_div (by norm_num)).2 h
    have : 0.2 * f / 88 = 0.2 * (f / 88) := by ring
    linarith

/-- **C44 (minimum reinforcement).** For every axial force both areas are non-negative and the second at most the first; the first is
at most the value of pure tension (9.3), and in pure bending it is the value of (9.2), with nothing on the other side. -/
theorem C44_As_min_y (N b h f fy : ℝ) (hb : 0 ≤ b) (hh : 0 ≤ h) (hf : 0 ≤ f) (hy : 0 < fy) :
    0.5 ≤ kh b h ∧ kh b h ≤ 0.8 ∧ 0 ≤ (As_min_y N b h f fy).2 ∧ (As_min_y N b h f fy).2 ≤ (As_min_y N b h f fy).1 ∧
    (As_min_y N b h f fy).1 ≤ 0.5 * kh b h * f * b * h / fy * 1e4 ∧
    As_min_y 0 b h f fy = (0.2 * kh b h * f * b * h / fy * 1e4, 0) := by
  have k1 : 0.5 ≤ kh b h := le_min (le_max_right _ _) (by norm_num)
  have k2 : kh b h ≤ 0.8 := min_le_right _ _
  have k0 : 0 ≤ kh b h := by linarith
  have hx : 0 ≤ 0.5 * kh b h * f * b * h / fy := by positivity
  have ha : 0 ≤ (As_min_y N b h f fy).1 := by
    simp only [As_min_y]
    have : 0 ≤ min (max ((0.3 * N / 1000 + 0.2 * kh b h * f * b * h) / fy) 0) (0.5 * kh b h * f * b * h / fy) :=
      le_min (le_max_right _ _) hx
    positivity
  refine ⟨k1, k2, le_min (le_max_right _ _) ha, min_le_right _ _, ?_, ?_⟩
  · simp only [As_min_y]
    exact mul_le_mul_of_nonneg_right (min_le_right _ _) (by norm_num)
  · have h1 : 0 ≤ kh b h * f * b * h := by positivity
    have e : min (max ((0.3 * 0 / 1000 + 0.2 * kh b h * f * b * h) / fy) 0) (0.5 * kh b h * f * b * h / fy) =
        0.2 * kh b h * f * b * h / fy := by
      rw [show (0.3 * 0 / 1000 + 0.2 * kh b h * f * b * h) = 0.2 * kh b h * f * b * h by ring, max_eq_left (by positivity),
        min_eq_left]
      apply div_le_div_of_nonneg_right _ hy.le
      linarith
    simp only [As_min_y]
    rw [e]
    congr 1
    have : 0 ≤ 0.2 * kh b h * f * b * h / fy * 1e4 := by positivity
    rw [max_eq_right (by rw [zero_div, zero_mul]; linarith), min_eq_left this]

/-- **C44 (crack width).** For admissible inputs the four values returned together are consistent: the width is the product of the
others, all are non-negative, the curvature factor is at least 1, the spacing at most `1.3 (h - x) / kw`, and the strain
difference lies between `(1 - kt) sigma_s / Es` and `sigma_s / Es`. -/
theorem C44_wk (kw h xg hc c kb p ρ x s kt f a E : ℝ) (hkw : 0 < kw) (hc0 : 0 ≤ c) (hkb : 0 ≤ kb) (hp : 0 ≤ p) (hρ : 0 < ρ)
    (hx : c + p / 2 + x < h) (hs : 0 ≤ s) (hkt : 0 ≤ kt) (hkt1 : kt ≤ 1) (hf : 0 ≤ f) (ha : 0 ≤ a) (hE : 0 < E) :
    ∃ w k sr e, wk_cal kw h xg hc c kb p ρ x s kt f a E = (w, k, sr, e) ∧ w = wk_cal2 kw k sr e ∧ 1 ≤ k ∧ 0 ≤ sr ∧
      sr ≤ 1.3 / kw * (h - x) ∧ (1 - kt) * s / E ≤ e ∧ e ≤ s / E ∧ 0 ≤ w := by
  refine ⟨_, _, _, _, rfl, rfl, ?_, ?_, min_le_right _ _, le_max_right _ _, ?_, ?_⟩
  · unfold k_1_r; rw [one_le_div (by linarith)]; have : 0 ≤ c + p / 2 := by positivity
    linarith
  · refine le_min ?_ ?_
    · have : 0 ≤ kfl h xg hc := le_max_of_le_right (by norm_num)
      positivity
    · have : 0 ≤ h - x := by have : 0 ≤ c + p / 2 := by positivity
                             linarith
      positivity
  · have hb : 0 ≤ kt * f / ρ * (1 + a * ρ) := by positivity
    refine max_le ?_ ?_
    · apply div_le_div_of_nonneg_right _ hE.le; linarith
    · apply div_le_div_of_nonneg_right _ hE.le; nlinarith
  · have h1 : 0 ≤ k_1_r h x (c + p / 2) := by
      have : 0 ≤ c + p / 2 := by positivity
      exact div_nonneg (by linarith) (by linarith)
    have h2 : 0 ≤ srm_cal c (kfl h xg hc) kb p ρ kw h x := by
      refine le_min ?_ ?_
      · have : 0 ≤ kfl h xg hc := le_max_of_le_right (by norm_num)
        positivity
      · have : 0 ≤ h - x := by have : 0 ≤ c + p / 2 := by positivity
                               linarith
        positivity
    have h3 : 0 ≤ epssm_epscm s kt f ρ a E := le_max_of_le_right (by have : 0 ≤ 1 - kt := by linarith
                                                                     positivity)
    positivity

example : ∃ kw h c kb p ρ x s kt f a E : ℝ, 0 < kw ∧ 0 ≤ c ∧ 0 ≤ kb ∧ 0 ≤ p ∧ 0 < ρ ∧ c + p / 2 + x < h ∧ 0 ≤ s ∧ 0 ≤ kt ∧ kt ≤ 1 ∧
    0 ≤ f ∧ 0 ≤ a ∧ 0 < E :=
  ⟨1.7, 500, 30, 0.9, 16, 0.02, 150, 250, 0.4, 2.9, 6.5, 200000, by norm_num, by norm_num, by norm_num, by norm_num, by norm_num,
    by norm_num, by norm_num, by norm_num, by norm_num, by norm_num, by norm_num, by norm_num⟩

/-- **C44 (deflections).** Below the cracking moment the deflection is the elastic one plus shrinkage; from the cracking moment on the
interpolation coefficient is in `[1/2, 1)`, so the stiffness factor is a mean of 1 and `Ig/Icr`. -/
theorem C44_delta (dl ds fck p b h d A M : ℝ) (hM : 0 < M) (hc : 0 < Mcr fck b h) :
    (M < Mcr fck b h → delta_simpl dl ds fck p b h d A M = dl + ds) ∧
    (Mcr fck b h ≤ M → ∃ z, 1 / 2 ≤ z ∧ z < 1 ∧ delta_simpl dl ds fck p b h d A M =
      (z * IgIcr fck p b h d A + (1 - z)) *
        (dl + (455 * (A / b / d * 1e-4) ^ 2 - 35 * (A / b / d * 1e-4) + 1.6) * ds)) := by
  constructor
  · intro h1; simp only [delta_simpl, if_pos h1]; norm_num
  · intro h1
    refine ⟨1 - 0.5 * (Mcr fck b h / M) ^ 2, ?_, ?_, by simp only [delta_simpl, if_neg (not_lt.2 h1)]⟩
    · have : Mcr fck b h / M ≤ 1 := (div_le_one hM).2 h1
      have h2 : 0 ≤ Mcr fck b h / M := by positivity
      have : (Mcr fck b h / M) ^ 2 ≤ 1 := pow_le_one₀ h2 this
      linarith
    · have : 0 < (Mcr fck b h / M) ^ 2 := by positivity
      linarith

end SC.EC2_2023
