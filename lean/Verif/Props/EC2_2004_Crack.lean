import Verif.Model.EC2_2004Crack
import Mathlib.Analysis.SpecialFunctions.Trigonometric.Basic
import Mathlib.Analysis.SpecialFunctions.Pow.Real

/-! # C43: crack control of EC2 2004 -/

set_option autoImplicit false

namespace SC.EC2_2004

/-! ### Allowed crack width -/

/-- **C43 (allowed width).** The value depends on the load combination and the exposure class exactly as in Table 7.1N,
whatever their case and surrounding blanks; every other pair raises a `ValueError`. -/
theorem C43_w_max (e l : List Char) :
    (pyStrip (pyLower l) = ['f'] → pyStrip (pyUpper e) ∈ classesLow ++ classesMid → w_max e l = .ok 0.2) ∧
    (pyStrip (pyLower l) = ['q', 'p'] → pyStrip (pyUpper e) ∈ classesLow → w_max e l = .ok 0.4) ∧
    (pyStrip (pyLower l) = ['q', 'p'] → pyStrip (pyUpper e) ∈ classesMid ++ classesHigh → w_max e l = .ok 0.3) ∧
    ((pyStrip (pyLower l) ≠ ['f'] ∧ pyStrip (pyLower l) ≠ ['q', 'p']) ∨
      pyStrip (pyUpper e) ∉ classesLow ++ classesMid ++ classesHigh ∨
      (pyStrip (pyLower l) = ['f'] ∧ pyStrip (pyUpper e) ∈ classesHigh) → w_max e l = .error .valueError) := by
  unfold w_max
  simp only
  generalize pyStrip (pyLower l) = lc
  generalize pyStrip (pyUpper e) = ec
  have hd : ∀ c ∈ classesLow, c ∉ classesMid ++ classesHigh := by decide
  have hd2 : ∀ c ∈ classesHigh, c ∉ classesLow ∧ c ∉ classesMid := by decide
  refine ⟨fun h1 h2 => ?_, fun h1 h2 => ?_, fun h1 h2 => ?_, fun h => ?_⟩
  · rcases List.mem_append.1 h2 with h | h <;> simp [h1, h]
  · rw [h1]; simp [h2]
  · rw [h1]
    have : ec ∉ classesLow := fun hc => hd ec hc h2
    rw [if_neg (by decide +revert), if_neg (by decide +revert), if_pos rfl, if_neg this, if_pos h2]
  · rcases h with ⟨h1, h2⟩ | h | ⟨h1, h2⟩
    · simp [h1, h2]
    · have hl : ec ∉ classesLow := fun h' => h (by simp [h'])
      have hm : ec ∉ classesMid := fun h' => h (by simp [h'])
      have hh : ec ∉ classesHigh := fun h' => h (by simp [h'])
      simp [hl, hm, hh]
    · obtain ⟨hl, hm⟩ := hd2 ec h2
      rw [h1, if_neg (by simp [hl]), if_neg (by simp [hm]), if_neg (by decide)]

example : w_max ['x', 'c', '1', ' '] ['Q', 'P'] = .ok 0.4 := (C43_w_max _ _).2.1 (by decide) (by decide)

/-! ### Coefficients -/

/-- **C43 (k).** A negative size raises; otherwise 1 up to 300, 0.65 from 800, the chord between, hence within
`[0.65, 1]`, and never increasing. -/
theorem C43_k (h : ℝ) : (h < 0 ↔ k h = .error .valueError) ∧
    (0 ≤ h → k h = .ok (max 0.65 (min 1 (1 - 0.35 * (h - 300) / 500)))) ∧
    (∀ r, k h = .ok r → 0.65 ≤ r ∧ r ≤ 1) ∧ (∀ h' r r', h ≤ h' → k h = .ok r → k h' = .ok r' → r' ≤ r) := by
  have key : ∀ h, 0 ≤ h → k h = .ok (max 0.65 (min 1 (1 - 0.35 * (h - 300) / 500))) := fun h h0 => by
    unfold k
    rw [if_neg (not_lt.2 h0)]
    split_ifs with h1 h2
    · rw [min_eq_left (by linarith), max_eq_right (by norm_num)]
    · push Not at h1
      rw [min_eq_right (by linarith), max_eq_right (by linarith)]
      congr 1; ring
    · push Not at h1 h2
      rw [min_eq_right (by linarith), max_eq_left (by linarith)]
  have neg : ∀ h, h < 0 → k h = .error .valueError := fun h h0 => by unfold k; rw [if_pos h0]
  have nn : ∀ h r, k h = .ok r → 0 ≤ h := fun h r hr => by
    by_contra hn; rw [neg h (not_le.1 hn)] at hr; cases hr
  refine ⟨⟨neg h, fun he => ?_⟩, key h, fun r hr => ?_, fun h' r r' hh hr hr' => ?_⟩
  · by_contra hn; rw [key h (not_lt.1 hn)] at he; cases he
  · rw [key h (nn h r hr)] at hr; cases hr
    exact ⟨le_max_left _ _, max_le (by norm_num) (min_le_left _ _)⟩
  · rw [key h (nn h r hr)] at hr; rw [key h' (nn h' r' hr')] at hr'; cases hr; cases hr'
    apply max_le_max_left; apply min_le_min_left; linarith

/-- Success of `kc_rect_area`. -/
theorem kc_rect_ok {h b f N r : ℝ} (hr : kc_rect_area h b f N = .ok r) : 0 ≤ r ∧ r ≤ 1 ∧ 0 < h ∧ 0 < b ∧ f ≠ 0 := by
  simp only [kc_rect_area, except_bind_ok, pyDiv_eq_ok, except_pure_ok, raiseIf_ok] at hr
  obtain ⟨-, h1, -, h2, k1, -, s0, ⟨h3, -⟩, s, ⟨h4, -⟩, -, -, -, -, -, -, -, ⟨h5, -⟩, rfl⟩ := hr
  exact ⟨le_min (le_max_right _ _) (by norm_num), min_le_right _ _, lt_of_le_of_ne (not_lt.1 h1) (Ne.symm h4),
    lt_of_le_of_ne (not_lt.1 h2) (Ne.symm h3), h5⟩

/-- **C43 (kc, rectangles).** Every returned value is in `[0, 1]`; it is `0.4 (1 - sigma_c / (k1 (h / h*) fct_eff))`
limited to that range; without axial force it is 0.4; zero sizes or strength raise `ZeroDivisionError`, negative
sizes `ValueError`. -/
theorem C43_kc_rect (h b f N : ℝ) :
    (∀ r, kc_rect_area h b f N = .ok r → 0 ≤ r ∧ r ≤ 1) ∧
    (h < 0 ∨ b < 0 → kc_rect_area h b f N = .error .valueError) ∧
    (0 < h → 0 < b → f ≠ 0 → 0 ≤ N → kc_rect_area h b f N =
      .ok (min (max (0.4 * (1 - N * 1000 / (b * h) / (1.5 * (h / min h 1000) * f))) 0) 1)) ∧
    (0 < h → 0 < b → f ≠ 0 → N < 0 → kc_rect_area h b f N =
      .ok (min (max (0.4 * (1 - N * 1000 / (b * h) / (2 / 3 * f))) 0) 1)) ∧
    (0 < h → 0 < b → f ≠ 0 → kc_rect_area h b f 0 = .ok 0.4) ∧
    (0 ≤ h → 0 ≤ b → h = 0 ∨ b = 0 ∨ f = 0 → kc_rect_area h b f N = .error .zeroDivision) := by
  have hpos : 0 < h → 0 < b → f ≠ 0 → 0 ≤ N → kc_rect_area h b f N =
      .ok (min (max (0.4 * (1 - N * 1000 / (b * h) / (1.5 * (h / min h 1000) * f))) 0) 1) := by
    intro h0 b0 f0 hN
    have hs : 0 < min h 1000 := lt_min h0 (by norm_num)
    simp only [kc_rect_area, except_bind_ok, pyDiv_eq_ok, except_pure_ok, raiseIf_ok]
    refine ⟨(), not_lt.2 h0.le, (), not_lt.2 b0.le, 1.5, by rw [kcK1, if_pos hN], _, ⟨b0.ne', rfl⟩, _, ⟨h0.ne', rfl⟩, _,
      ⟨hs.ne', rfl⟩, _, ⟨by norm_num, rfl⟩, _, ⟨by positivity, rfl⟩, _, ⟨f0, rfl⟩, ?_⟩
    congr 4
    field_simp
  refine ⟨fun r hr => ⟨(kc_rect_ok hr).1, (kc_rect_ok hr).2.1⟩, fun hh => ?_, hpos, fun h0 b0 f0 hN => ?_,
    fun h0 b0 f0 => ?_, fun h0 b0 hz => ?_⟩
  · by_cases h1 : h < 0
    · simp [kc_rect_area, raiseIf, h1, bind, Except.bind]
    · simp [kc_rect_area, raiseIf, h1, hh.resolve_left h1, bind, Except.bind]
  · have hs : 0 < min h 1000 := lt_min h0 (by norm_num)
    simp only [kc_rect_area, except_bind_ok, pyDiv_eq_ok, except_pure_ok, raiseIf_ok]
    refine ⟨(), not_lt.2 h0.le, (), not_lt.2 b0.le, 2 * min h 1000 / 3 / h, ?_, _, ⟨b0.ne', rfl⟩, _, ⟨h0.ne', rfl⟩, _,
      ⟨hs.ne', rfl⟩, _, ⟨by positivity, rfl⟩, _, ⟨by positivity, rfl⟩, _, ⟨f0, rfl⟩, ?_⟩
    · rw [kcK1, if_neg (not_le.2 hN), pyDiv_ok h0.ne']
    · congr 4
      field_simp
  · have := hpos
    have hs : 0 < min h 1000 := lt_min h0 (by norm_num)
    simp only [kc_rect_area, except_bind_ok, pyDiv_eq_ok, except_pure_ok, raiseIf_ok]
    refine ⟨(), not_lt.2 h0.le, (), not_lt.2 b0.le, 1.5, by rw [kcK1, if_pos le_rfl], _, ⟨b0.ne', rfl⟩, _, ⟨h0.ne', rfl⟩, _,
      ⟨hs.ne', rfl⟩, _, ⟨by norm_num, rfl⟩, _, ⟨by positivity, rfl⟩, _, ⟨f0, rfl⟩, ?_⟩
    norm_num
  · cases hr : kc_rect_area h b f N with
    | ok r =>
      obtain ⟨-, -, p1, p2, p3⟩ := kc_rect_ok hr
      rcases hz with hz | hz | hz
      · exact absurd hz p1.ne'
      · exact absurd hz p2.ne'
      · exact absurd hz p3
    | error e =>
      have hk : ∀ e', kcK1 h N = .error e' → e' = .zeroDivision := fun e' he => by
        unfold kcK1 at he; split_ifs at he; exact (pyDiv_eq_error.1 he).2
      simp only [kc_rect_area, except_bind_error, pyDiv_eq_error, raiseIf_error, except_pure_error] at hr
      grind

/-- **C43 (kc, flanges), partial.** At least 0.5. (Missing: the documented `ValueError` for a negative area.) -/
theorem C43_kc_flanges_partial (F A f r : ℝ) (hr : kc_flanges_area F A f = .ok r) : 0.5 ≤ r := by
  simp only [kc_flanges_area, except_bind_ok, pyDiv_eq_ok, except_pure_ok] at hr
  obtain ⟨a, -, c, -, rfl⟩ := hr
  exact le_max_right _ _

/-- **C43, violated.** A negative area, for which a `ValueError` is documented, is accepted. -/
theorem C43_kc_flanges_violated : kc_flanges_area 100 (-1000) 2.9 = .ok 0.5 := by
  simp only [kc_flanges_area, except_bind_ok, pyDiv_eq_ok, except_pure_ok]
  refine ⟨_, ⟨by norm_num, rfl⟩, _, ⟨by norm_num, rfl⟩, ?_⟩
  rw [max_eq_right]
  rw [abs_of_pos] <;> norm_num

/-- **C43 (effective height).** Inputs outside `0 ≤ d, x ≤ h` raise; the result is non-negative and at most each of
the three code limits, one of which it equals. -/
theorem C43_hc_eff (h d x : ℝ) :
    (h < 0 ∨ d < 0 ∨ x < 0 ∨ d > h ∨ x > h ↔ hc_eff h d x = .error .valueError) ∧
    (∀ r, hc_eff h d x = .ok r → 0 ≤ r ∧ r ≤ 2.5 * (h - d) ∧ r ≤ (h - x) / 3 ∧ r ≤ h / 2 ∧
      (r = 2.5 * (h - d) ∨ r = (h - x) / 3 ∨ r = h / 2)) := by
  constructor
  · unfold hc_eff raiseIf
    by_cases h1 : h < 0 <;> by_cases h2 : d < 0 <;> by_cases h3 : x < 0 <;> by_cases h4 : d > h <;> by_cases h5 : x > h <;>
      simp [h1, h2, h3, h4, h5, bind, Except.bind, pure, Except.pure]
  · intro r hr
    simp only [hc_eff, except_bind_ok, except_pure_ok, raiseIf_ok] at hr
    obtain ⟨-, h1, -, h2, -, h3, -, h4, -, h5, rfl⟩ := hr
    push Not at h1 h2 h3 h4 h5
    refine ⟨le_min (le_min (by linarith) (by linarith)) (by linarith), (min_le_left _ _).trans (min_le_left _ _),
      (min_le_left _ _).trans (min_le_right _ _), min_le_right _ _, ?_⟩
    rcases min_choice (min (2.5 * (h - d)) ((h - x) / 3)) (h / 2) with e | e
    · rw [e]
      rcases min_choice (2.5 * (h - d)) ((h - x) / 3) with e | e <;> rw [e] <;> simp
    · rw [e]; simp

/-! ### Minimum reinforcement -/

theorem As_min_ok {A s f k kc r : ℝ} : As_min A s f k kc = .ok r ↔
    0 < A ∧ 0 < s ∧ 0.65 ≤ k ∧ k ≤ 1 ∧ 0 ≤ kc ∧ kc ≤ 1 ∧ kc * k * |f| * A / s = r := by
  simp only [As_min, except_bind_ok, pyDiv_eq_ok, raiseIf_ok]
  constructor
  · rintro ⟨-, h1, -, h2, -, h3, -, h4, h5, rfl⟩
    push Not at h1 h2 h3 h4
    exact ⟨h1, lt_of_le_of_ne h2 (Ne.symm h5), h3.1, h3.2, h4.2, h4.1, rfl⟩
  · rintro ⟨h1, h2, h3, h4, h5, h6, rfl⟩
    refine ⟨(), not_le.2 h1, (), not_lt.2 h2.le, (), ?_, (), ?_, h2.ne', rfl⟩
    · push Not; exact ⟨h3, h4⟩
    · push Not; exact ⟨h6, h5⟩

/-- **C43 (minimum reinforcement).** Succeeds exactly for positive area and stress and coefficients in range; the result
is non-negative, balances the tensile force of the concrete, does not depend on the sign of the strength, and never
increases with the steel stress. The coefficients computed by `k` and `kc_rect_area` are always accepted. -/
theorem C43_As_min (A s s' f k' kc : ℝ) (hA : 0 < A) (hs : 0 < s) (hss : s ≤ s') (hk : 0.65 ≤ k' ∧ k' ≤ 1)
    (hc : 0 ≤ kc ∧ kc ≤ 1) :
    ∃ r r', As_min A s f k' kc = .ok r ∧ As_min A s' f k' kc = .ok r' ∧ 0 ≤ r ∧ r * s = kc * k' * |f| * A ∧ r' ≤ r ∧
      As_min A s (-f) k' kc = .ok r := by
  have hkk : 0 ≤ k' := by linarith [hk.1]
  have := hc.1
  refine ⟨_, _, As_min_ok.2 ⟨hA, hs, hk.1, hk.2, hc.1, hc.2, rfl⟩,
    As_min_ok.2 ⟨hA, hs.trans_le hss, hk.1, hk.2, hc.1, hc.2, rfl⟩, by positivity, by field_simp, ?_,
    As_min_ok.2 ⟨hA, hs, hk.1, hk.2, hc.1, hc.2, by rw [abs_neg]⟩⟩
  apply div_le_div_of_nonneg_left (by positivity) hs hss

/-- **C43 (the coefficients fit together).** Whatever `k` and `kc_rect_area` return is accepted by `As_min`. -/
theorem C43_As_min_chain (A s f h h' b fct N kk kc : ℝ) (hA : 0 < A) (hs : 0 < s) (hk : k h = .ok kk)
    (hc : kc_rect_area h' b fct N = .ok kc) : ∃ r, As_min A s f kk kc = .ok r ∧ 0 ≤ r := by
  obtain ⟨r, -, h1, -, h2, -⟩ := C43_As_min A s s f kk kc hA hs le_rfl ((C43_k h).2.2.1 kk hk)
    ((C43_kc_rect h' b fct N).1 kc hc)
  exact ⟨r, h1, h2⟩

example : ∃ kk kc, k 500 = .ok kk ∧ kc_rect_area 500 300 2.9 100 = .ok kc :=
  ⟨_, _, (C43_k 500).2.1 (by norm_num), (C43_kc_rect 500 300 2.9 100).2.2.1 (by norm_num) (by norm_num) (by norm_num) (by norm_num)⟩

/-- **C43 (invalid input of `As_min`).** Each documented condition raises a `ValueError`. -/
theorem C43_As_min_error (A s f k' kc : ℝ) (h : A ≤ 0 ∨ s < 0 ∨ (k' < 0.65 ∨ k' > 1) ∨ (kc > 1 ∨ kc < 0)) :
    As_min A s f k' kc = .error .valueError := by
  unfold As_min raiseIf
  by_cases h1 : A ≤ 0 <;> by_cases h2 : s < 0 <;> by_cases h3 : (k' < 0.65 ∨ k' > 1) <;>
    by_cases h4 : (kc > 1 ∨ kc < 0) <;> simp only [h1, h2, h3, h4, if_true, if_false, bind, Except.bind]
  all_goals exact absurd h (by simp [h1, h2, h3, h4])

/-- **C43, violated.** A steel stress of 0, documented as allowed ("equal or larger than 0"), raises
`ZeroDivisionError`. -/
theorem C43_As_min_violated (A f k' kc : ℝ) (hA : 0 < A) (hk : 0.65 ≤ k' ∧ k' ≤ 1) (hc : 0 ≤ kc ∧ kc ≤ 1) :
    As_min A 0 f k' kc = .error .zeroDivision := by
  have h3 : ¬ (k' < 0.65 ∨ k' > 1) := by push Not; exact hk
  have h4 : ¬ (kc > 1 ∨ kc < 0) := by push Not; exact ⟨hc.2, hc.1⟩
  simp only [As_min, raiseIf, not_le.2 hA, h3, h4, lt_irrefl, if_false, bind, Except.bind, pyDiv, if_true]

theorem xi1_ok {xi p s r : ℝ} (h : xi1 xi p s = .ok r) : 0 < p ∧ 0 ≤ s ∧ 0.15 ≤ xi ∧ xi ≤ 0.8 ∧ 0 < r ∧
    r ^ 2 = if s > 0 then xi * s / p else xi := by
  simp only [xi1, except_bind_ok, except_pure_ok, raiseIf_ok] at h
  obtain ⟨-, h1, -, h2, -, h3, -, h4, rfl⟩ := h
  push Not at h1 h2 h3 h4
  have hx : 0 < xi := by linarith
  refine ⟨h1, h2, h3, h4, ?_, ?_⟩
  · split_ifs with hs
    · exact Real.rpow_pos_of_pos (by positivity) _
    · exact Real.rpow_pos_of_pos hx _
  · split_ifs with hs
    · rw [← Real.rpow_natCast, ← Real.rpow_mul (by positivity)]; norm_num
    · rw [← Real.rpow_natCast, ← Real.rpow_mul hx.le]; norm_num

/-- **C43 (bond ratio).** Success means the documented ranges; the square of the result is `xi phi_s / phi_p`, or `xi` when only
prestressing steel is used. -/
theorem C43_xi1 (xi p s : ℝ) : (∀ r, xi1 xi p s = .ok r → 0 < p ∧ 0 ≤ s ∧ 0.15 ≤ xi ∧ xi ≤ 0.8 ∧ 0 < r ∧
      (0 < s → r ^ 2 = xi * s / p) ∧ (s = 0 → r ^ 2 = xi)) ∧
    (0 < p → 0 ≤ s → 0.15 ≤ xi → xi ≤ 0.8 → ∃ r, xi1 xi p s = .ok r) := by
  constructor
  · intro r hr
    obtain ⟨h1, h2, h3, h4, h5, h6⟩ := xi1_ok hr
    exact ⟨h1, h2, h3, h4, h5, fun hs => by rw [h6, if_pos hs], fun hs => by rw [h6, hs, if_neg (lt_irrefl _)]⟩
  · intro h1 h2 h3 h4
    refine ⟨if s > 0 then (xi * s / p) ^ (0.5 : ℝ) else xi ^ (0.5 : ℝ), ?_⟩
    simp only [xi1, except_bind_ok, except_pure_ok, raiseIf_ok]
    exact ⟨(), not_le.2 h1, (), not_lt.2 h2, (), not_lt.2 h3, (), not_lt.2 h4, trivial⟩

/-- **C43 (bonded tendons), partial.** With tendons, never more than without. (Missing: a non-negative result, see
`C43_As_min_p_violated`.) -/
theorem C43_As_min_p_partial (A s f k' kc Ap ps pp xi ds r : ℝ) (hr : As_min_p A s f k' kc Ap ps pp xi ds = .ok r) :
    ∃ r0, As_min A s f k' kc = .ok r0 ∧ r ≤ r0 ∧ (Ap = 0 ∨ ds = 0 → r = r0) := by
  simp only [As_min_p, except_bind_ok, pyDiv_eq_ok, raiseIf_ok] at hr
  obtain ⟨-, h1, -, h2, -, h3, -, h4, -, h5, -, h6, e, he, h7, rfl⟩ := hr
  push Not at h1 h2 h3 h4 h5 h6
  have hs : 0 < s := lt_of_le_of_ne h4 (Ne.symm h7)
  have he0 := (xi1_ok he).2.2.2.2.1
  refine ⟨_, As_min_ok.2 ⟨h3, hs, h5.1, h5.2, h6.2, h6.1, rfl⟩, ?_, ?_⟩
  · apply div_le_div_of_nonneg_right _ hs.le
    have : 0 ≤ e * Ap * ds := by positivity
    linarith
  · rintro (h | h) <;> rw [h] <;> simp

/-- **C43, violated.** With enough tendons the returned minimum area is negative. -/
theorem C43_As_min_p_violated : ∃ r, As_min_p 1000 200 2.9 1 1 10000 0 10 0.64 100 = .ok r ∧ r < 0 := by
  have hx : xi1 0.64 10 0 = .ok 0.8 := by
    have h : (0.64 : ℝ) ^ (0.5 : ℝ) = 0.8 := by
      rw [show (0.64 : ℝ) = 0.8 ^ (2 : ℝ) by rw [Real.rpow_two]; norm_num, ← Real.rpow_mul (by norm_num)]; norm_num
    simp only [xi1, except_bind_ok, except_pure_ok, raiseIf_ok]
    refine ⟨(), by norm_num, (), by norm_num, (), by norm_num, (), by norm_num, ?_⟩
    rw [if_neg (lt_irrefl _), h]
  refine ⟨(1 * 1 * |2.9| * 1000 - 0.8 * 10000 * 100) / 200, ?_, ?_⟩
  · simp only [As_min_p, except_bind_ok, pyDiv_eq_ok, raiseIf_ok]
    exact ⟨(), by norm_num, (), by norm_num, (), by norm_num, (), by norm_num, (), by norm_num, (), by norm_num, 0.8, hx,
      by norm_num, rfl⟩
  · rw [abs_of_pos (by norm_num)]; norm_num

/-- **C43 (tables 7.2N, 7.3N).** Whatever the interpolation of the tables: a stress increment that is not positive returns
`(0, 0)`; a point outside the tables raises; without `kc` (pure tension) the diameter is the one of `kc = 1/4`; a section with
`h = d` raises `ZeroDivisionError`; the spacing does not depend on the section, and the diameter is the interpolated one scaled
by strength, `kc` and `h_cr / (2 (h - d))`. -/
theorem C43_As_min_2 (grid : List ((ℝ × ℝ) × Option ℝ) → ℝ × ℝ → Option ℝ) (w s f hcr h d ds : ℝ) (kc : Option ℝ)
    (hw : 0 ≤ w) (hf : 0 ≤ f) (hcr0 : 0 ≤ hcr) (hh : 0 ≤ h) (hd : 0 ≤ d) (hkc : ∀ c ∈ kc, 0 ≤ c ∧ c ≤ 1) :
    (s - ds ≤ 0 → As_min_2 grid w s f hcr h d ds kc = .ok (0, 0)) ∧
    (0 < s - ds → h = d → As_min_2 grid w s f hcr h d ds kc = .error .zeroDivision) ∧
    (0 < s - ds → h ≠ d → (grid tablePhi (s - ds, w) = none ∨ grid tableSpa (s - ds, w) = none) →
      As_min_2 grid w s f hcr h d ds kc = .error .valueError) ∧
    (0 < s - ds → h ≠ d → ∀ p q, grid tablePhi (s - ds, w) = some p → grid tableSpa (s - ds, w) = some q →
      As_min_2 grid w s f hcr h d ds kc = .ok (p * (f / 2.9) * (kc.getD (1 / 4) * hcr / (2 * (h - d))), q)) := by
  have hk : ¬ ∃ c ∈ kc, c < 0 ∨ c > 1 := by
    rintro ⟨c, hc, h1 | h1⟩
    · linarith [(hkc c hc).1]
    · linarith [(hkc c hc).2]
  have e : As_min_2 grid w s f hcr h d ds kc = (if s - ds ≤ 0 then .ok (0, 0) else do
      let fac ← match kc with
        | some c => pyDiv (c * hcr) (2 * (h - d))
        | none => pyDiv hcr (8 * (h - d))
      match grid tablePhi (s - ds, w), grid tableSpa (s - ds, w) with
      | some p, some q => .ok (p * (f / 2.9) * fac, q)
      | _, _ => .error .valueError) := by
    simp only [As_min_2, raiseIf, if_neg (not_lt.2 hw), if_neg (not_lt.2 hf), if_neg (not_lt.2 hcr0), if_neg (not_lt.2 hh),
      if_neg (not_lt.2 hd), if_neg hk]
    rfl
  rw [e]
  refine ⟨fun h1 => by rw [if_pos h1], fun h1 h2 => ?_, fun h1 h2 h3 => ?_, fun h1 h2 p q hp hq => ?_⟩
  · rw [if_neg (not_le.2 h1), h2]
    cases kc <;> simp [pyDiv, bind, Except.bind]
  · have h4 : h - d ≠ 0 := sub_ne_zero.2 h2
    rw [if_neg (not_le.2 h1)]
    have h5 : (8 : ℝ) * (h - d) ≠ 0 := by positivity
    have h6 : (2 : ℝ) * (h - d) ≠ 0 := by positivity
    cases kc <;> simp only [pyDiv, h5, h6, if_false, bind, Except.bind] <;>
      (cases h7 : grid tablePhi (s - ds, w) <;> cases h8 : grid tableSpa (s - ds, w) <;> simp_all)
  · have h4 : h - d ≠ 0 := sub_ne_zero.2 h2
    rw [if_neg (not_le.2 h1), hp, hq]
    have h5 : (8 : ℝ) * (h - d) ≠ 0 := by positivity
    have h6 : (2 : ℝ) * (h - d) ≠ 0 := by positivity
    cases kc with
    | none =>
      simp only [pyDiv, h5, if_false, bind, Except.bind, Option.getD_none]
      congr 3; field_simp; ring
    | some c => simp only [pyDiv, h6, if_false, bind, Except.bind, Option.getD_some]

/-! ### Strain difference, spacing and crack width -/

theorem eps_ok {s a ρ kt f E r : ℝ} : eps_sm_eps_cm s a ρ kt f E = .ok r ↔
    0 ≤ s ∧ 0 ≤ a ∧ 0 < ρ ∧ 0 ≤ f ∧ 0 < E ∧ (kt = 0.6 ∨ kt = 0.4) ∧
    max ((s - kt * f / ρ * (1 + a * ρ)) / E) (0.6 * s / E) = r := by
  simp only [eps_sm_eps_cm, except_bind_ok, pyDiv_eq_ok, except_pure_ok, raiseIf_ok, not_not]
  constructor
  · rintro ⟨-, h1, -, h2, -, h3, -, h4, -, h5, -, h6, m, ⟨h7, rfl⟩, b, ⟨h8, rfl⟩, c, ⟨h9, rfl⟩, rfl⟩
    push Not at h1 h2 h3 h4 h5
    exact ⟨h1, h2, lt_of_le_of_ne h3 (Ne.symm h8), h4, lt_of_le_of_ne h5 (Ne.symm h7), h6, rfl⟩
  · rintro ⟨h1, h2, h3, h4, h5, h6, rfl⟩
    exact ⟨(), not_lt.2 h1, (), not_lt.2 h2, (), not_lt.2 h3.le, (), not_lt.2 h4, (), not_lt.2 h5.le, (), h6, _,
      ⟨h5.ne', rfl⟩, _, ⟨h3.ne', rfl⟩, _, ⟨h5.ne', rfl⟩, rfl⟩

/-- **C43 (strain difference).** Every returned value lies between `0.6 sigma_s / Es` and `sigma_s / Es`, and never decreases with
the steel stress. -/
theorem C43_eps (s s' a ρ kt f E r r' : ℝ) (hr : eps_sm_eps_cm s a ρ kt f E = .ok r)
    (hr' : eps_sm_eps_cm s' a ρ kt f E = .ok r') :
    0.6 * s / E ≤ r ∧ r ≤ s / E ∧ 0 ≤ r ∧ (s ≤ s' → r ≤ r') := by
  rw [eps_ok] at hr hr'
  obtain ⟨h1, h2, h3, h4, h5, h6, rfl⟩ := hr
  obtain ⟨-, -, -, -, -, -, rfl⟩ := hr'
  have hk : 0 ≤ kt := by rcases h6 with h | h <;> rw [h] <;> norm_num
  have hb : 0 ≤ kt * f / ρ * (1 + a * ρ) := by positivity
  refine ⟨le_max_right _ _, max_le ?_ ?_, le_max_of_le_right (by positivity), fun hss => max_le_max ?_ ?_⟩
  · apply div_le_div_of_nonneg_right _ h5.le; linarith
  · apply div_le_div_of_nonneg_right _ h5.le; linarith
  · apply div_le_div_of_nonneg_right _ h5.le; linarith
  · apply div_le_div_of_nonneg_right _ h5.le; linarith

/-- **C43 (`kt`, `k1`, `k2` fit the functions using them).** -/
theorem C43_factors (l b : List Char) (x : ℝ) :
    (∀ r, kt l = .ok r → r = 0.6 ∨ r = 0.4) ∧ (∀ r, k1 b = .ok r → r = 0.8 ∨ r = 1.6) ∧
    (∀ r, k2 x = .ok r → 0.5 ≤ r ∧ r ≤ 1) ∧ (x < 0 ∨ x > 1 ↔ k2 x = .error .valueError) := by
  refine ⟨fun r h => ?_, fun r h => ?_, fun r h => ?_, ?_⟩
  · unfold kt at h; simp only at h; split_ifs at h <;> cases h <;> simp
  · unfold k1 at h; simp only at h; split_ifs at h <;> cases h <;> simp
  · simp only [k2, except_bind_ok, except_pure_ok, raiseIf_ok] at h
    obtain ⟨-, h, rfl⟩ := h
    push Not at h
    constructor <;> linarith [h.1, h.2]
  · unfold k2 raiseIf
    by_cases h : x < 0 ∨ x > 1 <;> simp [h, bind, Except.bind, pure, Except.pure]

theorem sr_ok {c p ρ k1 k2 : ℝ} {k3 k4 : Option ℝ} {r : ℝ} : sr_max_close c p ρ k1 k2 k3 k4 = .ok r ↔
    0 ≤ c ∧ 0 ≤ p ∧ 0 < ρ ∧ 0 ≤ k3.getD 3.4 ∧ 0 ≤ k4.getD 0.425 ∧ (k1 = 0.8 ∨ k1 = 1.6) ∧ 0.5 ≤ k2 ∧ k2 ≤ 1 ∧
    k3.getD 3.4 * c + k1 * k2 * k4.getD 0.425 * p / ρ = r := by
  simp only [sr_max_close, except_bind_ok, pyDiv_eq_ok, except_pure_ok, raiseIf_ok, not_not]
  constructor
  · rintro ⟨-, h1, -, h2, -, h3, -, h4, -, h5, -, h6, -, h7, q, ⟨h8, rfl⟩, rfl⟩
    push Not at h1 h2 h3 h4 h5 h7
    exact ⟨h1, h2, lt_of_le_of_ne h3 (Ne.symm h8), h4, h5, h6, h7.1, h7.2, rfl⟩
  · rintro ⟨h1, h2, h3, h4, h5, h6, h7, h8, rfl⟩
    refine ⟨(), not_lt.2 h1, (), not_lt.2 h2, (), not_lt.2 h3.le, (), not_lt.2 h4, (), not_lt.2 h5, (), h6, (), ?_, _,
      ⟨h3.ne', rfl⟩, rfl⟩
    push Not; exact ⟨h7, h8⟩

/-- **C43 (crack spacing).** Non-negative, at least `3.4 c` with the default coefficients, never decreasing with cover and diameter,
never increasing with the reinforcement ratio. -/
theorem C43_sr_max (c c' p p' ρ ρ' k1 k2 r r' : ℝ) (hr : sr_max_close c p ρ k1 k2 = .ok r)
    (hr' : sr_max_close c' p' ρ' k1 k2 = .ok r') :
    0 ≤ r ∧ 3.4 * c ≤ r ∧ (c ≤ c' → p ≤ p' → ρ' ≤ ρ → r ≤ r') := by
  rw [sr_ok] at hr hr'
  obtain ⟨h1, h2, h3, -, -, h6, h7, h8, rfl⟩ := hr
  obtain ⟨g1, g2, g3, -, -, -, -, -, rfl⟩ := hr'
  have hk : 0 < k1 := by rcases h6 with h | h <;> rw [h] <;> norm_num
  have hk2 : 0 < k2 := by linarith
  simp only [Option.getD_none]
  have : 0 ≤ k1 * k2 * 0.425 * p / ρ := by positivity
  refine ⟨by positivity, by linarith, fun a b d => ?_⟩
  gcongr

/-- **C43 (wide spacing).** Raises exactly when `x` is outside `[0, h]`; otherwise non-negative and at most `1.3 h`. -/
theorem C43_sr_max_far (h x : ℝ) : (x < 0 ∨ h < x ↔ sr_max_far h x = .error .valueError) ∧
    (∀ r, sr_max_far h x = .ok r → 0 ≤ r ∧ r ≤ 1.3 * h) := by
  constructor
  · unfold sr_max_far raiseIf
    by_cases h1 : x < 0 <;> by_cases h2 : h < 0 <;> by_cases h3 : x > h <;>
      simp [h1, h2, h3, bind, Except.bind, pure, Except.pure]
    all_goals first | linarith | skip
  · intro r hr
    simp only [sr_max_far, except_bind_ok, except_pure_ok, raiseIf_ok] at hr
    obtain ⟨-, h1, -, h2, -, h3, rfl⟩ := hr
    push Not at h1 h2 h3
    constructor <;> linarith

/-- **C43 (inclined cracks), partial.** For angles in `[0, pi/2]` the spacing is positive and at most the larger of the two
spacings. (Missing: the documented `ValueError` for other angles.) -/
theorem C43_sr_max_theta_partial (y z th r : ℝ) (h0 : 0 ≤ th) (h1 : th ≤ Real.pi / 2) (hr : sr_max_theta y z th = .ok r) :
    0 < r ∧ r ≤ max y z := by
  simp only [sr_max_theta, except_bind_ok, pyDiv_eq_ok, raiseIf_ok] at hr
  obtain ⟨-, hy, -, hz, a, ⟨hy', rfl⟩, b, ⟨hz', rfl⟩, h3, rfl⟩ := hr
  have y0 : 0 < y := lt_of_le_of_ne (not_lt.1 hy) (Ne.symm hy')
  have z0 : 0 < z := lt_of_le_of_ne (not_lt.1 hz) (Ne.symm hz')
  have hc : 0 ≤ Real.cos th := Real.cos_nonneg_of_neg_pi_div_two_le_of_le (by linarith) h1
  have hs : 0 ≤ Real.sin th := Real.sin_nonneg_of_nonneg_of_le_pi h0 (by linarith [Real.pi_pos])
  have hsc : 1 ≤ Real.cos th + Real.sin th := by
    nlinarith [Real.sin_sq_add_cos_sq th, mul_nonneg hc hs]
  have hm : 0 < max y z := lt_max_of_lt_left y0
  have ha : Real.cos th / max y z ≤ Real.cos th / y := div_le_div_of_nonneg_left hc y0 (le_max_left _ _)
  have hb : Real.sin th / max y z ≤ Real.sin th / z := div_le_div_of_nonneg_left hs z0 (le_max_right _ _)
  have hab : 1 / max y z ≤ Real.cos th / y + Real.sin th / z := by
    refine le_trans ?_ (add_le_add ha hb)
    rw [← add_div]; gcongr
  have hpos : 0 < 1 / max y z := by positivity
  refine ⟨one_div_pos.2 (hpos.trans_le hab), ?_⟩
  rw [div_le_iff₀ (hpos.trans_le hab)]
  calc (1 : ℝ) = max y z * (1 / max y z) := by field_simp
    _ ≤ _ := by gcongr

/-- **C43, violated.** An angle of `pi`, for which a `ValueError` is documented, is accepted and gives a negative spacing. -/
theorem C43_sr_max_theta_violated : sr_max_theta 100 100 Real.pi = .ok (-100) := by
  simp only [sr_max_theta, except_bind_ok, pyDiv_eq_ok, raiseIf_ok]
  refine ⟨(), by norm_num, (), by norm_num, _, ⟨by norm_num, rfl⟩, _, ⟨by norm_num, rfl⟩, ?_, ?_⟩
  · rw [Real.cos_pi, Real.sin_pi]; norm_num
  · rw [Real.cos_pi, Real.sin_pi]; norm_num

/-- **C43 (equivalent diameter).** Negative numbers or diameters raise; otherwise the result lies between the two diameters (or
equals the one used); without bars `ZeroDivisionError`. -/
theorem C43_phi_eq (n1 n2 : ℤ) (p1 p2 : ℝ) :
    (n1 < 0 ∨ n2 < 0 ∨ p1 < 0 ∨ p2 < 0 ↔ phi_eq n1 n2 p1 p2 = .error .valueError) ∧
    (∀ r, phi_eq n1 n2 p1 p2 = .ok r → min p1 p2 ≤ r ∧ r ≤ max p1 p2) ∧
    (0 ≤ p1 → 0 ≤ p2 → phi_eq 0 0 p1 p2 = .error .zeroDivision) ∧
    (0 < n1 → 0 < p1 → 0 ≤ p2 → phi_eq n1 0 p1 p2 = .ok p1) := by
  refine ⟨?_, fun r hr => ?_, fun h1 h2 => ?_, fun h1 h2 h3 => ?_⟩
  · unfold phi_eq raiseIf pyDiv
    by_cases h1 : n1 < 0 <;> by_cases h2 : n2 < 0 <;> by_cases h3 : p1 < 0 <;> by_cases h4 : p2 < 0 <;>
      simp only [h1, h2, h3, h4, if_true, if_false, bind, Except.bind, true_or, or_true, or_self, true_iff]
    split_ifs <;> simp
  · simp only [phi_eq, except_bind_ok, pyDiv_eq_ok, raiseIf_ok] at hr
    obtain ⟨-, h1, -, h2, -, h3, -, h4, h5, rfl⟩ := hr
    push Not at h1 h2 h3 h4
    have m1 : (0 : ℝ) ≤ n1 := by exact_mod_cast h1
    have m2 : (0 : ℝ) ≤ n2 := by exact_mod_cast h2
    have hp : 0 < (n1 : ℝ) * p1 + n2 * p2 := lt_of_le_of_ne (by positivity) (Ne.symm h5)
    constructor
    · rw [le_div_iff₀ hp]
      have a1 := mul_le_mul_of_nonneg_left (min_le_left p1 p2) (mul_nonneg m1 h3)
      have a2 := mul_le_mul_of_nonneg_left (min_le_right p1 p2) (mul_nonneg m2 h4)
      nlinarith
    · rw [div_le_iff₀ hp]
      have a1 := mul_le_mul_of_nonneg_left (le_max_left p1 p2) (mul_nonneg m1 h3)
      have a2 := mul_le_mul_of_nonneg_left (le_max_right p1 p2) (mul_nonneg m2 h4)
      nlinarith
  · simp [phi_eq, raiseIf, not_lt.2 h1, not_lt.2 h2, pyDiv, bind, Except.bind]
  · simp only [phi_eq, except_bind_ok, pyDiv_eq_ok, raiseIf_ok]
    have m1 : (0 : ℝ) < n1 := by exact_mod_cast h1
    refine ⟨(), not_lt.2 h1.le, (), by norm_num, (), not_lt.2 h2.le, (), not_lt.2 h3, ?_, ?_⟩
    · have : 0 < (n1 : ℝ) * p1 := by positivity
      push_cast; linarith
    · push_cast; simp only [zero_mul, add_zero]; field_simp

/-- **C43 (crack width).** Whenever spacing and strain difference were computed by the functions of this module, the crack width is
returned, is non-negative, is at least the code minimum `3.4 c * 0.6 sigma_s / Es` and at most `sr_max * sigma_s / Es`. -/
theorem C43_wk (c p ρ k1 k2 s a kt f E sr e : ℝ) (hs : sr_max_close c p ρ k1 k2 = .ok sr)
    (he : eps_sm_eps_cm s a ρ kt f E = .ok e) :
    ∃ w, wk sr e = .ok w ∧ 0 ≤ w ∧ 3.4 * c * (0.6 * s / E) ≤ w ∧ w ≤ sr * (s / E) := by
  obtain ⟨h1, h2, -⟩ := C43_sr_max c c p p ρ ρ k1 k2 sr sr hs hs
  obtain ⟨e1, e2, e3, -⟩ := C43_eps s s a ρ kt f E e e he he
  rw [sr_ok] at hs; rw [eps_ok] at he
  have hc := hs.1; have hs0 := he.1; have hE := he.2.2.2.2.1
  refine ⟨sr * e, ?_, by positivity, by gcongr, by gcongr⟩
  simp only [wk, except_bind_ok, except_pure_ok, raiseIf_ok]
  exact ⟨(), not_lt.2 h1, (), not_lt.2 e3, trivial⟩

example : ∃ sr e, sr_max_close 30 16 0.02 0.8 0.5 = .ok sr ∧ eps_sm_eps_cm 250 6.5 0.02 0.4 2.9 200000 = .ok e :=
  ⟨_, _, sr_ok.2 ⟨by norm_num, by norm_num, by norm_num, by norm_num, by norm_num, by norm_num, by norm_num, by norm_num, rfl⟩,
    eps_ok.2 ⟨by norm_num, by norm_num, by norm_num, by norm_num, by norm_num, by norm_num, rfl⟩⟩

/-- **C43 (negative input of the crack width).** -/
theorem C43_wk_error (sr e : ℝ) : sr < 0 ∨ e < 0 ↔ wk sr e = .error .valueError := by
  unfold wk raiseIf
  by_cases h1 : sr < 0 <;> by_cases h2 : e < 0 <;> simp [h1, h2, bind, Except.bind, pure, Except.pure]

/-- **C43 (kind of loading and of bond).** Whatever the case and the surrounding blanks, a sustained load gets the smaller share of
tension stiffening and plain bars the larger bond factor; every other word is rejected. -/
theorem C43_kinds (l : List Char) :
    (kt l = .ok 0.6 ↔ pyStrip (pyLower l) = ['s', 'h', 'o', 'r', 't']) ∧
    (kt l = .ok 0.4 ↔ pyStrip (pyLower l) = ['l', 'o', 'n', 'g']) ∧
    (kt l = .error .valueError ↔
      pyStrip (pyLower l) ≠ ['s', 'h', 'o', 'r', 't'] ∧ pyStrip (pyLower l) ≠ ['l', 'o', 'n', 'g']) ∧
    (k1 l = .ok 0.8 ↔ pyStrip (pyLower l) = ['b', 'o', 'n', 'd']) ∧
    (k1 l = .ok 1.6 ↔ pyStrip (pyLower l) = ['p', 'l', 'a', 'i', 'n']) ∧
    (k1 l = .error .valueError ↔
      pyStrip (pyLower l) ≠ ['b', 'o', 'n', 'd'] ∧ pyStrip (pyLower l) ≠ ['p', 'l', 'a', 'i', 'n']) := by
  unfold kt k1
  simp only
  generalize pyStrip (pyLower l) = w
  have n1 : (0.4 : ℝ) ≠ 0.6 := by norm_num
  have n2 : (1.6 : ℝ) ≠ 0.8 := by norm_num
  refine ⟨?_, ?_, ?_, ?_, ?_, ?_⟩ <;> split_ifs with a b <;>
    simp_all [Ne.symm n1, Ne.symm n2]

example : kt "  Short ".toList = .ok 0.6 := (C43_kinds _).1.2 (by decide)
example : k1 "PLAIN".toList = .ok 1.6 := (C43_kinds _).2.2.2.2.1.2 (by decide)

/-- **C43 (longer loading, wider cracks).** The strain difference under a sustained load is never below that under a short one. -/
theorem C43_sustained (l l' : List Char) (s a ρ f E ks kl r r' : ℝ)
    (hl : pyStrip (pyLower l) = ['s', 'h', 'o', 'r', 't']) (hl' : pyStrip (pyLower l') = ['l', 'o', 'n', 'g'])
    (hk : kt l = .ok ks) (hk' : kt l' = .ok kl)
    (hr : eps_sm_eps_cm s a ρ ks f E = .ok r) (hr' : eps_sm_eps_cm s a ρ kl f E = .ok r') : r ≤ r' := by
  have e1 : ks = 0.6 := by rw [(C43_kinds l).1.2 hl] at hk; cases hk; rfl
  have e2 : kl = 0.4 := by rw [(C43_kinds l').2.1.2 hl'] at hk'; cases hk'; rfl
  subst e1; subst e2
  rw [eps_ok] at hr hr'
  obtain ⟨h1, h2, h3, h4, h5, -, rfl⟩ := hr
  obtain ⟨-, -, -, -, -, -, rfl⟩ := hr'
  refine max_le_max ?_ le_rfl
  apply div_le_div_of_nonneg_right _ h5.le
  have : 0.4 * f / ρ * (1 + a * ρ) ≤ 0.6 * f / ρ * (1 + a * ρ) := by gcongr; norm_num
  linarith

example : ∃ r, eps_sm_eps_cm 250 6.5 0.02 0.6 2.9 200000 = .ok r :=
  ⟨_, eps_ok.2 ⟨by norm_num, by norm_num, by norm_num, by norm_num, by norm_num, by norm_num, rfl⟩⟩

/-- **C43 (effective reinforcement ratio).** Without tendons it is the ratio of the areas. With bars and tendons, and the bond ratio
computed by `xi1`, a tendon counts with its area times its bond strength over that of the bars times the ratio of the diameters (the
bond perimeter it has per area); with tendons only, with its area times the bond strength ratio. -/
theorem C43_rho_p_eff (As x p s Ap Ac e : ℝ) (hA : 0 ≤ As) (hAp : 0 ≤ Ap) (hAc : 0 < Ac) (he : xi1 x p s = .ok e) :
    ∃ r, rho_p_eff As e Ap Ac = .ok r ∧ r * Ac = As + x * (if s > 0 then s / p else 1) * Ap ∧
      rho_p_eff As e 0 Ac = .ok (As / Ac) := by
  obtain ⟨h1, h2, h3, h4, h5, h6⟩ := xi1_ok he
  have hx : 0 ≤ x := le_trans (by norm_num) h3
  have hq : e ^ 2 = x * (if s > 0 then s / p else 1) := by
    simp only [xi1, except_bind_ok, except_pure_ok, raiseIf_ok] at he
    obtain ⟨-, -, -, -, -, -, -, -, rfl⟩ := he
    split_ifs with hs
    · rw [← Real.rpow_natCast, ← Real.rpow_mul (by positivity)]; norm_num; ring
    · rw [← Real.rpow_natCast, ← Real.rpow_mul hx]; norm_num
  refine ⟨(As + e ^ 2 * Ap) / Ac, ?_, ?_, ?_⟩
  · simp only [rho_p_eff, except_bind_ok, pyDiv_eq_ok, raiseIf_ok]
    exact ⟨(), not_lt.2 hA, (), not_lt.2 h5.le, (), not_lt.2 hAp, (), not_lt.2 hAc.le, hAc.ne', trivial⟩
  · rw [div_mul_cancel₀ _ hAc.ne', hq]
  · simp only [rho_p_eff, except_bind_ok, pyDiv_eq_ok, raiseIf_ok]
    exact ⟨(), not_lt.2 hA, (), not_lt.2 h5.le, (), by norm_num, (), not_lt.2 hAc.le, hAc.ne', by simp⟩

example : ∃ e, xi1 0.5 20 16 = .ok e := (C43_xi1 0.5 20 16).2 (by norm_num) (by norm_num) (by norm_num) (by norm_num)

/-- The tables in whole numbers: stress, crack width in tenths of a millimetre, value (0 where the code gives none). -/
def phiNat : List (ℕ × ℕ × ℕ) :=
  [(160, 4, 40), (160, 3, 32), (160, 2, 25), (200, 4, 32), (200, 3, 25), (200, 2, 16), (240, 4, 20), (240, 3, 16), (240, 2, 12),
   (280, 4, 16), (280, 3, 12), (280, 2, 8), (320, 4, 12), (320, 3, 10), (320, 2, 6), (360, 4, 10), (360, 3, 8), (360, 2, 5),
   (400, 4, 8), (400, 3, 6), (400, 2, 4), (450, 4, 6), (450, 3, 5), (450, 2, 0)]
/-- As `phiNat`, for the bar spacing. -/
def spaNat : List (ℕ × ℕ × ℕ) :=
  [(160, 4, 300), (160, 3, 300), (160, 2, 200), (200, 4, 300), (200, 3, 250), (200, 2, 150), (240, 4, 250), (240, 3, 200),
   (240, 2, 100), (280, 4, 200), (280, 3, 150), (280, 2, 50), (320, 4, 150), (320, 3, 100), (320, 2, 0), (360, 4, 100),
   (360, 3, 50), (360, 2, 0)]

theorem table_nat (T : List (ℕ × ℕ × ℕ)) (R : List ((ℝ × ℝ) × Option ℝ))
    (e : R = T.map fun t => (((t.1 : ℝ), (t.2.1 : ℝ) / 10), if t.2.2 = 0 then none else some (t.2.2 : ℝ)))
    (h : ∀ p ∈ T, ∀ q ∈ T, p.1 ≤ q.1 → q.2.1 ≤ p.2.1 → q.2.2 ≤ p.2.2) (a b c d u w : ℝ)
    (hu : ((a, b), some u) ∈ R) (hw : ((c, d), some w) ∈ R) (h1 : a ≤ c) (h2 : d ≤ b) : 0 < w ∧ w ≤ u := by
  rw [e] at hu hw
  obtain ⟨p, hp, ep⟩ := List.mem_map.1 hu
  obtain ⟨q, hq, eq⟩ := List.mem_map.1 hw
  simp only [Prod.mk.injEq] at ep eq
  obtain ⟨⟨rfl, rfl⟩, ep⟩ := ep
  obtain ⟨⟨rfl, rfl⟩, eq⟩ := eq
  have := h p hp q hq (by exact_mod_cast h1) (by
    have : (q.2.1 : ℝ) ≤ p.2.1 := by linarith
    exact_mod_cast this)
  split_ifs at ep eq with z1 z2
  cases ep; cases eq
  exact ⟨by exact_mod_cast Nat.pos_of_ne_zero z2, by exact_mod_cast this⟩

/-- **C43 (simplified limits).** In the tables of maximum bar diameters and maximum spacings a higher steel stress or a smaller crack
width never allows a larger value, and all values are positive. -/
theorem C43_tables (a b c d u w : ℝ) (h1 : a ≤ c) (h2 : d ≤ b) :
    (((a, b), some u) ∈ tablePhi → ((c, d), some w) ∈ tablePhi → 0 < w ∧ w ≤ u) ∧
    (((a, b), some u) ∈ tableSpa → ((c, d), some w) ∈ tableSpa → 0 < w ∧ w ≤ u) := by
  refine ⟨fun hu hw => table_nat phiNat tablePhi ?_ (by decide) a b c d u w hu hw h1 h2,
    fun hu hw => table_nat spaNat tableSpa ?_ (by decide) a b c d u w hu hw h1 h2⟩
  · simp only [tablePhi, phiNat, List.map_cons, List.map_nil]; norm_num
  · simp only [tableSpa, spaNat, List.map_cons, List.map_nil]; norm_num

example : ((240, 0.3), some (16 : ℝ)) ∈ tablePhi := by simp [tablePhi]

end SC.EC2_2004
