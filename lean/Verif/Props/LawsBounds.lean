import Verif.Lemmas.LawsBounds

/-!
# C08, C09, C10, C11: shape of the constitutive laws
-/

namespace SC

open Classical Spec

/-! ## C08: compression only, bounded by the strength -/

theorem C08_parabola_rectangle (fc e0 u n : ℝ) (h0 : 0 < |e0|) (hu : |e0| ≤ |u|)
    (h2 : 2e-6 ≤ |u|) (hn : 0 ≤ n) :
    CompressionOnly (ParabolaRectangle.new fc e0 u n).stress |fc| |u| := by
  refine compressionOnly_of_core (core := (ParabolaRectangle.new fc e0 u n).core) h2 (abs_nonneg fc)
    (fun e => rfl) (fun e he => ?_) (fun e he => ?_) (fun e h h' => ?_)
  · have a : ¬ e ≤ 0 := not_le.2 he
    have b : ¬ e < -|e0| := by linarith
    simp [ParabolaRectangle.core, ParabolaRectangle.new, a, b]
  · have a : ¬ -|u| ≤ e := not_le.2 he
    have b : ¬ -|e0| ≤ e := by linarith
    simp [ParabolaRectangle.core, ParabolaRectangle.new, a, b]
  · simp only [ParabolaRectangle.core, ParabolaRectangle.new]
    have hf := abs_nonneg fc
    split_ifs with c1 c2
    · constructor <;> linarith
    · have hq : e / -|e0| ≤ 1 := by rw [div_neg, neg_le, le_div_iff₀ h0]; linarith [c2.1]
      have hq0 : 0 ≤ e / -|e0| := div_nonneg_of_nonpos c2.2 (by linarith)
      have p1 : (1 - e / -|e0|) ^ n ≤ 1 := Real.rpow_le_one (by linarith) (by linarith) hn
      have p0 : 0 ≤ (1 - e / -|e0|) ^ n := Real.rpow_nonneg (by linarith) n
      constructor <;> nlinarith
    · constructor <;> linarith

example : (0 : ℝ) < |(0.002 : ℝ)| ∧ |(0.002 : ℝ)| ≤ |(-0.0035 : ℝ)| ∧ (2e-6 : ℝ) ≤ |(-0.0035 : ℝ)| := by
  norm_num [abs_of_nonneg, abs_of_neg]

theorem C08_bilinear {fc ec u : ℝ} {l : Bilinear} (hl : Bilinear.new? fc ec (some u) = .ok l)
    (h2 : 2e-6 ≤ |u|) : CompressionOnly l.stress |fc| |u| := by
  unfold Bilinear.new? at hl
  by_cases h0 : ec = 0
  · simp [h0] at hl
  simp only [h0, if_false] at hl
  cases hl
  have hec : 0 < |ec| := abs_pos.2 h0
  refine compressionOnly_of_core (core := Bilinear.core ⟨-|fc|, -|ec|, -|u|⟩) h2 (abs_nonneg fc)
    (fun e => rfl) (fun e he => ?_) (fun e he => ?_) (fun e h h' => ?_)
  · simp [Bilinear.core, he]
  · simp [Bilinear.core, he]
  · have c : ¬ (e > 0 ∨ e < -|u|) := by push Not; exact ⟨h', h⟩
    simp only [Bilinear.core, if_neg c, Bilinear.E]
    refine ⟨le_max_right _ _, max_le ?_ (by have := abs_nonneg fc; linarith)⟩
    rw [neg_div_neg_eq]
    exact mul_nonpos_of_nonneg_of_nonpos (by positivity) h'

example : Bilinear.new? 20 0.00175 (some 0.0035) = .ok ⟨-|20|, -|0.00175|, -|0.0035|⟩ := by
  norm_num [Bilinear.new?]

/-- Sargin: bounded provided the stiffness ratio `k > 1` and the ultimate strain is at most `k`
times the peak strain; `C08_sargin_violated` shows that the constructor accepts parameters for
which the bound fails. -/
theorem C08_sargin_partial (fc e1 u k : ℝ) (h0 : 0 < |e1|) (h2 : 2e-6 ≤ |u|) (hk : 1 < k)
    (hku : |u| ≤ k * |e1|) :
    CompressionOnly (Sargin.new fc e1 u k).stress |fc| |u| := by
  refine compressionOnly_of_core (core := (Sargin.new fc e1 u k).core) h2 (abs_nonneg fc)
    (fun e => rfl) (fun e he => ?_) (fun e he => ?_) (fun e h h' => ?_)
  · simp [Sargin.core, he]
  · simp [Sargin.core, Sargin.new, he]
  · have c : ¬ (e < -|u| ∨ e > 0) := by push Not; exact ⟨h, h'⟩
    simp only [Sargin.core, Sargin.new, if_neg c]
    have hf := abs_nonneg fc
    have q0 : 0 ≤ e / -|e1| := div_nonneg_of_nonpos h' (by linarith)
    have q1 : e / -|e1| ≤ k := by
      rw [div_neg, neg_le, le_div_iff₀ h0]; linarith
    generalize e / -|e1| = x at *
    have hden : 0 < 1 + (k - 2) * x := by
      rcases le_or_gt 2 k with hk2 | hk2
      · nlinarith
      · nlinarith [sq_nonneg (k - 1), mul_nonneg (by linarith : (0:ℝ) ≤ 2 - k) (by linarith : 0 ≤ k - x)]
    have hr0 : 0 ≤ (k * x - x ^ 2) / (1 + (k - 2) * x) := by
      apply div_nonneg _ hden.le; nlinarith
    have hr1 : (k * x - x ^ 2) / (1 + (k - 2) * x) ≤ 1 := by
      rw [div_le_one hden]; nlinarith [sq_nonneg (1 - x)]
    rw [mul_div_assoc]
    constructor <;> nlinarith

example : (0 : ℝ) < |(0.0022 : ℝ)| ∧ (2e-6 : ℝ) ≤ |(0.0035 : ℝ)| ∧ (1 : ℝ) < 2 ∧
    |(0.0035 : ℝ)| ≤ 2 * |(0.0022 : ℝ)| := by
  norm_num [abs_of_nonneg, abs_of_neg]

/-- A Sargin law with strength 30 whose returned stress exceeds the strength (about -59). -/
theorem C08_sargin_violated :
    ¬ ∀ fc e1 u k : ℝ, 0 < |e1| → |e1| ≤ |u| → 2e-6 ≤ |u| → 0 < k →
      CompressionOnly (Sargin.new fc e1 u k).stress |fc| |u| := by
  intro H
  have H := (H 30 0.002 0.0035 1.1 (by norm_num) (by norm_num [abs_of_nonneg])
    (by norm_num [abs_of_nonneg]) (by norm_num)).bounded (-0.0035)
  have hs : snap ((Sargin.new 30 0.002 0.0035 1.1).ult false) (-0.0035) = -0.0035 := by
    have h3 : (Sargin.new 30 0.002 0.0035 1.1).ult false = (-0.0035, 100) := by
      simp [Sargin.ult, Sargin.new]; norm_num [abs_of_nonneg]
    rw [h3]
    simp [snap, isclose_self]
    intro h; exfalso
    exact (not_isclose_iff _ _).2 (clear_hundred_of_nonpos (by norm_num)) h
  have H := H.1
  simp only [Sargin.stress, hs] at H
  simp only [Sargin.core, Sargin.new] at H
  simp only [abs_of_pos (by norm_num : (0:ℝ) < 30), abs_of_pos (by norm_num : (0:ℝ) < 0.002),
    abs_of_pos (by norm_num : (0:ℝ) < 0.0035)] at H
  norm_num at H

theorem C08_popovics (fc ec u Ec : ℝ) {l : Popovics} (hl : Popovics.new? fc ec u (some Ec) = .ok l)
    (hE : |fc| / |ec| < Ec) (h2 : 2e-6 ≤ |u|) : CompressionOnly l.stress |fc| |u| := by
  unfold Popovics.new? at hl
  simp only [Option.getD_some] at hl
  split_ifs at hl with g1 g2 g3
  cases hl
  have hec : 0 < |ec| := lt_of_le_of_ne (abs_nonneg _) (by intro h; apply g2; rw [← h]; simp)
  rw [neg_div_neg_eq] at *
  have hEc : 0 < Ec := not_le.1 g1
  have hn : 1 ≤ Ec / (Ec - |fc| / |ec|) := by
    rw [le_div_iff₀ (by linarith)]
    have : 0 ≤ |fc| / |ec| := by positivity
    linarith
  generalize Ec / (Ec - |fc| / |ec|) = n at hn
  refine compressionOnly_of_core (core := Popovics.core ⟨-|fc|, -|ec|, -|u|, n⟩) h2 (abs_nonneg fc)
    (fun e => rfl) (fun e he => ?_) (fun e he => ?_) (fun e h h' => ?_)
  · simp [Popovics.core, he]
  · simp [Popovics.core, he]
  · have c : ¬ (e < -|u| ∨ e > 0) := by push Not; exact ⟨h, h'⟩
    simp only [Popovics.core, if_neg c]
    have hf := abs_nonneg fc
    have q0 : 0 ≤ e / -|ec| := div_nonneg_of_nonpos h' (by linarith)
    generalize e / -|ec| = x at *
    have b := popovics_den n x hn q0
    have r : 0 ≤ x ^ n := Real.rpow_nonneg q0 n
    have hden : 0 ≤ n - 1 + x ^ n := by linarith
    have hr0 : 0 ≤ x * n / (n - 1 + x ^ n) := div_nonneg (by nlinarith) hden
    have hr1 : x * n / (n - 1 + x ^ n) ≤ 1 := div_le_one_of_le₀ b hden
    rw [show -|fc| * x * n / (n - 1 + x ^ n) = -|fc| * (x * n / (n - 1 + x ^ n)) by ring]
    constructor <;> nlinarith

example : ∃ l, Popovics.new? 30 0.002 0.0035 (some 33000) = .ok l := by
  norm_num [Popovics.new?, abs_of_nonneg]
example : |(30 : ℝ)| / |0.002| < 33000 := by norm_num [abs_of_nonneg]

/-! ## C09: the strength is reached exactly at the peak strain; no stress at zero strain -/

theorem C09_parabola_rectangle (fc e0 u n : ℝ) (h0 : 0 < |e0|) (hu : |e0| ≤ |u|) (hn : 0 < n)
    (h2 : 2e-6 ≤ |u|) :
    (ParabolaRectangle.new fc e0 u n).stress (-|e0|) = -|fc| ∧
    (ParabolaRectangle.new fc e0 u n).stress 0 = 0 := by
  constructor
  · have hx : snap (-|u|, 100) (-|e0|) = -|e0| ∨ snap (-|u|, 100) (-|e0|) = -|u| := by
      rcases snap_cases (-|u|, 100) (-|e0|) with ⟨h, -⟩ | ⟨h, -⟩ | ⟨-, h⟩
      · exact .inl h
      · exact .inr h
      · exact absurd h (not_isclose_neg_abs_hundred e0)
    simp only [ParabolaRectangle.stress, ParabolaRectangle.new, ParabolaRectangle.ult,
      Bool.false_eq_true, if_false]
    have peak : ParabolaRectangle.core ⟨-|fc|, -|e0|, -|u|, n⟩ (-|e0|) = -|fc| := by
      have : -|e0| / -|e0| = 1 := div_self (by linarith)
      simp [ParabolaRectangle.core, this, Real.zero_rpow hn.ne']
    rcases hx with hx | hx <;> rw [hx]
    · exact peak
    · rcases hu.eq_or_lt with h | h
      · rw [← h] at peak ⊢; exact peak
      · simp [ParabolaRectangle.core, h]
  · have := (snap_concrete (e := 0) h2).2.2.2.2
    simp only [ParabolaRectangle.stress, ParabolaRectangle.new, ParabolaRectangle.ult,
      Bool.false_eq_true, if_false, this, ParabolaRectangle.core]
    have h3 : ¬ (0 : ℝ) < -|e0| := by linarith
    simp [h3]

theorem C09_bilinear {fc ec u : ℝ} {l : Bilinear} (hl : Bilinear.new? fc ec (some u) = .ok l)
    (hu : |ec| ≤ |u|) (h2 : 2e-6 ≤ |u|) : l.stress (-|ec|) = -|fc| ∧ l.stress 0 = 0 := by
  unfold Bilinear.new? at hl
  by_cases h0 : ec = 0
  · simp [h0] at hl
  simp only [h0, if_false] at hl
  cases hl
  have hec : 0 < |ec| := abs_pos.2 h0
  constructor
  · have hx : snap (-|u|, 100) (-|ec|) = -|ec| ∨ snap (-|u|, 100) (-|ec|) = -|u| := by
      rcases snap_cases (-|u|, 100) (-|ec|) with ⟨h, -⟩ | ⟨h, -⟩ | ⟨-, h⟩
      · exact .inl h
      · exact .inr h
      · exact absurd h (not_isclose_neg_abs_hundred ec)
    simp only [Bilinear.stress, Bilinear.ult, Bool.false_eq_true, if_false]
    have hE : ∀ x, x ≤ -|ec| → -|u| ≤ x → Bilinear.core ⟨-|fc|, -|ec|, -|u|⟩ x = -|fc| := by
      intro x hx hx'
      have c : ¬ (x > 0 ∨ x < -|u|) := by push Not; exact ⟨by linarith, hx'⟩
      simp only [Bilinear.core, if_neg c, Bilinear.E]
      apply max_eq_right
      rw [neg_div_neg_eq, div_mul_eq_mul_div, div_le_iff₀ hec]
      nlinarith [abs_nonneg fc]
    rcases hx with hx | hx <;> rw [hx]
    · exact hE _ le_rfl (by linarith)
    · exact hE _ (by linarith) le_rfl
  · have := (snap_concrete (e := 0) h2).2.2.2.2
    simp only [Bilinear.stress, Bilinear.ult, Bool.false_eq_true, if_false, this, Bilinear.core]
    have : ¬ ((0:ℝ) > 0 ∨ (0:ℝ) < -|u|) := by push Not; exact ⟨le_rfl, by linarith⟩
    rw [if_neg this]; simp

/-- Sargin: exact at the peak when the ultimate strain is clear of the peak strain (or equal to
it); inside the tolerance band but not equal, the strain is replaced by the ultimate strain. -/
theorem C09_sargin_partial (fc e1 u k : ℝ) (h0 : 0 < |e1|) (hu : |e1| ≤ |u|) (h2 : 2e-6 ≤ |u|)
    (hk : k ≠ 1) (hclear : Clear (-|e1|) (-|u|) ∨ |e1| = |u|) :
    (Sargin.new fc e1 u k).stress? (-|e1|) = .ok (-|fc|) ∧
    (Sargin.new fc e1 u k).stress? 0 = .ok 0 := by
  have hpk : snap (-|u|, 100) (-|e1|) = -|e1| := by
    rcases hclear with h | h
    · exact snap_of_clear h (clear_hundred_of_nonpos (by linarith))
    · rw [h]
      unfold snap
      simp only [isclose_self, if_true]
      rw [if_neg (not_isclose_neg_abs_hundred u)]
  have hz := (snap_concrete (e := 0) h2).2.2.2.2
  have hone : -|e1| / -|e1| = 1 := div_self (by linarith)
  have hk1 : 1 + (k - 2) * 1 ≠ 0 := by intro h; apply hk; linarith
  have hul : (Sargin.new fc e1 u k).ult false = (-|u|, 100) := rfl
  constructor
  · simp only [Sargin.stress?, Sargin.den, hul, hpk, Sargin.stress]
    have c : ¬ (-|e1| < -|u| ∨ -|e1| > 0) := by push Not; constructor <;> linarith
    have hne : ¬ (-|e1| = 0 ∨ 1 + (k - 2) * 1 = 0) := by
      push Not; exact ⟨by linarith, hk1⟩
    simp only [Sargin.new, hone, if_neg hne, Sargin.core, if_neg c]
    congr 1
    rw [mul_div_assoc, show k * 1 - 1 ^ 2 = 1 + (k - 2) * 1 by ring, div_self hk1, mul_one]
  · simp only [Sargin.stress?, Sargin.den, hul, hz, Sargin.stress]
    simp only [Sargin.new, Sargin.core, zero_div]
    have : ¬ (-|e1| = 0) := by linarith
    simp [this]

example : Clear (-|(0.0022:ℝ)|) (-|(0.0035:ℝ)|) := by
  unfold Clear; norm_num [abs_of_nonneg, abs_of_neg]

/-- **C09** is false of Sargin's law in two cases: for `k = 1` the stress at the peak strain is a division by zero, and whenever the
ultimate strain differs from the peak strain by no more than numpy's tolerance the stress at the peak is not the strength (for every
strength and every `k` for which it is a number). -/
theorem C09_sargin_violated :
    (∀ fc e1 u : ℝ, 0 < |e1| → |e1| = |u| ∨ Clear (-|e1|) (-|u|) → (Sargin.new fc e1 u 1).stress? (-|e1|) = .error .zeroDivision) ∧
    ∀ fc e1 u k s : ℝ, 0 < |fc| → 0 < |e1| → |e1| < |u| → isclose (-|e1|) (-|u|) →
      (Sargin.new fc e1 u k).stress? (-|e1|) = .ok s → s ≠ -|fc| := by
  refine ⟨fun fc e1 u h0 hclear => ?_, fun fc e1 u k s hf h0 hlt hband hs => ?_⟩
  · have hpk : snap (-|u|, 100) (-|e1|) = -|e1| := by
      rcases hclear with h | h
      · rw [h]
        unfold snap
        simp only [isclose_self, if_true]
        rw [if_neg (not_isclose_neg_abs_hundred u)]
      · exact snap_of_clear h (clear_hundred_of_nonpos (by linarith))
    have hul : (Sargin.new fc e1 u 1).ult false = (-|u|, 100) := rfl
    have hone : -|e1| / -|e1| = 1 := div_self (by linarith)
    simp only [Sargin.stress?, Sargin.den, hul, hpk, Sargin.new, hone]
    rw [if_pos (Or.inr (by norm_num))]
  · have hul : (Sargin.new fc e1 u k).ult false = (-|u|, 100) := rfl
    have hpk : snap (-|u|, 100) (-|e1|) = -|u| := by
      simp only [snap, if_pos hband]
      rw [if_neg (not_isclose_neg_abs_hundred e1)]
    simp only [Sargin.stress?, Sargin.den, hul, hpk, Sargin.stress] at hs
    split_ifs at hs with hz
    push Not at hz
    simp only [Except.ok.injEq, Sargin.core] at hs
    rw [if_neg (by push Not; exact ⟨le_rfl, by linarith [abs_nonneg u]⟩)] at hs
    have hden := hz.2
    have heta : -|u| / -|e1| = |u| / |e1| := neg_div_neg_eq _ _
    have hg : 1 < |u| / |e1| := by rw [lt_div_iff₀ h0]; linarith
    rw [heta] at hs hden
    generalize |u| / |e1| = t at *
    intro hcon
    rw [← hs, div_eq_iff hden] at hcon
    have : |fc| * (t - 1) ^ 2 = 0 := by linear_combination hcon
    rcases mul_eq_zero.1 this with h | h
    · linarith
    · have := pow_eq_zero_iff (two_ne_zero) |>.1 h
      linarith

example : |(0.0035:ℝ)| < |(0.0035005:ℝ)| ∧ isclose (-|(0.0035:ℝ)|) (-|(0.0035005:ℝ)|) := by
  unfold isclose; norm_num [abs_of_nonneg, abs_of_neg]

theorem C09_popovics_partial (fc ec u Ec : ℝ) {l : Popovics}
    (hl : Popovics.new? fc ec u (some Ec) = .ok l) (hu : |ec| ≤ |u|) (h2 : 2e-6 ≤ |u|)
    (hclear : Clear (-|ec|) (-|u|) ∨ |ec| = |u|) :
    l.stress (-|ec|) = -|fc| ∧ l.stress 0 = 0 := by
  unfold Popovics.new? at hl
  simp only [Option.getD_some] at hl
  split_ifs at hl with g1 g2 g3
  cases hl
  have hec : 0 < |ec| := lt_of_le_of_ne (abs_nonneg _) (by intro h; apply g2; rw [← h]; simp)
  have hpk : snap (-|u|, 100) (-|ec|) = -|ec| := by
    rcases hclear with h | h
    · exact snap_of_clear h (clear_hundred_of_nonpos (by linarith))
    · rw [h]
      unfold snap
      simp only [isclose_self, if_true]
      rw [if_neg (not_isclose_neg_abs_hundred u)]
  have hz := (snap_concrete (e := 0) h2).2.2.2.2
  have hone : -|ec| / -|ec| = 1 := div_self (by linarith)
  have hn : Ec / (Ec - -|fc| / -|ec|) ≠ 0 := div_ne_zero (by linarith [not_le.1 g1]) g3
  generalize Ec / (Ec - -|fc| / -|ec|) = n at *
  constructor
  · have c : ¬ (-|ec| < -|u| ∨ -|ec| > 0) := by push Not; constructor <;> linarith
    simp only [Popovics.stress, Popovics.ult, Bool.false_eq_true, if_false, hpk, Popovics.core,
      if_neg c, hone, Real.one_rpow]
    rw [show n - 1 + 1 = n by ring]
    field_simp
  · simp [Popovics.stress, Popovics.ult, hz, Popovics.core]

end SC

namespace SC

open Classical Spec

/-! ## C11: the elastic-plastic law -/

/-- The laws the claim is about: positive modulus, non-negative strength and hardening, and an
ultimate strain `u` (if given) of at least `2e-6` and at least the yield strain. -/
structure EPOk (l : ElasticPlastic) (u : ℝ) : Prop where
  E : 0 < l.E
  fy : 0 ≤ l.fy
  Eh : 0 ≤ l.Eh
  su : l.eps_su = some u
  hu : 2e-6 ≤ u
  sy : l.fy / l.E ≤ u

example : EPOk ⟨200000, 500, 1000, some 0.025⟩ 0.025 :=
  ⟨by norm_num, by norm_num, by norm_num, rfl, by norm_num, by norm_num⟩

/-- odd -/
theorem C11_odd {l : ElasticPlastic} {u : ℝ} (h : EPOk l u) (e : ℝ) :
    l.stress (-e) = -l.stress e := by
  have hult : l.ult false = (-u, u) := by simp [ElasticPlastic.ult, h.su]
  unfold ElasticPlastic.stress
  rw [hult, snap_sym h.hu]
  generalize snap (-u, u) e = x
  by_cases hb : l.beyond x
  · have hb' : l.beyond (-x) := by
      simp only [ElasticPlastic.beyond, h.su] at hb ⊢
      rcases hb with hb | hb
      · right; linarith
      · left; linarith
    unfold ElasticPlastic.core
    simp only [if_pos hb, if_pos hb', neg_zero]
  · have hb' : ¬ l.beyond (-x) := by
      simp only [ElasticPlastic.beyond, h.su] at hb ⊢
      push Not at hb ⊢
      constructor <;> linarith [hb.1, hb.2]
    rw [l.core_clamp h.E h.fy h.Eh hb, l.core_clamp h.E h.fy h.Eh hb']
    have hs : 0 ≤ l.eps_sy := div_nonneg h.fy h.E.le
    have : max (-l.eps_sy) (min (-x) l.eps_sy) = -max (-l.eps_sy) (min x l.eps_sy) := by
      rcases le_total x (-l.eps_sy) with c | c
      · rw [min_eq_right (by linarith), min_eq_left (by linarith), max_eq_right (by linarith), max_eq_left c]; ring
      · rcases le_total x l.eps_sy with d | d
        · rw [min_eq_left (by linarith), min_eq_left d, max_eq_right (by linarith), max_eq_right c]
        · rw [min_eq_left (by linarith), min_eq_right d, max_eq_left (by linarith), max_eq_right (by linarith)]
    rw [this]; ring

/-- monotone up to the ultimate strain (including the tolerance band) -/
theorem C11_mono {l : ElasticPlastic} {u : ℝ} (h : EPOk l u) {a b : ℝ} (hab : a ≤ b)
    (ha : -(u + (1e-6 + 1e-5 * u)) ≤ a) (hb : b ≤ u + (1e-6 + 1e-5 * u)) :
    l.stress a ≤ l.stress b := by
  have hult : l.ult false = (-u, u) := by simp [ElasticPlastic.ult, h.su]
  have hu := h.hu
  have hin : ∀ x, -(u + (1e-6 + 1e-5 * u)) ≤ x → x ≤ u + (1e-6 + 1e-5 * u) →
      ¬ l.beyond (snap (-u, u) x) := by
    intro x h1 h2
    have hu0 : 0 < u := by linarith
    simp only [ElasticPlastic.beyond, h.su]
    push Not
    rcases snap_cases (-u, u) x with ⟨e, c1, c2⟩ | ⟨e, -⟩ | ⟨e, -⟩
    · rw [e]
      rw [not_isclose_iff] at c1 c2
      unfold Clear at c1 c2
      simp only at c1 c2
      rw [abs_neg, abs_of_pos hu0] at c1
      rw [abs_of_pos hu0] at c2
      constructor
      · by_contra hc
        push Not at hc
        rw [abs_of_pos (by linarith)] at c2
        linarith
      · by_contra hc
        push Not at hc
        rw [abs_of_neg (by linarith)] at c1
        linarith
    · rw [e]; constructor <;> simp <;> linarith
    · rw [e]; constructor <;> simp <;> linarith
  unfold ElasticPlastic.stress
  rw [hult, l.core_clamp h.E h.fy h.Eh (hin a ha (by linarith)),
    l.core_clamp h.E h.fy h.Eh (hin b (by linarith) hb)]
  have hm := snap_mono h.hu hab
  generalize snap (-u, u) a = x at *
  generalize snap (-u, u) b = y at *
  have hc : max (-l.eps_sy) (min x l.eps_sy) ≤ max (-l.eps_sy) (min y l.eps_sy) :=
    max_le_max le_rfl (min_le_min hm le_rfl)
  have hd : x - max (-l.eps_sy) (min x l.eps_sy) ≤ y - max (-l.eps_sy) (min y l.eps_sy) := by
    have hs : 0 ≤ l.eps_sy := div_nonneg h.fy h.E.le
    generalize l.eps_sy = s at *
    simp only [max_def, min_def]
    split_ifs <;> linarith
  have := h.E; have := h.Eh
  nlinarith [mul_le_mul_of_nonneg_left hd h.Eh, mul_le_mul_of_nonneg_left hc h.E.le]

/-- explicit values: elastic up to yield, then the hardening line through the yield point; zero
clearly beyond the ultimate strain -/
theorem C11_values {l : ElasticPlastic} {u : ℝ} (h : EPOk l u) {e : ℝ} (hc : Clear e u)
    (hc' : Clear e (-u)) :
    (0 ≤ e → e ≤ l.fy / l.E → l.stress e = l.E * e) ∧
    (l.fy / l.E ≤ e → e ≤ u → l.stress e = l.fy + l.Eh * (e - l.fy / l.E)) ∧
    (u < |e| → l.stress e = 0) := by
  have hult : l.ult false = (-u, u) := by simp [ElasticPlastic.ult, h.su]
  have hs : snap (-u, u) e = e := snap_of_clear hc' hc
  have hu := h.hu
  have hsy : l.E * (l.fy / l.E) = l.fy := by have := h.E; field_simp
  have hs0 : 0 ≤ l.fy / l.E := div_nonneg h.fy h.E.le
  have hsu := h.sy
  unfold ElasticPlastic.stress
  rw [hult, hs]
  refine ⟨fun h0 h1 => ?_, fun h0 h1 => ?_, fun h0 => ?_⟩
  · have hb : ¬ l.beyond e := by
      simp only [ElasticPlastic.beyond, h.su]; push Not; constructor <;> linarith
    rw [l.core_clamp h.E h.fy h.Eh hb]
    simp only [ElasticPlastic.eps_sy]
    rw [min_eq_left h1, max_eq_right (by linarith)]; ring
  · have hb : ¬ l.beyond e := by
      simp only [ElasticPlastic.beyond, h.su]; push Not; constructor <;> linarith
    rw [l.core_clamp h.E h.fy h.Eh hb]
    simp only [ElasticPlastic.eps_sy]
    rw [min_eq_right h0, max_eq_right (by linarith)]; linear_combination hsy
  · have hb : l.beyond e := by
      simp only [ElasticPlastic.beyond, h.su]
      rcases lt_abs.1 h0 with c | c
      · left; exact c
      · right; linarith
    unfold ElasticPlastic.core
    simp only [if_pos hb]

/-- bounded by the stress at the ultimate strain, for every strain -/
theorem C11_bounded {l : ElasticPlastic} {u : ℝ} (h : EPOk l u) (e : ℝ) :
    |l.stress e| ≤ l.fy + l.Eh * (u - l.fy / l.E) := by
  have hsy : l.E * (l.fy / l.E) = l.fy := by have := h.E; field_simp
  have hs0 : 0 ≤ l.fy / l.E := div_nonneg h.fy h.E.le
  have hfy := h.fy
  have hsu := h.sy
  have hEh := h.Eh
  have hp : 0 ≤ l.Eh * (u - l.fy / l.E) := mul_nonneg h.Eh (by linarith)
  unfold ElasticPlastic.stress
  generalize snap (l.ult false) e = x
  by_cases hb : l.beyond x
  · unfold ElasticPlastic.core
    simp only [if_pos hb, abs_zero]; linarith
  · rw [l.core_clamp h.E h.fy h.Eh hb]
    simp only [ElasticPlastic.beyond, h.su] at hb
    push Not at hb
    simp only [ElasticPlastic.eps_sy]
    generalize l.fy / l.E = s at *
    rw [abs_le]
    rcases le_total x (-s) with c | c
    · rw [min_eq_left (by linarith), max_eq_left c]
      constructor <;> nlinarith
    · rcases le_total x s with d | d
      · rw [min_eq_left d, max_eq_right c]
        have hE := h.E
        constructor <;> nlinarith
      · rw [min_eq_right d, max_eq_right (by linarith)]
        constructor <;> nlinarith

/-- When no ultimate strain is given, `get_ultimate_strain` reports `±2 eps_sy` and yet
`get_stress` keeps following the hardening line beyond it: the reported ultimate strain is not
where the stress drops. -/
theorem C11_no_ultimate_violated :
    ¬ ∀ l : ElasticPlastic, 0 < l.E → 0 < l.fy → 0 ≤ l.Eh → ∀ e, (l.ult false).2 < e →
      Clear e (l.ult false).2 → Clear e (l.ult false).1 → l.stress e = 0 := by
  intro H
  have H := H ⟨1, 1, 0, none⟩ one_pos one_pos le_rfl 3
  have hu : (ElasticPlastic.ult ⟨1, 1, 0, none⟩ false) = (-2, 2) := by
    norm_num [ElasticPlastic.ult, ElasticPlastic.eps_sy]
  rw [hu] at H
  have c1 : Clear (3:ℝ) 2 := by unfold Clear; norm_num [abs_of_nonneg]
  have c2 : Clear (3:ℝ) (-2) := by unfold Clear; norm_num [abs_of_nonneg, abs_of_neg]
  have H := H (by norm_num) c1 c2
  unfold ElasticPlastic.stress at H
  rw [hu, snap_of_clear c2 c1] at H
  norm_num [ElasticPlastic.core, ElasticPlastic.beyond, ElasticPlastic.deltaSig] at H

end SC
