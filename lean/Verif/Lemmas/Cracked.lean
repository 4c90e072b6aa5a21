import Verif.Props.Equilibrium

/-! # The equilibrium search looks at the response only where it has to -/

set_option autoImplicit false

namespace SC

theorem whileFuel_congr {σ : Type} {cond : σ → Prop} {body body' : σ → Except PyErr σ} (I : σ → Prop)
    (hstep : ∀ s s', I s → cond s → body s = .ok s' → I s') (heq : ∀ s, I s → cond s → body s = body' s) :
    ∀ (f : ℕ) (s : σ), I s → whileFuel cond body f s = whileFuel cond body' f s := by
  intro f
  induction f with
  | zero => intro s _; rfl
  | succ f ih =>
    intro s hs
    rw [whileFuel, whileFuel]
    by_cases hc : cond s
    · rw [if_pos hc, if_pos hc, ← heq s hs hc]
      cases hb : body s with
      | error e => rfl
      | ok s' => simp only [ih s' (hstep s s' hs hc hb)]
    · rw [if_neg hc, if_neg hc]

theorem pyWhile_congr {σ : Type} {cond : σ → Prop} {body body' : σ → Except PyErr σ} (I : σ → Prop)
    (hstep : ∀ s s', I s → cond s → body s = .ok s' → I s') (heq : ∀ s, I s → cond s → body s = body' s)
    {s : σ} (hs : I s) : pyWhile cond body s = pyWhile cond body' s := by
  cases hr : pyWhile cond body s with
  | some r =>
    obtain ⟨f, hf⟩ := fuel_of_pyWhile hr
    rw [whileFuel_congr I hstep heq f s hs] at hf
    exact (pyWhile_of_fuel hf).symm
  | none =>
    cases hr' : pyWhile cond body' s with
    | none => rfl
    | some r =>
      obtain ⟨f, hf⟩ := fuel_of_pyWhile hr'
      rw [← whileFuel_congr I hstep heq f s hs] at hf
      rw [pyWhile_of_fuel hf] at hr
      cases hr

theorem bisection_congr {f f' : ℝ → ℝ} {B a b : ℝ} (h : ∀ x, |x| ≤ B → f x = f' x) (ha : |a| ≤ B) (hb : |b| ≤ B)
    (da db : ℝ) : bisection f a da b db = bisection f' a da b db := by
  unfold bisection
  rw [pyWhile_congr (body' := bisBody f') (fun s => |s.a| ≤ B ∧ |s.b| ≤ B) ?_ ?_ ⟨ha, hb⟩]
  · rintro s s' ⟨h1, h2⟩ _ hs
    have hm : |(s.a + s.b) / 2| ≤ B := by
      rw [abs_le] at *
      constructor <;> linarith [h1.1, h1.2, h2.1, h2.2]
    simp only [bisBody] at hs
    split_ifs at hs <;> simp only [Except.ok.injEq] at hs <;> subst hs
    · exact ⟨h1, hm⟩
    · exact ⟨hm, h2⟩
  · rintro s ⟨h1, h2⟩ _
    have hm : |(s.a + s.b) / 2| ≤ B := by
      rw [abs_le] at *
      constructor <;> linarith [h1.1, h1.2, h2.1, h2.2]
    simp only [bisBody, h _ hm]

/-- If the response is that of a monotone one, `N'`, for axial strains up to `0.001 * 2^j` and `N'` changes sign
within that range, the search started at zero strain runs exactly as it would for `N'`. -/
theorem fixedCurvature_local (N N' : ℝ → ℝ → ℝ) (n curv : ℝ) (j : ℕ) (hmono : Monotone fun e => N' e curv)
    (hreach : N' (-(1e-3 * 2 ^ j)) curv < n ∧ n < N' (1e-3 * 2 ^ j) curv)
    (h : ∀ e, |e| ≤ 1e-3 * 2 ^ j → N e curv = N' e curv) :
    fixedCurvature N n curv 0 = fixedCurvature N' n curv 0 := by
  have hB : (0 : ℝ) < 1e-3 * 2 ^ j := by positivity
  unfold fixedCurvature
  simp only
  rw [h 0 (by rw [abs_zero]; exact hB.le)]
  set f : ℝ → ℝ := fun e => N e curv - n with hf
  set f' : ℝ → ℝ := fun e => N' e curv - n with hf'
  have hff : ∀ x, |x| ≤ 1e-3 * 2 ^ j → f x = f' x := by
    intro x hx; simp only [hf, hf', h x hx]
  by_cases h0 : |N' 0 curv - n| ≤ 1e-2
  · rw [if_pos h0, if_pos h0]
  rw [if_neg h0, if_neg h0]
  have hm' : Monotone f' := fun x y hxy => sub_le_sub_right (hmono hxy) n
  have hd0 : N' 0 curv - n = f' 0 := rfl
  rw [hd0]
  rw [hd0] at h0
  have hne : f' 0 ≠ 0 := by
    intro h'; rw [h'] at h0; norm_num at h0
  have hnd : ∀ d : ℝ, 0 ≤ d → ¬ (¬ f' 0 * f' (0 + preSign (f' 0) * d) < 0 ∧
      |f' (0 + preSign (f' 0) * d)| > |f' 0|) := by
    rintro d hd ⟨h1, h2⟩
    rcases lt_or_gt_of_ne hne with hneg | hpos
    · rw [preSign_neg hneg] at h1 h2
      have hm : f' 0 ≤ f' (0 + 1 * d) := hm' (by linarith)
      have : f' (0 + 1 * d) ≤ 0 := by
        by_contra hh; push Not at hh
        exact h1 (mul_neg_of_neg_of_pos hneg hh)
      rw [abs_of_nonpos this, abs_of_neg hneg] at h2
      linarith
    · rw [preSign_pos hpos] at h1 h2
      have hm : f' (0 + -1 * d) ≤ f' 0 := hm' (by linarith)
      have : 0 ≤ f' (0 + -1 * d) := by
        by_contra hh; push Not at hh
        exact h1 (mul_neg_of_pos_of_neg hpos hh)
      rw [abs_of_nonneg this, abs_of_pos hpos] at h2
      linarith
  have hlast : f' 0 * f' (0 + preSign (f' 0) * (1e-3 * 2 ^ j)) < 0 := by
    have r1 : f' (-(1e-3 * 2 ^ j)) < 0 := sub_neg.2 hreach.1
    have r2 : 0 < f' (1e-3 * 2 ^ j) := sub_pos.2 hreach.2
    rcases lt_or_gt_of_ne hne with hneg | hpos
    · rw [preSign_neg hneg, one_mul, zero_add]
      exact mul_neg_of_neg_of_pos hneg r2
    · rw [preSign_pos hpos, neg_one_mul, zero_add]
      exact mul_neg_of_pos_of_neg hpos r1
  have hsg : ∀ d : ℝ, |preSign (f' 0) * d| = |d| := by
    intro d; unfold preSign; split_ifs <;> simp
  have hpow : ∀ i, i ≤ j → |0 + preSign (f' 0) * 1e-3 * 2 ^ i| ≤ 1e-3 * 2 ^ j := by
    intro i hi
    rw [zero_add, mul_assoc, hsg, abs_of_pos (by positivity)]
    exact mul_le_mul_of_nonneg_left (pow_le_pow_right₀ (by norm_num) hi) (by norm_num)
  have hinv : ∀ s s', (s.restarts = 0 ∧ s.delta = 1e-3 ∧ |s.b.1| ≤ 1e-3 * 2 ^ j ∧ (s.found = false → s.it ≤ j)) →
      preCond s → preBody f' 0 (f' 0) s = .ok s' →
      (s'.restarts = 0 ∧ s'.delta = 1e-3 ∧ |s'.b.1| ≤ 1e-3 * 2 ^ j ∧ (s'.found = false → s'.it ≤ j)) := by
    rintro s s' ⟨i1, i2, -, i4⟩ hc hb
    have hit := i4 hc.1
    have hp := hpow s.it hit
    have hn := hnd (1e-3 * 2 ^ s.it) (by positivity)
    rw [← mul_assoc] at hn
    simp only [preBody, i2] at hb
    split_ifs at hb with h1 h2 h3
    · simp only [Except.ok.injEq] at hb; subst hb
      exact ⟨i1, rfl, hp, by simp⟩
    · exact absurd ⟨h1, h2⟩ hn
    · exact absurd ⟨h1, h2⟩ hn
    · simp only [Except.ok.injEq] at hb; subst hb
      refine ⟨i1, rfl, hp, fun _ => ?_⟩
      by_contra hlt
      have : s.it = j := by simp only at hlt; omega
      rw [this, mul_assoc] at h1
      exact h1 hlast
  have hstart : preStart.restarts = 0 ∧ preStart.delta = 1e-3 ∧ |preStart.b.1| ≤ 1e-3 * 2 ^ j ∧
      (preStart.found = false → preStart.it ≤ j) :=
    ⟨rfl, rfl, by simp only [preStart, abs_zero]; exact hB.le, fun _ => Nat.zero_le _⟩
  have hpre : prefind f 0 (f' 0) = prefind f' 0 (f' 0) := by
    unfold prefind
    rw [← pyWhile_congr (body := preBody f' 0 (f' 0)) (body' := preBody f 0 (f' 0)) _ hinv ?_ hstart]
    rintro s ⟨-, i2, -, i4⟩ hc
    have hp := hpow s.it (i4 hc.1)
    simp only [preBody, i2, hff _ hp]
  rw [hpre]
  cases hr : prefind f' 0 (f' 0) with
  | none => rfl
  | some r =>
    obtain ⟨r, k⟩ := r
    cases r with
    | error e => rfl
    | ok eb =>
      have hb : |eb.1| ≤ 1e-3 * 2 ^ j := by
        unfold prefind at hr
        rw [Option.map_eq_some_iff] at hr
        obtain ⟨⟨w, k'⟩, hw, hr⟩ := hr
        simp only [Prod.mk.injEq] at hr
        obtain ⟨hr, -⟩ := hr
        rcases pyWhile_inv _ hinv hstart hw with ⟨s, rfl, hI, -⟩ | ⟨s, e, he, -⟩
        · simp only at hr
          split_ifs at hr
          simp only [Except.ok.injEq] at hr
          rw [← hr]; exact hI.2.2.1
        · simp only at he; subst he; cases hr
      simp only
      rw [bisection_congr hff (by rw [abs_zero]; exact hB.le) hb]

end SC
