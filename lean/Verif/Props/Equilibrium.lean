import Verif.Lemmas.Equilibrium
import Verif.Props.Balanced

/-! # C23, C24, C25: the equilibrium searches

`N eps_0 chi` is the axial force of the strain plane `[eps_0, chi, 0]`, an arbitrary function. -/

set_option autoImplicit false

namespace SC

open Spec

/-- **C25** (fixed curvature). The search stops for every response, after at most 482 section
integrations (1 + 381 trial planes + 100 bisection steps); the only exceptions are `ValueError` and
`UnboundLocalError`. -/
theorem C25_fixed_curvature_stops (N : ℝ → ℝ → ℝ) (n curv eps0 : ℝ) :
    ∃ r k, fixedCurvature N n curv eps0 = some (r, k) ∧ k ≤ 482 ∧
      ∀ e, r = .error e → e = .valueError ∨ e = .unboundLocal := by
  unfold fixedCurvature
  simp only
  split_ifs with h
  · exact ⟨_, _, rfl, by norm_num, by simp⟩
  · obtain ⟨r, k, hr, hk⟩ := prefind_terminates (fun e => N e curv - n) eps0 (N eps0 curv - n)
    rw [hr]
    cases r with
    | error e =>
      refine ⟨_, _, rfl, by omega, ?_⟩
      intro e' he
      simp only [Except.error.injEq] at he
      exact Or.inl (he ▸ (prefind_spec _ _ _ hr).2 e rfl)
    | ok p =>
      obtain ⟨eb, db⟩ := p
      obtain ⟨hdb, -, -⟩ := (prefind_spec _ _ _ hr).1 eb db rfl
      simp only
      obtain ⟨r', k', hr', hk'⟩ := bisection_terminates (fun e => N e curv - n) eps0 eb
        (N eps0 curv - n) db
      rw [hr']
      refine ⟨_, _, rfl, by omega, ?_⟩
      intro e he
      cases r' with
      | ok c => simp at he
      | error e' =>
        simp only [Except.error.injEq] at he
        subst he
        rw [hdb] at hr'
        rcases (bisection_spec (fun e => N e curv - n) eps0 eb hr').2 e' rfl with h | h
        · exact Or.inl h
        · exact Or.inr h.1

/-- **C25** (bracketing search). At most `20 * 20` trial planes (in fact 381). -/
theorem C25_bracketing_stops (f : ℝ → ℝ) (epsA dnA : ℝ) :
    ∃ r k, prefind f epsA dnA = some (r, k) ∧ k ≤ 20 * 20 := by
  obtain ⟨r, k, hr, hk⟩ := prefind_terminates f epsA dnA
  exact ⟨r, k, hr, by omega⟩

/-- **C25** (fixed pivot). The search stops for every section and response, after at most 102
integrations. -/
theorem C25_fixed_pivot_stops (N : ℝ → ℝ → ℝ) (parts : List Part) (rc yielding : Bool) (n : ℝ) :
    ∃ r k, fixedPivot N parts rc yielding n = some (r, k) ∧ k ≤ 102 ∧
      ∀ e, r = .error e → e = .valueError ∨ e = .unboundLocal := by
  unfold fixedPivot
  cases hb : balancedFailure parts rc yielding with
  | error e =>
    refine ⟨_, _, rfl, by norm_num, ?_⟩
    intro e' he
    simp only [Except.error.injEq] at he
    unfold balancedFailure at hb
    simp only at hb
    split at hb
    · simp only [Except.error.injEq] at hb
      exact Or.inr (by rw [← he, ← hb])
    · simp at hb
  | ok v =>
    obtain ⟨yn, yp, strain⟩ := v
    simp only [fixedPivotFrom]
    by_cases h : |N (strain 0) (strain 1) - n| ≤ 1e-2
    · rw [if_pos h]
      exact ⟨_, _, rfl, by norm_num, by simp⟩
    · rw [if_neg h]
      by_cases hlt : N (strain 0) (strain 1) < n
      · simp only [if_pos hlt]
        set f := fun chi => N (strain 0 + strain 1 * yp - chi * yp) chi - n with hf
        have hfa : N (strain 0) (strain 1) - n = f (strain 1) := by rw [hf]; simp
        rw [hfa]
        obtain ⟨r', k', hr', hk'⟩ := bisection_terminates f (strain 1) (-1e-13) (f (strain 1))
          (f (-1e-13))
        rw [show N (strain 0 + strain 1 * yp - -1e-13 * yp) (-1e-13) - n = f (-1e-13) from rfl, hr']
        refine ⟨_, _, rfl, by omega, ?_⟩
        intro e he
        cases r' with
        | ok c => simp at he
        | error e' =>
          simp only [Except.error.injEq] at he
          subst he
          rcases (bisection_spec f _ _ hr').2 e' rfl with h | h
          · exact Or.inl h
          · exact Or.inr h.1
      · simp only [if_neg hlt]
        set f := fun chi => N (strain 0 + strain 1 * yn - chi * yn) chi - n with hf
        have hfa : N (strain 0) (strain 1) - n = f (strain 1) := by rw [hf]; simp
        rw [hfa]
        obtain ⟨r', k', hr', hk'⟩ := bisection_terminates f (strain 1) (-1e-13) (f (strain 1))
          (f (-1e-13))
        rw [show N (strain 0 + strain 1 * yn - -1e-13 * yn) (-1e-13) - n = f (-1e-13) from rfl, hr']
        refine ⟨_, _, rfl, by omega, ?_⟩
        intro e he
        cases r' with
        | ok c => simp at he
        | error e' =>
          simp only [Except.error.injEq] at he
          subst he
          rcases (bisection_spec f _ _ hr').2 e' rfl with h | h
          · exact Or.inl h
          · exact Or.inr h.1

/-- Dyadic points between the start and a trial strain are dyadic multiples of `0.001` away. -/
theorem trial_dyadic {epsA dnA x t : ℝ} (hx : TrialAt epsA dnA x) (ht : DyadicUnit t) :
    ∃ s : ℝ, (s = 1 ∨ s = -1) ∧ ∃ p k : ℕ, epsA + t * (x - epsA) = epsA + s * 1e-3 * p / 2 ^ k := by
  obtain ⟨i, j, -, -, rfl⟩ := hx
  obtain ⟨p, k, -, rfl⟩ := ht
  refine ⟨preSign dnA, ?_, p * 2 ^ i, k + j, ?_⟩
  · unfold preSign; split_ifs <;> simp
  · push_cast
    rw [pow_add]
    field_simp
    ring

/-- The bracketing search goes to the side that should lessen the residual. -/
theorem trial_side {epsA dnA x : ℝ} (hx : TrialAt epsA dnA x) (hd : dnA ≠ 0) : dnA * (x - epsA) < 0 := by
  obtain ⟨i, j, -, -, rfl⟩ := hx
  have hp : (0 : ℝ) < 1e-3 * 2 ^ i / 2 ^ j := by positivity
  rcases lt_or_gt_of_ne hd with h | h
  · rw [preSign_neg h]
    have : epsA + 1 * 1e-3 * 2 ^ i / 2 ^ j - epsA = (1e-3 * 2 ^ i / 2 ^ j : ℝ) := by ring
    rw [this]
    exact mul_neg_of_neg_of_pos h hp
  · rw [preSign_pos h]
    have : epsA + -1 * 1e-3 * 2 ^ i / 2 ^ j - epsA = -(1e-3 * 2 ^ i / 2 ^ j : ℝ) := by ring
    rw [this]
    exact mul_neg_of_pos_of_neg h (neg_neg_of_pos hp)

/-- **C23** (partial: the statement without the second and third alternative is false, see
`C23_fixed_curvature_violated` and `C23_no_bracket_violated`).  For every response `N`: if
`find_equilibrium_fixed_curvature` returns, it returns `(e, curv, 0)` where
* the internal force balances `n` within `1e-2`, or
* some strain at a dyadic multiple of `0.001` from the start is in *exact* equilibrium (the
  bisection then may have thrown the bracket away), or
* the bracketing search ended at a strain whose residual has the sign of the first residual and
  is larger, although it lies in the direction that should lessen the residual (20 restarts used up
  without an error). -/
theorem C23_fixed_curvature_partial (N : ℝ → ℝ → ℝ) (n curv eps0 : ℝ) (e chi z : ℝ) (k : ℕ)
    (h : fixedCurvature N n curv eps0 = some (.ok (e, chi, z), k)) :
    chi = curv ∧ z = 0 ∧
    (|N e curv - n| ≤ 1e-2 ∨
      (∃ s : ℝ, (s = 1 ∨ s = -1) ∧ ∃ p m : ℕ, N (eps0 + s * 1e-3 * p / 2 ^ m) curv = n) ∨
      (∃ x, (N eps0 curv - n) * (x - eps0) < 0 ∧ 0 ≤ (N eps0 curv - n) * (N x curv - n) ∧ |N x curv - n| > |N eps0 curv - n|)) := by
  unfold fixedCurvature at h
  simp only at h
  split_ifs at h with h0
  · simp only [Option.some.injEq, Prod.mk.injEq, Except.ok.injEq] at h
    obtain ⟨⟨rfl, rfl, rfl⟩, -⟩ := h
    exact ⟨rfl, rfl, Or.inl h0⟩
  · set f := fun e => N e curv - n with hf
    cases hp : prefind f eps0 (N eps0 curv - n) with
    | none => rw [hp] at h; simp at h
    | some v =>
      obtain ⟨r, kp⟩ := v
      rw [hp] at h
      cases r with
      | error e => simp at h
      | ok b =>
        obtain ⟨eb, db⟩ := b
        obtain ⟨hdb, htr, hbr⟩ := (prefind_spec _ _ _ hp).1 eb db rfl
        simp only [Option.map_eq_some_iff] at h
        obtain ⟨⟨r', k'⟩, hbis, h⟩ := h
        simp only [Prod.mk.injEq] at h
        obtain ⟨h, -⟩ := h
        cases r' with
        | error e => simp at h
        | ok c =>
          simp only [Except.ok.injEq, Prod.mk.injEq] at h
          obtain ⟨rfl, rfl, rfl⟩ := h
          refine ⟨rfl, rfl, ?_⟩
          rw [hdb] at hbis hbr
          obtain ⟨-, hspec⟩ := (bisection_spec f eps0 eb hbis).1 c rfl
          rcases hbr with hbr | hbr
          · by_cases hz : ∃ t, DyadicUnit t ∧ f (eps0 + t * (eb - eps0)) = 0
            · right; left
              obtain ⟨t, ht, hz⟩ := hz
              obtain ⟨s, hs, p, m, hpm⟩ := trial_dyadic htr ht
              refine ⟨s, hs, p, m, ?_⟩
              rw [← hpm]
              simp only [hf] at hz
              linarith
            · left
              push Not at hz
              exact (hspec hbr hz).le
          · right; right
            refine ⟨eb, trial_side htr ?_, hbr⟩
            rintro h'
            apply h0
            rw [h', abs_zero]; norm_num

/-- **C23**, total correctness for well behaved sections (partial: monotone Lipschitz response, no
exact equilibrium at a dyadic multiple of `0.001` from the start): the search returns, and what it
returns is in equilibrium within `1e-2`. -/
theorem C23_monotone_partial (N : ℝ → ℝ → ℝ) (n curv eps0 L : ℝ)
    (hmono : Monotone fun e => N e curv)
    (hlip : ∀ x y, |N x curv - N y curv| ≤ L * |x - y|) (hL : L ≤ 1e24)
    (hreach : N (eps0 - 1e-3 * 2 ^ 19) curv < n ∧ n < N (eps0 + 1e-3 * 2 ^ 19) curv)
    (hexact : ∀ s : ℝ, (s = 1 ∨ s = -1) → ∀ p m : ℕ, N (eps0 + s * 1e-3 * p / 2 ^ m) curv ≠ n) :
    ∃ e k, fixedCurvature N n curv eps0 = some (.ok (e, curv, 0), k) ∧ |N e curv - n| ≤ 1e-2 := by
  have hex : ∃ e k, fixedCurvature N n curv eps0 = some (.ok (e, curv, 0), k) := by
    unfold fixedCurvature
    simp only
    split_ifs with h0
    · exact ⟨_, _, rfl⟩
    · set f := fun e => N e curv - n with hf
      have hfm : Monotone f := fun x y hxy => by
        have := hmono hxy
        simp only [hf] at *
        linarith
      have hf0 : f eps0 ≠ 0 := by
        intro h'
        apply h0
        have : N eps0 curv - n = 0 := h'
        rw [this]; norm_num
      obtain ⟨eb, kp, hp, hbr, hdist⟩ := prefind_monotone f eps0 hfm hf0
        ⟨by simp only [hf]; linarith [hreach.1], by simp only [hf]; linarith [hreach.2]⟩
      rw [show N eps0 curv - n = f eps0 from rfl, hp]
      simp only
      obtain ⟨c, k, hbis⟩ := bisection_lipschitz f eps0 eb L (by
          intro t u _ _
          have := hlip (eps0 + t * (eb - eps0)) (eps0 + u * (eb - eps0))
          simp only [hf]
          have e1 : N (eps0 + t * (eb - eps0)) curv - n - (N (eps0 + u * (eb - eps0)) curv - n) =
            N (eps0 + t * (eb - eps0)) curv - N (eps0 + u * (eb - eps0)) curv := by ring
          have e2 : eps0 + t * (eb - eps0) - (eps0 + u * (eb - eps0)) = (t - u) * (eb - eps0) := by ring
          rw [e1, mul_assoc, ← abs_mul, ← e2]
          exact this)
        (by
          calc L * |eb - eps0| ≤ 1e24 * (1e-3 * 2 ^ 19) := mul_le_mul hL hdist (abs_nonneg _) (by norm_num)
            _ ≤ _ := by norm_num)
        (by
          have : |f eps0| ≤ |f eps0 - f eb| := by
            rcases mul_neg_iff.1 hbr with ⟨h1, h2⟩ | ⟨h1, h2⟩
            · rw [abs_of_pos h1, abs_of_pos (by linarith)]; linarith
            · rw [abs_of_neg h1, abs_of_neg (by linarith)]; linarith
          exact lt_of_lt_of_le (not_le.1 h0) this)
      rw [hbis]
      exact ⟨_, _, rfl⟩
  obtain ⟨e, k, he⟩ := hex
  refine ⟨e, k, he, ?_⟩
  obtain ⟨-, -, h | ⟨s, hs, p, m, hz⟩ | ⟨x, hx0, hx1, hx2⟩⟩ :=
    C23_fixed_curvature_partial N n curv eps0 e curv 0 k he
  · exact h
  · exact absurd hz (hexact s hs p m)
  · exfalso
    rcases mul_neg_iff.1 hx0 with ⟨h1, h2⟩ | ⟨h1, h2⟩
    · have hm : N x curv ≤ N eps0 curv := hmono (by linarith)
      have h3 : 0 ≤ N x curv - n := by
        by_contra hc
        push Not at hc
        linarith [mul_neg_of_pos_of_neg h1 hc]
      rw [abs_of_nonneg h3, abs_of_pos h1] at hx2
      linarith
    · have hm : N eps0 curv ≤ N x curv := hmono (by linarith)
      have h3 : N x curv - n ≤ 0 := by
        by_contra hc
        push Not at hc
        linarith [mul_neg_of_neg_of_pos h1 hc]
      rw [abs_of_nonpos h3, abs_of_neg h1] at hx2
      linarith

/-- The hypotheses hold for a linear elastic section (`EA = 3e9`) loaded by a force that is not a
dyadic multiple of `EA/1000` away: start 0, target strain 1/3000. -/
example : ∃ e k, fixedCurvature (fun e _ => 3e9 * e) 1e6 0.002 0 = some (.ok (e, 0.002, 0), k) ∧
    |3e9 * e - 1e6| ≤ 1e-2 := by
  refine C23_monotone_partial (fun e _ => 3e9 * e) 1e6 0.002 0 3e9 ?_ ?_ (by norm_num)
    (by norm_num) ?_
  · intro x y h; simp only; linarith
  · intro x y; rw [← mul_sub, abs_mul, abs_of_pos (by norm_num : (0:ℝ) < 3e9)]
  · intro s hs p m h
    have h2 : (0:ℝ) < 2 ^ m := by positivity
    have h' : s * (3 * p) = 2 ^ m := by
      field_simp at h
      linarith
    rcases hs with rfl | rfl
    · have h3 : 3 * p = 2 ^ m := by
        have : ((3 * p : ℕ) : ℝ) = ((2 ^ m : ℕ) : ℝ) := by push_cast; linarith
        exact_mod_cast this
      have : 3 ∣ 2 ^ m := ⟨p, h3.symm⟩
      exact absurd (Nat.Prime.dvd_of_dvd_pow Nat.prime_three this) (by norm_num)
    · have : (0:ℝ) ≤ p := Nat.cast_nonneg p
      linarith


/-- Bisection on `[m + h, m - h]` of a linear residual vanishing at `m`: the first midpoint is the
exact root, the bracket is lost, and the wrong end is returned. -/
theorem bisection_linear_wrong (K m h : ℝ) (hlow : 1e-2 < |K * h|)
    (hhigh : |K * h| ≤ 2 ^ 98 * 1e-2) :
    ∃ c k, bisection (fun e => K * (e - m)) (m + h) (K * h) (m - h) (K * -h) = some (.ok c, k) ∧
      |K * (c - m) - K * -h| ≤ 1e-2 := by
  obtain ⟨r, k, hr, -⟩ := bisection_terminates (fun e => K * (e - m)) (m + h) (m - h) (K * h) (K * -h)
  have hr0 := hr
  unfold bisection at hr
  rw [Option.map_eq_some_iff] at hr
  obtain ⟨⟨w, k'⟩, hw, hr⟩ := hr
  simp only [Prod.mk.injEq] at hr
  obtain ⟨hr, rfl⟩ := hr
  rcases pyWhile_inv (fun s => s = ⟨m + h, K * h, m - h, K * -h, none, 0⟩ ∨
      ∃ i : ℕ, s.it = i + 1 ∧ s.a = m - h * (1 - 1 / 2 ^ i) ∧ s.da = K * (s.a - m) ∧ s.b = m - h ∧
        s.db = K * -h ∧ s.c = some s.a ∧ (∀ j, i = j + 1 → 1e-2 < |K * h| / 2 ^ j))
    (by
      rintro s s' hI hc hb
      simp only [bisBody] at hb
      rcases hI with rfl | ⟨i, h1, h2, h3, h4, h5, h6, h7⟩
      · have e0 : (m + h + (m - h)) / 2 = m := by ring
        simp only [e0, sub_self, mul_zero, zero_mul, lt_irrefl, if_false, Except.ok.injEq] at hb
        subst hb
        exact Or.inr ⟨0, rfl, by simp, by simp, rfl, rfl, rfl, by simp⟩
      · have hcle : (s.a + s.b) / 2 = m - h * (1 - 1 / 2 ^ (i + 1)) := by
          rw [h2, h4, pow_succ]; field_simp; ring
        have hp1 : (0:ℝ) ≤ 1 - 1 / 2 ^ (i + 1) := by
          rw [sub_nonneg, div_le_one (by positivity)]
          exact one_le_pow₀ (by norm_num)
        have hp0 : (0:ℝ) ≤ 1 - 1 / 2 ^ i := by
          rw [sub_nonneg, div_le_one (by positivity)]
          exact one_le_pow₀ (by norm_num)
        have hnn : ¬ K * ((s.a + s.b) / 2 - m) * s.da < 0 := by
          rw [h3, hcle, h2, not_lt]
          have : K * (m - h * (1 - 1 / 2 ^ (i + 1)) - m) * (K * (m - h * (1 - 1 / 2 ^ i) - m)) =
            (K * h) ^ 2 * ((1 - 1 / 2 ^ (i + 1)) * (1 - 1 / 2 ^ i)) := by ring
          rw [this]
          positivity
        rw [if_neg hnn] at hb
        simp only [Except.ok.injEq] at hb
        subst hb
        refine Or.inr ⟨i + 1, by simp [h1], hcle, rfl, h4, h5, rfl, ?_⟩
        intro j hj
        have hj' : i = j := by omega
        subst hj'
        have := hc.1
        rw [h3, h5, h2] at this
        have e : K * (m - h * (1 - 1 / 2 ^ i) - m) - K * -h = K * h / 2 ^ i := by ring
        rw [e, abs_div, abs_of_pos (by positivity : (0:ℝ) < 2 ^ i)] at this
        exact this)
    (Or.inl rfl) hw with ⟨s, rfl, hI, hn⟩ | ⟨s, e, -, -, -, hb⟩
  · rcases hI with rfl | ⟨i, h1, h2, h3, h4, h5, h6, h7⟩
    · exfalso
      apply hn
      refine ⟨?_, by simp⟩
      simp only
      have : K * h - K * -h = 2 * (K * h) := by ring
      rw [this, abs_mul, abs_two]
      linarith
    · have hlt : ¬ s.it ≥ 100 := by
        intro h100
        have hm : ∃ j, i = j + 1 ∧ 98 ≤ j := ⟨i - 1, by omega, by omega⟩
        obtain ⟨j, hj, hj98⟩ := hm
        have h8 := h7 j hj
        rw [lt_div_iff₀ (by positivity)] at h8
        have : (2:ℝ) ^ 98 ≤ 2 ^ j := pow_le_pow_right₀ (by norm_num) hj98
        nlinarith
      simp only [if_neg hlt, h6] at hr
      subst hr
      refine ⟨_, _, hr0, ?_⟩
      by_contra hcon
      apply hn
      refine ⟨?_, by omega⟩
      rw [h3, h5]
      exact not_le.1 hcon
  · simp only [bisBody] at hb
    split_ifs at hb

/-- **C23 is violated** by every linear elastic section with axial stiffness between `100` and
`1e20`: with no axial load, started at strain `0.0005`, the search meets the exact solution
`eps_0 = 0` at the first midpoint, drops it, and returns a strain next to `-0.0005`, whose axial
force is not balanced (it is within `1e-2` of the force at `-0.0005`). -/
theorem C23_fixed_curvature_violated (EA curv : ℝ) (hlow : 100 ≤ EA) (hhigh : EA ≤ 1e20) :
    ∃ e k, fixedCurvature (fun eps _ => EA * eps) 0 curv 5e-4 = some (.ok (e, curv, 0), k) ∧
      |EA * e - EA * -5e-4| ≤ 1e-2 ∧ 1e-2 < |EA * e - 0| := by
  obtain ⟨c, k, hbis, hc⟩ := bisection_linear_wrong EA 0 5e-4
    (by rw [abs_of_pos (by norm_num; linarith)]; norm_num; linarith)
    (by rw [abs_of_pos (by norm_num; linarith)]; norm_num; linarith)
  simp only [sub_zero, zero_sub, zero_add] at hbis hc
  have hneg : 1e-2 < |EA * c - 0| := by
    rw [abs_le] at hc
    have : EA * c < -1e-2 := by norm_num at hc ⊢; linarith [hc.2]
    rw [abs_of_neg (by linarith)]; linarith
  have hpre : prefind (fun e => EA * e - 0) 5e-4 (EA * 5e-4 - 0) =
      some (.ok (-5e-4, EA * -5e-4 - 0), 1) := by
    have hs : preSign (EA * 5e-4 - 0) = -1 := preSign_pos (by norm_num; linarith)
    have hprod : EA * 5e-4 * (EA * -5e-4) < 0 := by norm_num; nlinarith
    have hbody : preBody (fun e => EA * e - 0) 5e-4 (EA * 5e-4 - 0) preStart =
        .ok ⟨true, 1, 0, 1e-3, 0, (-5e-4, EA * -5e-4 - 0)⟩ := by
      have e1 : (5e-4 : ℝ) + -1 * preStart.delta * 2 ^ preStart.it = -5e-4 := by
        norm_num [preStart]
      simp only [sub_zero] at hs
      simp only [preBody, sub_zero, hs, e1, if_pos hprod]
      rfl
    unfold prefind
    rw [pyWhile_step (by simp [preCond, preStart]) hbody, pyWhile_stop (by simp [preCond])]
    simp
  have h0 : ¬ |EA * 5e-4 - 0| ≤ 1e-2 := by
    rw [not_le, sub_zero, abs_of_pos (by norm_num; linarith)]
    norm_num
    linarith
  have hres : fixedCurvature (fun eps _ => EA * eps) 0 curv 5e-4 =
      some (.ok (c, curv, 0), k + 1 + 1) := by
    unfold fixedCurvature
    simp only [if_neg h0, hpre]
    simp only [sub_zero]
    rw [hbis]
    rfl
  exact ⟨c, _, hres, hc, hneg⟩

example : ∃ e k, fixedCurvature (fun eps _ => 2e9 * eps) 0 1e-5 5e-4 = some (.ok (e, 1e-5, 0), k) ∧
      |2e9 * e - 2e9 * -5e-4| ≤ 1e-2 ∧ 1e-2 < |2e9 * e - 0| :=
  C23_fixed_curvature_violated 2e9 1e-5 (by norm_num) (by norm_num)


/-- On a response that diverges in the search direction the bracketing search uses up its 20
restarts and returns without a bracket and without raising. -/
theorem prefind_diverging (f : ℝ → ℝ) (epsA : ℝ) (h0 : 0 < f epsA)
    (hdiv : ∀ x, x < epsA → f epsA < f x) :
    ∃ eb k, prefind f epsA (f epsA) = some (.ok (eb, f eb), k) ∧ eb < epsA ∧
      1e-3 / 2 ^ 19 ≤ epsA - eb ∧ epsA - eb ≤ 1e-3 * 2 ^ 19 := by
  obtain ⟨r, k, hr, -⟩ := prefind_terminates f epsA (f epsA)
  have hspec := prefind_spec f epsA (f epsA) hr
  have hr' := hr
  unfold prefind at hr'
  rw [Option.map_eq_some_iff] at hr'
  obtain ⟨⟨w, k'⟩, hw, hr'⟩ := hr'
  simp only [Prod.mk.injEq] at hr'
  obtain ⟨hr', rfl⟩ := hr'
  rcases pyWhile_inv (fun s => PreInv f epsA (f epsA) s ∧ s.found = false ∧ s.it ≤ s.steps + 1 ∧
      s.steps ≤ 10)
    (fun s s' hI hc hb => ⟨preInv_step f epsA (f epsA) s s' hI.1 hc hb, by
      obtain ⟨hI, hfo, hit, hst⟩ := hI
      have hx : epsA + preSign (f epsA) * s.delta * 2 ^ s.it < epsA := by
        rw [preSign_pos h0, hI.hdelta]
        have : (0:ℝ) < 1e-3 / 2 ^ s.restarts * 2 ^ s.it := by positivity
        linarith
      have hgt := hdiv _ hx
      have hn1 : ¬ f epsA * f (epsA + preSign (f epsA) * s.delta * 2 ^ s.it) < 0 := by
        rw [not_lt]; exact mul_nonneg h0.le (h0.le.trans hgt.le)
      have hp2 : |f (epsA + preSign (f epsA) * s.delta * 2 ^ s.it)| > |f epsA| := by
        rw [abs_of_pos h0, abs_of_pos (h0.trans hgt)]; exact hgt
      simp only [preBody, if_neg hn1, if_pos hp2] at hb
      split_ifs at hb with h3 <;> simp only [Except.ok.injEq] at hb <;> subst hb
      · simp
      · exact ⟨rfl, by simp only; omega, by simp only; omega⟩⟩)
    ⟨preInv_start f epsA (f epsA), rfl, by simp [preStart], by simp [preStart]⟩ hw with
    ⟨s, rfl, ⟨hI, hfo, hit, hst⟩, hn⟩ | ⟨s, e, -, -, -, hb⟩
  · simp only at hr'
    rw [if_neg (by omega)] at hr'
    subst hr'
    obtain ⟨e1, ⟨i, j, hi, hj, he⟩, -⟩ := hspec.1 s.b.1 s.b.2 rfl
    rw [preSign_pos h0] at he
    have hd : epsA - s.b.1 = 1e-3 * 2 ^ i / 2 ^ j := by rw [he]; ring
    have h1 : (2:ℝ) ^ i ≤ 2 ^ 19 := pow_le_pow_right₀ (by norm_num) (by omega)
    have h2 : (1:ℝ) ≤ 2 ^ j := one_le_pow₀ (by norm_num)
    have h3 : (2:ℝ) ^ j ≤ 2 ^ 19 := pow_le_pow_right₀ (by norm_num) (by omega)
    have h4 : (1:ℝ) ≤ 2 ^ i := one_le_pow₀ (by norm_num)
    refine ⟨s.b.1, k', by rw [hr, ← e1], ?_, ?_, ?_⟩
    · have : (0:ℝ) < 1e-3 * 2 ^ i / 2 ^ j := by positivity
      linarith
    · rw [hd, div_le_div_iff₀ (by positivity) (by positivity)]
      nlinarith
    · rw [hd, div_le_iff₀ (by positivity)]
      nlinarith [mul_le_mul h1 h2 (by norm_num) (by positivity)]
  · simp only [preBody] at hb
    split_ifs at hb

/-- **C23 is violated** a second way, without any exact midpoint: a section on a softening branch
(force `1 - 1e7 eps_0`, in equilibrium at `eps_0 = 1e-7`), started at `0`.  The bracketing search
walks away from the solution, gives up after 20 restarts *without raising*, and the bisection
then returns a strain whose residual is at least 1. -/
theorem C23_no_bracket_violated (curv : ℝ) :
    ∃ e k, fixedCurvature (fun eps _ => 1 - 1e7 * eps) 0 curv 0 = some (.ok (e, curv, 0), k) ∧
      1 ≤ |(1 - 1e7 * e) - 0| := by
  set f : ℝ → ℝ := fun eps => 1 - 1e7 * eps - 0 with hf
  have hf0 : f 0 = 1 := by simp [hf]
  obtain ⟨eb, kp, hp, hlt, hge, hle⟩ := prefind_diverging f 0 (by rw [hf0]; norm_num) (by
    intro x hx; simp only [hf]; linarith)
  have hfe : ∀ x y, f x - f y = 1e7 * (y - x) := by intro x y; simp only [hf]; ring
  obtain ⟨c, k, hbis⟩ := bisection_lipschitz f 0 eb 1e7 (by
      intro t u _ _
      rw [hfe, abs_mul, abs_of_pos (by norm_num : (0:ℝ) < 1e7), mul_assoc, ← abs_mul]
      have : 0 + u * (eb - 0) - (0 + t * (eb - 0)) = -((t - u) * (eb - 0)) := by ring
      rw [this, abs_neg])
    (by
      rw [abs_of_neg (by linarith)]
      norm_num at hle ⊢
      linarith)
    (by
      rw [hfe, abs_mul, abs_of_pos (by norm_num : (0:ℝ) < 1e7), sub_zero, abs_of_neg hlt]
      norm_num at hge ⊢
      linarith)
  obtain ⟨⟨t, ht, hct⟩, -⟩ := (bisection_spec f 0 eb hbis).1 c rfl
  have hc0 : c ≤ 0 := by
    rw [hct]
    have := ht.mem_Icc.1
    nlinarith
  have hres : fixedCurvature (fun eps _ => 1 - 1e7 * eps) 0 curv 0 =
      some (.ok (c, curv, 0), k + kp + 1) := by
    unfold fixedCurvature
    have h1 : ¬ |(1 - 1e7 * 0 - 0 : ℝ)| ≤ 1e-2 := by norm_num
    have h2 : (1 - 1e7 * 0 - 0 : ℝ) = f 0 := rfl
    simp only [if_neg h1]
    rw [h2, show (fun e : ℝ => 1 - 1e7 * e - 0) = f from rfl, hp]
    simp only [hbis]
    rfl
  refine ⟨c, _, hres, ?_⟩
  rw [abs_of_nonneg (by linarith)]
  linarith


/-! ### C24: fixed pivot -/

/-- Shape of every result of the pivot search. -/
theorem fixedPivotFrom_spec (N : ℝ → ℝ → ℝ) (n yn yp : ℝ) (strain : Fin 3 → ℝ) (e chi z : ℝ) (k : ℕ)
    (h : fixedPivotFrom N n yn yp strain = some (.ok (e, chi, z), k)) :
    z = 0 ∧ ((e = strain 0 ∧ chi = strain 1 ∧ |N e chi - n| ≤ 1e-2) ∨
      ∃ y, y = (if N (strain 0) (strain 1) < n then yp else yn) ∧
        e + chi * y = strain 0 + strain 1 * y ∧
        (∃ t, DyadicUnit t ∧ chi = strain 1 + t * (-1e-13 - strain 1)) ∧
        ((N (strain 0) (strain 1) - n) *
            (N (strain 0 + strain 1 * y - (-1e-13) * y) (-1e-13) - n) < 0 →
          (∀ t, DyadicUnit t → N (strain 0 + strain 1 * y - (strain 1 + t * (-1e-13 - strain 1)) * y)
            (strain 1 + t * (-1e-13 - strain 1)) ≠ n) → |N e chi - n| ≤ 1e-2)) := by
  unfold fixedPivotFrom at h
  simp only at h
  split_ifs at h with h0 hlt
  · simp only [Option.some.injEq, Prod.mk.injEq, Except.ok.injEq] at h
    obtain ⟨⟨rfl, rfl, rfl⟩, -⟩ := h
    exact ⟨rfl, Or.inl ⟨rfl, rfl, h0⟩⟩
  all_goals
    rw [Option.map_eq_some_iff] at h
    obtain ⟨⟨r, k'⟩, hbis, h⟩ := h
    simp only [Prod.mk.injEq] at h
    obtain ⟨h, -⟩ := h
    cases r with
    | error e => simp at h
    | ok c =>
      simp only [Except.ok.injEq, Prod.mk.injEq] at h
      obtain ⟨rfl, rfl, rfl⟩ := h
      refine ⟨rfl, Or.inr ⟨_, rfl, ?_⟩⟩
      first | rw [if_pos hlt] | rw [if_neg hlt]
      refine ⟨by ring, ?_⟩
      first
      | set f := fun chi => N (strain 0 + strain 1 * yp - chi * yp) chi - n with hf
        have hfa : N (strain 0) (strain 1) - n = f (strain 1) := by rw [hf]; simp
        rw [hfa] at hbis ⊢
        have hs := (bisection_spec f _ _ hbis).1 c rfl
        refine ⟨hs.1, fun hbr hz => ?_⟩
        refine (hs.2 hbr ?_).le
        intro t ht h0
        exact hz t ht (by simp only [hf] at h0; linarith)
      | set f := fun chi => N (strain 0 + strain 1 * yn - chi * yn) chi - n with hf
        have hfa : N (strain 0) (strain 1) - n = f (strain 1) := by rw [hf]; simp
        rw [hfa] at hbis ⊢
        have hs := (bisection_spec f _ _ hbis).1 c rfl
        refine ⟨hs.1, fun hbr hz => ?_⟩
        refine (hs.2 hbr ?_).le
        intro t ht h0
        exact hz t ht (by simp only [hf] at h0; linarith)

/-- **C24** (pivot). Whatever the response: every returned plane `[e, chi, 0]` keeps a pivot fibre
exactly at its limit strain: the positive limit of some part at that part's lower edge, or the
negative limit of some part at its upper edge. -/
theorem C24_pivot (N : ℝ → ℝ → ℝ) (parts : List Part) (rc yielding : Bool) (n : ℝ)
    (hn : ∀ g ∈ parts, compressionLimit yielding rc g ≤ 0) (hp : ∀ g ∈ parts, 0 ≤ tensionLimit yielding g)
    (e chi z : ℝ) (k : ℕ)
    (h : fixedPivot N parts rc yielding n = some (.ok (e, chi, z), k)) :
    z = 0 ∧
    ((∃ g ∈ parts, ∀ x, planeStrain ![e, chi, z] x g.yLow = tensionLimit yielding g) ∨
     (∃ o ∈ parts, ∀ x, planeStrain ![e, chi, z] x o.yHigh = compressionLimit yielding rc o)) := by
  unfold fixedPivot at h
  cases hb : balancedFailure parts rc yielding with
  | error er => rw [hb] at h; simp at h
  | ok v =>
    obtain ⟨yn, yp, strain⟩ := v
    rw [hb] at h
    simp only at h
    obtain ⟨⟨g, hg, o, ho, hyp, hyn, -, hposs, hnegs⟩, -, -, h2⟩ :=
      C22_balanced parts rc yielding hn hp yn yp strain hb
    obtain ⟨hz, hcase⟩ := fixedPivotFrom_spec N n yn yp strain e chi z k h
    have hp0 := hposs 0
    have hn0 := hnegs 0
    simp only [planeStrain, h2, mul_zero, sub_zero] at hp0 hn0
    refine ⟨hz, ?_⟩
    rcases hcase with ⟨rfl, rfl, -⟩ | ⟨y, hy, hey, -, -⟩
    · left
      refine ⟨g, hg, fun x => ?_⟩
      rw [← hposs x, hz, hyp]
      simp [planeStrain, h2]
    · by_cases hlt : N (strain 0) (strain 1) < n
      · rw [if_pos hlt] at hy
        left
        refine ⟨g, hg, fun x => ?_⟩
        rw [← hposs x, hz, hyp, ← hy]
        simp [planeStrain, h2]
        linarith
      · rw [if_neg hlt] at hy
        right
        refine ⟨o, ho, fun x => ?_⟩
        rw [← hnegs x, hz, hyn, ← hy]
        simp [planeStrain, h2]
        linarith

/-- **C24** (equilibrium; partial, false without the two hypotheses, see `C24_violated`).  If the
residuals of the balanced plane and of the (nearly) uniform plane through the pivot have opposite
signs, and no plane at a dyadic fraction between the two curvatures is in exact equilibrium, then a
returned plane balances `n` within `1e-2`. -/
theorem C24_equilibrium_partial (N : ℝ → ℝ → ℝ) (parts : List Part) (rc yielding : Bool) (n : ℝ)
    (yn yp : ℝ) (strain : Fin 3 → ℝ) (hb : balancedFailure parts rc yielding = .ok (yn, yp, strain))
    (y : ℝ) (hy : y = if N (strain 0) (strain 1) < n then yp else yn)
    (hbr : (N (strain 0) (strain 1) - n) *
        (N (strain 0 + strain 1 * y - (-1e-13) * y) (-1e-13) - n) < 0)
    (hexact : ∀ p m : ℕ, p ≤ 2 ^ m →
      N (strain 0 + strain 1 * y - (strain 1 + (p / 2 ^ m : ℝ) * (-1e-13 - strain 1)) * y)
        (strain 1 + (p / 2 ^ m : ℝ) * (-1e-13 - strain 1)) ≠ n)
    (e chi z : ℝ) (k : ℕ) (h : fixedPivot N parts rc yielding n = some (.ok (e, chi, z), k)) :
    |N e chi - n| ≤ 1e-2 := by
  unfold fixedPivot at h
  rw [hb] at h
  simp only at h
  obtain ⟨-, ⟨-, -, h'⟩ | ⟨y', hy', -, -, h'⟩⟩ := fixedPivotFrom_spec N n yn yp strain e chi z k h
  · exact h'
  · rw [← hy] at hy'
    subst hy'
    refine h' hbr ?_
    rintro t ⟨p, m, hpm, rfl⟩
    exact hexact p m hpm


/-- Planes of the pivot search for a linear elastic prism whose axis is at height `yc`. -/
theorem fixedPivotFrom_linear (EA yc n : ℝ) (yn yp : ℝ) (strain : Fin 3 → ℝ)
    (h0 : ¬ |EA * (strain 0 + strain 1 * yc) - n| ≤ 1e-2)
    (hlt : EA * (strain 0 + strain 1 * yc) < n) (m : ℝ)
    (hm : EA * (strain 0 + strain 1 * yp + m * (yc - yp)) = n)
    (c : ℝ) (k : ℕ)
    (hbis : bisection (fun x => EA * (yc - yp) * (x - m)) (strain 1) (EA * (yc - yp) * (strain 1 - m))
      (-1e-13) (EA * (yc - yp) * (-1e-13 - m)) = some (.ok c, k)) :
    fixedPivotFrom (fun e chi => EA * (e + chi * yc)) n yn yp strain =
      some (.ok (strain 0 + strain 1 * yp - c * yp, c, 0), k + 2) := by
  have hf : ∀ x, EA * (strain 0 + strain 1 * yp - x * yp + x * yc) - n = EA * (yc - yp) * (x - m) := by
    intro x; rw [← hm]; ring
  have ha : EA * (strain 0 + strain 1 * yc) - n = EA * (yc - yp) * (strain 1 - m) := by
    rw [← hf]; ring
  unfold fixedPivotFrom
  simp only [if_neg h0, if_pos hlt, hf]
  rw [ha, hbis]
  rfl

/-- The balanced failure of a section with a single homogeneous part. -/
theorem balancedFailure_single (g : Part) (yielding : Bool) (rc : Bool) (hlt : g.yLow < g.yHigh)
    (hslope : (g.posLimit yielding - g.negLimit yielding rc) / (g.yHigh - g.yLow) < 1e10) :
    balancedFailure [g] rc yielding = .ok (g.yHigh, g.yLow,
      ![g.negLimit yielding rc +
          (g.posLimit yielding - g.negLimit yielding rc) / (g.yHigh - g.yLow) * g.yHigh,
        -((g.posLimit yielding - g.negLimit yielding rc) / (g.yHigh - g.yLow)), 0]) := by
  have e1 : -(g.posLimit yielding - g.negLimit yielding rc) / (g.yLow - g.yHigh) =
      (g.posLimit yielding - g.negLimit yielding rc) / (g.yHigh - g.yLow) := by
    rw [← neg_sub g.yHigh, neg_div_neg_eq]
  simp only [balancedFailure, List.flatMap_cons, List.flatMap_nil, List.map_cons, List.map_nil,
    List.append_nil, List.foldl_cons, List.foldl_nil, balStep, if_neg (not_le.2 hlt), e1,
    if_pos hslope]

/-- **C24 is violated**: a linear elastic square prism, edges at `y = -1` and `y = 1`, strain limits
`±0.001`, `EA = 1e6`, and the axial load that is in equilibrium exactly half way between the balanced and the
uniform plane.  The call returns, but the returned plane is off by more than 400. -/
theorem C24_violated :
    ∃ e chi k, fixedPivot (fun e chi => 1e6 * (e + chi * 0))
      [⟨true, false, -1, 1, fun _ => (-(1 / 1000), 1 / 1000)⟩] false false (1e6 * (0.001 - 1e-13) / 2) =
        some (.ok (e, chi, 0), k) ∧
      400 < |1e6 * (e + chi * 0) - 1e6 * (0.001 - 1e-13) / 2| := by
  have hbal := balancedFailure_single ⟨true, false, -1, 1, fun _ => (-(1 / 1000), 1 / 1000)⟩ false false
    (by norm_num) (by norm_num [Part.posLimit, Part.negLimit])
  norm_num [Part.posLimit, Part.negLimit] at hbal
  obtain ⟨c, k, hbis, hc⟩ := bisection_linear_wrong 1e6 (-(0.001 + 1e-13) / 2) (-(0.001 - 1e-13) / 2)
    (by norm_num) (by norm_num)
  have hrun := fixedPivotFrom_linear 1e6 0 (1e6 * (0.001 - 1e-13) / 2) 1 (-1) ![0, -(1 / 1000), 0]
    (by norm_num [abs_of_neg]) (by norm_num) (-(0.001 + 1e-13) / 2) (by norm_num) c k (by
      have e1 : (-(0.001 + 1e-13) / 2 + -(0.001 - 1e-13) / 2 : ℝ) = ![0, -(1 / 1000), (0:ℝ)] 1 := by
        norm_num
      have e2 : (-(0.001 + 1e-13) / 2 - -(0.001 - 1e-13) / 2 : ℝ) = -1e-13 := by norm_num
      have e3 : (1e6 * (0 - -1) : ℝ) = 1e6 := by norm_num
      rw [e1, e2] at hbis
      rw [e3]
      convert hbis using 2 <;> norm_num)
  have hres := (show fixedPivot (fun e chi => 1e6 * (e + chi * 0))
      [⟨true, false, -1, 1, fun _ => (-(1 / 1000), 1 / 1000)⟩] false false
      (1e6 * (0.001 - 1e-13) / 2) = fixedPivotFrom (fun e chi => 1e6 * (e + chi * 0))
      (1e6 * (0.001 - 1e-13) / 2) 1 (-1) ![0, -(1 / 1000), 0] by
    unfold fixedPivot; rw [hbal]).trans hrun
  refine ⟨_, c, k + 2, hres, ?_⟩
  · rw [abs_le] at hc
    have h1 : (![0, -(1 / 1000), (0:ℝ)] 0 + ![0, -(1 / 1000), (0:ℝ)] 1 * -1 - c * -1 + c * 0) =
      1 / 1000 + c := by norm_num
    rw [h1, lt_abs]
    left
    norm_num at hc ⊢
    linarith [hc.1, hc.2]


/-! ### C51: the failure plane of the strength calculation is admissible -/

/-- **C51** (partial; `hweakp`, `hweakn` exclude the situation of `C51_violated`).  If no part is
weaker than the two parts that govern the balanced failure, then a plane returned by the pivot
search exceeds no part's limit strains anywhere in the section. -/
theorem C51_admissible_partial (N : ℝ → ℝ → ℝ) (parts : List Part) (rc yielding : Bool) (n : ℝ)
    (hn : ∀ g ∈ parts, compressionLimit yielding rc g ≤ 0) (hp : ∀ g ∈ parts, 0 ≤ tensionLimit yielding g)
    (yn yp : ℝ) (strain : Fin 3 → ℝ) (hb : balancedFailure parts rc yielding = .ok (yn, yp, strain))
    (hsteep : strain 1 ≤ -1e-13)
    (hweakp : ∀ g ∈ parts, planeStrain strain 0 yp ≤ tensionLimit yielding g)
    (hweakn : ∀ g ∈ parts, compressionLimit yielding rc g ≤ planeStrain strain 0 yn)
    (e chi z : ℝ) (k : ℕ) (h : fixedPivot N parts rc yielding n = some (.ok (e, chi, z), k)) :
    ∀ g ∈ parts, ∀ x y, g.yLow ≤ y → y ≤ g.yHigh →
      compressionLimit yielding rc g ≤ planeStrain ![e, chi, z] x y ∧
      planeStrain ![e, chi, z] x y ≤ tensionLimit yielding g := by
  obtain ⟨-, hadm, -, h2⟩ := C22_balanced parts rc yielding hn hp yn yp strain hb
  unfold fixedPivot at h
  rw [hb] at h
  simp only at h
  obtain ⟨hz, hcase⟩ := fixedPivotFrom_spec N n yn yp strain e chi z k h
  intro g hg x y hlo hhi
  have hbal := hadm g hg x y hlo hhi
  have hwp := hweakp g hg
  have hwn := hweakn g hg
  have hng := hn g hg
  have hpg := hp g hg
  have hpl : planeStrain ![e, chi, z] x y = e + chi * y := by simp [planeStrain, hz]
  have hst : ∀ x y, planeStrain strain x y = strain 0 + strain 1 * y := by
    intro x y; simp [planeStrain, h2]
  rw [hpl]
  rw [hst] at hbal hwp hwn
  rcases hcase with ⟨rfl, rfl, -⟩ | ⟨y0, hy0, hey, ⟨t, ht, hchi⟩, -⟩
  · exact hbal
  · have ht' := ht.mem_Icc
    have h1 : strain 1 ≤ chi := by rw [hchi]; nlinarith
    have h3 : chi ≤ 0 := by rw [hchi]; nlinarith
    have hnn : (0:ℝ) ≤ strain 0 + strain 1 * yp := by
      obtain ⟨⟨g', hg', o', ho', -, -, -, hp', -⟩, -⟩ := C22_balanced parts rc yielding hn hp yn yp strain hb
      have := hp' 0
      rw [hst] at this
      rw [this]; exact hp g' hg'
    have hnp : strain 0 + strain 1 * yn ≤ 0 := by
      obtain ⟨⟨g', hg', o', ho', -, -, -, -, hn'⟩, -⟩ := C22_balanced parts rc yielding hn hp yn yp strain hb
      have := hn' 0
      rw [hst] at this
      rw [this]; exact hn o' ho'
    split_ifs at hy0 with hlt <;> subst hy0
    · rcases le_total y0 y with hy | hy
      · constructor
        · nlinarith
        · nlinarith
      · constructor
        · nlinarith
        · nlinarith
    · rcases le_total y y0 with hy | hy
      · constructor
        · nlinarith
        · nlinarith
      · constructor
        · nlinarith
        · nlinarith


/-- Two thirds is not dyadic. -/
theorem not_dyadic_two_thirds {t : ℝ} (ht : DyadicUnit t) : t ≠ 2 / 3 := by
  rintro rfl
  obtain ⟨p, k, -, h⟩ := ht
  have h2 : (0:ℝ) < 2 ^ k := by positivity
  have h3 : (2 * 2 ^ k : ℝ) = 3 * p := by field_simp at h; linarith
  have h4 : 2 ^ (k + 1) = 3 * p := by
    have : ((2 ^ (k + 1) : ℕ) : ℝ) = ((3 * p : ℕ) : ℝ) := by push_cast; rw [pow_succ]; linarith
    exact_mod_cast this
  exact absurd (Nat.Prime.dvd_of_dvd_pow Nat.prime_three ⟨p, h4⟩) (by norm_num)

/-- Bisection of a linear residual whose root is at two thirds of the interval finds it. -/
theorem bisection_linear_right (K a b : ℝ) (hK : 1e-1 < |K * (b - a)|)
    (hbig : |K * (b - a)| ≤ 2 ^ 99 * 1e-2) :
    ∃ c k, bisection (fun x => K * (x - (a + 2 / 3 * (b - a)))) a
      (K * (a - (a + 2 / 3 * (b - a)))) b (K * (b - (a + 2 / 3 * (b - a)))) = some (.ok c, k) ∧
      |K * (c - (a + 2 / 3 * (b - a)))| < 1e-2 := by
  obtain ⟨c, k, hbis⟩ := bisection_lipschitz (fun x => K * (x - (a + 2 / 3 * (b - a)))) a b |K| (by
      intro t u _ _
      have : K * (a + t * (b - a) - (a + 2 / 3 * (b - a))) -
        K * (a + u * (b - a) - (a + 2 / 3 * (b - a))) = K * (t - u) * (b - a) := by ring
      rw [this, abs_mul, abs_mul])
    (by rw [← abs_mul]; exact hbig)
    (by
      have : K * (a - (a + 2 / 3 * (b - a))) - K * (b - (a + 2 / 3 * (b - a))) = -(K * (b - a)) := by
        ring
      rw [this, abs_neg]
      norm_num at hK ⊢
      linarith)
  refine ⟨c, k, hbis, ?_⟩
  refine ((bisection_spec (fun x => K * (x - (a + 2 / 3 * (b - a)))) a b hbis).1 c rfl).2 ?_ ?_
  · have : K * (a - (a + 2 / 3 * (b - a))) * (K * (b - (a + 2 / 3 * (b - a)))) =
      -(2 / 9) * (K * (b - a)) ^ 2 := by ring
    rw [this]
    have h0 : K * (b - a) ≠ 0 := by
      intro h0; rw [h0] at hK; norm_num at hK
    have := sq_pos_of_ne_zero h0
    linarith
  · intro t ht h0
    have h0' : K * (b - a) ≠ 0 := by
      intro h0; rw [h0] at hK; norm_num at hK
    have : K * (b - a) * (t - 2 / 3) = 0 := by linarith
    rcases mul_eq_zero.1 this with h | h
    · exact h0' h
    · exact not_dyadic_two_thirds ht (by linarith)

/-- Concrete 0..500, ductile steel at the bottom, a brittle bar near the top. -/
noncomputable def brittleTop : List Part :=
  [⟨true, true, 0, 500, fun _ => (-0.0035, 100)⟩,
   ⟨false, false, 0, 0, fun _ => (-0.03, 0.03)⟩,
   ⟨false, false, 450, 450, fun _ => (-0.01, 0.01)⟩]

theorem brittleTop_balanced :
    balancedFailure brittleTop true false = .ok (500, 0, ![0.03, -6.7e-5, 0]) := by
  unfold balancedFailure brittleTop
  norm_num [balStep, Part.posLimit, Part.negLimit]

/-- **C51 is violated**: concrete with ductile steel at the bottom and a bar with limit strain
`0.01` near the top; linear response with axis at mid-height, `EA = 1e9`.  The search returns a
plane in equilibrium, but the strain of the brittle bar exceeds `0.019`. -/
theorem C51_violated :
    ∃ n e chi k, fixedPivot (fun e chi => 1e9 * (e + chi * 250)) brittleTop true false n =
        some (.ok (e, chi, 0), k) ∧
      |1e9 * (e + chi * 250) - n| ≤ 1e-2 ∧
      ∃ g ∈ brittleTop, g.posLimit false = 0.01 ∧
        0.019 < planeStrain ![e, chi, 0] 0 g.yHigh := by
  obtain ⟨c, k, hbis, hc⟩ := bisection_linear_right (1e9 * 250) (-6.7e-5) (-1e-13)
    (by rw [abs_of_pos (by norm_num)]; norm_num) (by rw [abs_of_pos (by norm_num)]; norm_num)
  have hrun := fixedPivotFrom_linear 1e9 250
    (1e9 * (0.03 + (-6.7e-5 + 2 / 3 * (-1e-13 - -6.7e-5)) * 250)) 500 0 ![0.03, -6.7e-5, 0]
    (by norm_num [abs_of_neg]) (by norm_num) (-6.7e-5 + 2 / 3 * (-1e-13 - -6.7e-5))
    (by norm_num) c k (by simpa using hbis)
  have hres := (show fixedPivot (fun e chi => 1e9 * (e + chi * 250)) brittleTop true false
      (1e9 * (0.03 + (-6.7e-5 + 2 / 3 * (-1e-13 - -6.7e-5)) * 250)) = _ by
    unfold fixedPivot; rw [brittleTop_balanced]).trans hrun
  refine ⟨_, _, c, k + 2, hres, ?_, ⟨false, false, 450, 450, fun _ => (-0.01, 0.01)⟩,
    by simp [brittleTop], rfl, ?_⟩
  · rw [abs_lt] at hc
    rw [abs_le]
    have h1 : (![0.03, -6.7e-5, (0:ℝ)] 0 + ![0.03, -6.7e-5, (0:ℝ)] 1 * 0 - c * 0 + c * 250) =
      0.03 + c * 250 := by norm_num
    rw [h1]
    constructor <;> linarith [hc.1, hc.2]
  · rw [abs_lt] at hc
    simp only [planeStrain, Matrix.cons_val]
    norm_num at hc ⊢
    linarith [hc.1, hc.2]

/-- The hypotheses of `C24_equilibrium_partial` and the search itself, on the same section. -/
example : ∃ e chi k, fixedPivot (fun e chi => 1e9 * (e + chi * 250)) brittleTop true false
      (1e9 * (0.03 + (-6.7e-5 + 2 / 3 * (-1e-13 - -6.7e-5)) * 250)) = some (.ok (e, chi, 0), k) ∧
    |1e9 * (e + chi * 250) - 1e9 * (0.03 + (-6.7e-5 + 2 / 3 * (-1e-13 - -6.7e-5)) * 250)| ≤ 1e-2 := by
  obtain ⟨c, k, hbis, hc⟩ := bisection_linear_right (1e9 * 250) (-6.7e-5) (-1e-13)
    (by rw [abs_of_pos (by norm_num)]; norm_num) (by rw [abs_of_pos (by norm_num)]; norm_num)
  have hrun := fixedPivotFrom_linear 1e9 250
    (1e9 * (0.03 + (-6.7e-5 + 2 / 3 * (-1e-13 - -6.7e-5)) * 250)) 500 0 ![0.03, -6.7e-5, 0]
    (by norm_num [abs_of_neg]) (by norm_num) (-6.7e-5 + 2 / 3 * (-1e-13 - -6.7e-5))
    (by norm_num) c k (by simpa using hbis)
  have hres := (show fixedPivot (fun e chi => 1e9 * (e + chi * 250)) brittleTop true false
      (1e9 * (0.03 + (-6.7e-5 + 2 / 3 * (-1e-13 - -6.7e-5)) * 250)) = _ by
    unfold fixedPivot; rw [brittleTop_balanced]).trans hrun
  refine ⟨_, c, k + 2, hres, ?_⟩
  refine C24_equilibrium_partial (fun e chi => 1e9 * (e + chi * 250)) brittleTop true false _ 500 0 _
    brittleTop_balanced 0 ?_ ?_ ?_ _ c 0 (k + 2) hres
  · rw [if_pos]; norm_num
  · norm_num
  · intro p m hpm h
    refine not_dyadic_two_thirds (t := p / 2 ^ m) ⟨p, m, hpm, rfl⟩ ?_
    simp only [Matrix.cons_val] at h
    norm_num at h ⊢
    linarith

/-- The hypotheses of `C51_admissible_partial` hold for an ordinary reinforced section. -/
example : ∃ yn yp strain, balancedFailure
    [⟨true, true, 0, 500, fun _ => (-0.0035, 100)⟩, ⟨false, false, 50, 50, fun _ => (-0.0675, 0.0675)⟩]
      true false = .ok (yn, yp, strain) ∧ strain 1 ≤ -1e-13 ∧
    (∀ g ∈ ([⟨true, true, 0, 500, fun _ => (-0.0035, 100)⟩,
      ⟨false, false, 50, 50, fun _ => (-0.0675, 0.0675)⟩] : List Part),
      planeStrain strain 0 yp ≤ g.posLimit false ∧ g.negLimit false true ≤ planeStrain strain 0 yn) := by
  refine ⟨500, 50, ![-0.0035 + 0.071 / 450 * 500, -(0.071 / 450), 0], ?_, ?_, ?_⟩
  · unfold balancedFailure
    norm_num [balStep, Part.posLimit, Part.negLimit]
  · norm_num
  · intro g hg
    simp only [List.mem_cons, List.not_mem_nil, or_false] at hg
    rcases hg with rfl | rfl <;> norm_num [Part.posLimit, Part.negLimit, planeStrain]

end SC
