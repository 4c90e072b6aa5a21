import Verif.Props.Domain

/-! # C39: the default curvature grid of the moment-curvature diagram -/

set_option autoImplicit false

namespace SC

open Spec

/-- The list runs strictly from its first to its last element in one direction (the sign of `d`). -/
def RunsTowards (d : ℝ) (l : List ℝ) : Prop := l.Pairwise fun a b => 0 < d * (b - a)

theorem linspace_get_endpoint (a b : ℝ) (n i : ℕ) (hn : 2 ≤ n) (hi : i < n) :
    (linspace a b n true)[i]? = some (a + i * ((b - a) / ((n : ℝ) - 1))) := by
  have : (n == 1) = false := by simp; omega
  simp [linspace, hi, this]

theorem linspace_get_open (a b : ℝ) (n i : ℕ) (hi : i < n) :
    (linspace a b n false)[i]? = some (a + i * ((b - a) / n)) := by
  simp [linspace, hi]

theorem linspace_runs_endpoint (a b d : ℝ) (n : ℕ) (h : 0 < d * (b - a)) :
    RunsTowards d (linspace a b n true) := by
  unfold RunsTowards
  rcases Nat.lt_or_ge n 2 with hn | hn
  · interval_cases n <;> simp [linspace]
  · have hn1 : (n == 1) = false := by simp; omega
    simp only [linspace, hn1, Bool.and_false, Bool.false_eq_true, if_false, if_true,
      List.pairwise_map]
    refine List.pairwise_lt_range.imp ?_
    intro i j hij
    have h1 : (0 : ℝ) < (n : ℝ) - 1 := by
      have : (2 : ℝ) ≤ n := by exact_mod_cast hn
      linarith
    have h2 : (0 : ℝ) < (j : ℝ) - i := by
      have : (i : ℝ) < j := by exact_mod_cast hij
      linarith
    have : d * (a + (j : ℝ) * ((b - a) / ((n : ℝ) - 1)) - (a + i * ((b - a) / ((n : ℝ) - 1)))) =
        d * (b - a) * (((j : ℝ) - i) / ((n : ℝ) - 1)) := by ring
    rw [this]
    positivity

theorem linspace_runs_open (a b d : ℝ) (n : ℕ) (h : 0 < d * (b - a)) :
    RunsTowards d (linspace a b n false) ∧ ∀ x ∈ linspace a b n false, 0 < d * (b - x) := by
  unfold RunsTowards
  simp only [linspace, Bool.false_and, Bool.false_eq_true, if_false, List.pairwise_map]
  constructor
  · rcases Nat.eq_zero_or_pos n with rfl | hn
    · simp
    refine List.pairwise_lt_range.imp ?_
    intro i j hij
    have h1 : (0 : ℝ) < n := by exact_mod_cast hn
    have h2 : (0 : ℝ) < (j : ℝ) - i := by
      have : (i : ℝ) < j := by exact_mod_cast hij
      linarith
    have : d * (a + (j : ℝ) * ((b - a) / (n : ℝ)) - (a + i * ((b - a) / (n : ℝ)))) =
        d * (b - a) * (((j : ℝ) - i) / (n : ℝ)) := by ring
    rw [this]
    positivity
  · intro x hx
    obtain ⟨i, hi, rfl⟩ := List.mem_map.1 hx
    rw [List.mem_range] at hi
    have h1 : (0 : ℝ) < n := by
      have : 0 < n := by omega
      exact_mod_cast this
    have h2 : (0 : ℝ) < (n : ℝ) - i := by
      have : (i : ℝ) < n := by exact_mod_cast hi
      linarith
    have : d * (b - (a + (i : ℝ) * ((b - a) / (n : ℝ)))) = d * (b - a) * (((n : ℝ) - i) / n) := by
      field_simp
      ring
    rw [this]
    positivity

/-- First curvature of the grid: `chi_first` with the sign of the yield curvature, unless it is not
below it; then the yield curvature divided by the number of points. -/
noncomputable def firstCurvature (chi_first chi_yield : ℝ) (num_pre : ℕ) : ℝ :=
  open Classical in
  if |chi_yield| ≤ |chi_first| then chi_yield / num_pre
  else if chi_first * chi_yield < 0 then -chi_first else chi_first

theorem grid_first (chi_first chi_yield : ℝ) (num_pre : ℕ) :
    (if |chi_first * (if chi_first * chi_yield < 0 then (-1 : ℝ) else 1)| ≥ |chi_yield|
      then chi_yield / num_pre
      else chi_first * (if chi_first * chi_yield < 0 then (-1 : ℝ) else 1)) =
    firstCurvature chi_first chi_yield num_pre := by
  unfold firstCurvature
  by_cases h : chi_first * chi_yield < 0
  · simp only [h, if_true, mul_neg, mul_one, abs_neg, ge_iff_le]
  · simp only [h, if_false, mul_one, ge_iff_le]

theorem firstCurvature_dir (chi_first chi_yield : ℝ) (num_pre : ℕ) (hy : chi_yield ≠ 0)
    (hn : 2 ≤ num_pre) :
    0 < chi_yield * (chi_yield - firstCurvature chi_first chi_yield num_pre) ∧
      0 ≤ chi_yield * firstCurvature chi_first chi_yield num_pre := by
  have hn' : (2 : ℝ) ≤ num_pre := by exact_mod_cast hn
  have hsq : 0 < chi_yield ^ 2 := by positivity
  unfold firstCurvature
  split_ifs with h1 h2
  · constructor
    · have : chi_yield * (chi_yield - chi_yield / num_pre) =
          chi_yield ^ 2 * (((num_pre : ℝ) - 1) / num_pre) := by field_simp
      rw [this]
      have : (0 : ℝ) < ((num_pre : ℝ) - 1) / num_pre := div_pos (by linarith) (by linarith)
      positivity
    · have : chi_yield * (chi_yield / num_pre) = chi_yield ^ 2 / num_pre := by ring
      rw [this]; positivity
  · push Not at h1
    have := abs_mul_abs_self chi_yield
    have h3 : |chi_yield * chi_first| < chi_yield ^ 2 := by
      rw [abs_mul]; nlinarith [abs_nonneg chi_first, abs_pos.2 hy]
    have := (abs_lt.1 h3).1
    constructor <;> nlinarith
  · push Not at h1 h2
    have := abs_mul_abs_self chi_yield
    have h3 : |chi_yield * chi_first| < chi_yield ^ 2 := by
      rw [abs_mul]; nlinarith [abs_nonneg chi_first, abs_pos.2 hy]
    have := (abs_lt.1 h3).2
    constructor <;> nlinarith

/-- **C39 (plastic branch), partial.** If the yield and ultimate curvature have the same sign (the
code raises otherwise) and the ultimate one is larger by more than `1e-8`, then for any `chi_first`,
`num_pre_yield ≥ 2`, `num_post_yield ≥ 1` the grid has `num_pre_yield + num_post_yield` points,
starts at `chi_first` (with the sign of the yield curvature; or at the yield curvature divided by
`num_pre_yield` if `chi_first` is not below it), runs strictly monotonically away from zero, has the
yield curvature as its `num_pre_yield`-th point and ends at the ultimate curvature. -/
theorem C39_plastic_partial (chi_first chi_yield chi_ultimate : ℝ) (num_pre num_post : ℕ)
    (hpre : 2 ≤ num_pre) (hpost : 1 ≤ num_post) (hy : chi_yield ≠ 0)
    (hsame : 0 ≤ chi_ultimate * chi_yield) (hpl : |chi_yield| + 1e-8 < |chi_ultimate|) :
    let grid := curvatureGrid chi_first chi_yield chi_ultimate num_pre num_post
    grid.length = num_pre + num_post ∧
    grid[0]? = some (firstCurvature chi_first chi_yield num_pre) ∧
    grid[num_pre - 1]? = some chi_yield ∧
    grid[num_pre + num_post - 1]? = some chi_ultimate ∧
    RunsTowards chi_yield grid ∧ ∀ x ∈ grid, 0 ≤ chi_yield * x := by
  intro grid
  have hgrid : grid = linspace (firstCurvature chi_first chi_yield num_pre) chi_yield (num_pre - 1) false ++
      linspace chi_yield chi_ultimate (num_post + 1) true := by
    show curvatureGrid _ _ _ _ _ = _
    unfold curvatureGrid
    simp only [grid_first]
    rw [if_neg (not_le.2 hpl)]
  obtain ⟨d1, d2⟩ := firstCurvature_dir chi_first chi_yield num_pre hy hpre
  have hd : 0 < chi_yield * (chi_ultimate - chi_yield) := by
    have h3 : chi_ultimate * chi_yield = |chi_ultimate| * |chi_yield| := by
      rw [← abs_mul, abs_of_nonneg hsame]
    have := abs_mul_abs_self chi_yield
    have hp := abs_pos.2 hy
    nlinarith
  have l1 : (linspace (firstCurvature chi_first chi_yield num_pre) chi_yield (num_pre - 1) false).length
      = num_pre - 1 := linspace_length _ _ _ _
  have hcast : ((num_post + 1 : ℕ) : ℝ) - 1 = num_post := by push_cast; ring
  have hpost' : (num_post : ℝ) ≠ 0 := by
    have : num_post ≠ 0 := by omega
    exact_mod_cast this
  refine ⟨?_, ?_, ?_, ?_, ?_, ?_⟩
  · rw [hgrid, List.length_append, l1, linspace_length]; omega
  · rw [hgrid, List.getElem?_append_left (by rw [l1]; omega), linspace_get_open _ _ _ _ (by omega)]
    simp
  · rw [hgrid, List.getElem?_append_right (by rw [l1]), l1, Nat.sub_self,
      linspace_get_endpoint _ _ _ _ (by omega) (by omega)]
    simp
  · rw [hgrid, List.getElem?_append_right (by rw [l1]; omega), l1,
      linspace_get_endpoint _ _ _ _ (by omega) (by omega)]
    have : num_pre + num_post - 1 - (num_pre - 1) = num_post := by omega
    rw [this, hcast, mul_div_cancel₀ _ hpost']
    simp
  · obtain ⟨r1, r2⟩ := linspace_runs_open _ _ chi_yield (num_pre - 1) d1
    unfold RunsTowards at *
    rw [hgrid, List.pairwise_append]
    refine ⟨r1, linspace_runs_endpoint _ _ chi_yield _ hd, fun x hx y hy' => ?_⟩
    have h1 := r2 x hx
    obtain ⟨t, t0, -, rfl⟩ := between_iff (linspace_mem _ _ _ _ y hy')
    nlinarith
  · intro x hx
    rw [hgrid] at hx
    rcases List.mem_append.1 hx with hx | hx
    · obtain ⟨t, t0, t1, rfl⟩ := between_iff (linspace_mem _ _ _ _ x hx)
      nlinarith
    · obtain ⟨t, t0, t1, rfl⟩ := between_iff (linspace_mem _ _ _ _ x hx)
      nlinarith [mul_self_nonneg chi_yield]

/-- **C39 (no plastic branch), partial.** If the ultimate curvature does not exceed the yield
curvature by more than `1e-8`, the grid has `num_pre_yield` points and runs strictly monotonically
from the first to the yield curvature. -/
theorem C39_elastic_partial (chi_first chi_yield chi_ultimate : ℝ) (num_pre num_post : ℕ)
    (hpre : 2 ≤ num_pre) (hy : chi_yield ≠ 0) (hpl : |chi_ultimate| ≤ |chi_yield| + 1e-8) :
    let grid := curvatureGrid chi_first chi_yield chi_ultimate num_pre num_post
    grid.length = num_pre ∧ grid[0]? = some (firstCurvature chi_first chi_yield num_pre) ∧
    grid[num_pre - 1]? = some chi_yield ∧ RunsTowards chi_yield grid := by
  intro grid
  have hgrid : grid = linspace (firstCurvature chi_first chi_yield num_pre) chi_yield num_pre true := by
    show curvatureGrid _ _ _ _ _ = _
    unfold curvatureGrid
    simp only [grid_first]
    rw [if_pos hpl]
  obtain ⟨d1, d2⟩ := firstCurvature_dir chi_first chi_yield num_pre hy hpre
  refine ⟨?_, ?_, ?_, ?_⟩
  · rw [hgrid, linspace_length]
  · rw [hgrid, linspace_get_endpoint _ _ _ _ hpre (by omega)]; simp
  · rw [hgrid, linspace_get_endpoint _ _ _ _ hpre (by omega)]
    have : ((num_pre - 1 : ℕ) : ℝ) = (num_pre : ℝ) - 1 := by push_cast [show 1 ≤ num_pre by omega]; ring
    rw [this, mul_div_cancel₀]
    · simp
    · have : (2 : ℝ) ≤ num_pre := by exact_mod_cast hpre
      linarith
  · rw [hgrid]
    exact linspace_runs_endpoint _ _ _ _ d1

/-- **C39, violated (1).** When the ultimate curvature is smaller than the yield curvature, the grid
runs past the ultimate curvature (here 0.01) up to the yield curvature (0.02). -/
theorem C39_beyond_ultimate_violated :
    ∃ x ∈ curvatureGrid 0.001 0.02 0.01 10 10, (0.01 : ℝ) < x := by
  refine ⟨0.02, ?_, by norm_num⟩
  have h := (C39_elastic_partial 0.001 0.02 0.01 10 10 (by norm_num) (by norm_num)
    (by norm_num [abs_of_pos])).2.2.1
  exact List.mem_of_getElem? h

/-- **C39, violated (2).** With `num_pre_yield = 1` and no plastic branch the only point is the
first curvature: neither the yield nor the ultimate curvature is reached. -/
theorem C39_single_violated (chi_first chi_yield : ℝ) (h0 : 0 < chi_first) (h : chi_first < chi_yield)
    (num_post : ℕ) : curvatureGrid chi_first chi_yield chi_yield 1 num_post = [chi_first] := by
  have hy : 0 < chi_yield := h0.trans h
  have hp : ¬ chi_first * chi_yield < 0 := by
    have := mul_pos h0 hy
    linarith
  have hn : ¬ |chi_first| ≥ |chi_yield| := by
    rw [abs_of_pos h0, abs_of_pos hy]; linarith
  unfold curvatureGrid
  simp only [hp, if_false, mul_one, hn]
  rw [if_pos (by linarith)]
  simp [linspace]

/-- **C39, violated (3).** With `num_post_yield = 0` the ultimate curvature is not reached. -/
theorem C39_no_post_violated (chi_yield chi_ultimate : ℝ) (hy : 0 < chi_yield)
    (hu : chi_yield + 1e-8 < chi_ultimate) (num_pre : ℕ) (hpre : 2 ≤ num_pre) (chi_first : ℝ) :
    chi_ultimate ∉ curvatureGrid chi_first chi_yield chi_ultimate num_pre 0 := by
  have hu' : 0 < chi_ultimate := by linarith [show (0 : ℝ) < 1e-8 by norm_num]
  unfold curvatureGrid
  simp only [grid_first]
  rw [if_neg (by rw [abs_of_pos hy, abs_of_pos hu']; linarith)]
  intro hm
  rcases List.mem_append.1 hm with h | h
  · obtain ⟨d1, d2⟩ := firstCurvature_dir chi_first chi_yield num_pre hy.ne' hpre
    obtain ⟨-, r2⟩ := linspace_runs_open _ _ chi_yield (num_pre - 1) d1
    have := r2 _ h
    nlinarith [show (0 : ℝ) < 1e-8 by norm_num]
  · simp [linspace] at h
    linarith [show (0 : ℝ) < 1e-8 by norm_num]

/-- Typical curvatures (hogging, negative) meet the hypotheses of the two theorems above. -/
example : (-0.00001 : ℝ) ≠ 0 ∧ (0 : ℝ) ≤ -0.00004 * -0.00001 ∧
    |(-0.00001 : ℝ)| + 1e-8 < |(-0.00004 : ℝ)| := by
  norm_num [abs_of_neg]

end SC
