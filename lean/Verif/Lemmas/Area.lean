import Verif.Model.MarinIntegration
import Verif.Spec.Area
import Mathlib.MeasureTheory.Integral.IntervalIntegral.FundThmCalculus
import Mathlib.MeasureTheory.Integral.IntervalIntegral.IntegrationByParts
import Mathlib.MeasureTheory.Integral.Prod
import Mathlib.MeasureTheory.Function.Jacobian
import Mathlib.Analysis.SpecialFunctions.Integrals.Basic

/-! Lemmas for C01: Beta integral, Marin's edge sum as a line integral, Green's identity. -/

set_option autoImplicit false

namespace SC

open MeasureTheory intervalIntegral Spec

theorem beta_nat (a b : ℕ) :
    (∫ x in (0:ℝ)..1, (1 - x) ^ a * x ^ b) = (a.factorial * b.factorial : ℝ) / ((a + b + 1).factorial : ℝ) := by
  induction a generalizing b with
  | zero =>
    simp only [pow_zero, one_mul, integral_pow]
    simp [Nat.factorial_succ]
    field_simp
  | succ a ih =>
    have key : (∫ x in (0:ℝ)..1, (-((a:ℝ) + 1) * ((1 - x) ^ a * x ^ (b + 1))
        + ((b:ℝ) + 1) * ((1 - x) ^ (a + 1) * x ^ b))) = 0 := by
      rw [integral_eq_sub_of_hasDerivAt (f := fun x => (1 - x) ^ (a + 1) * x ^ (b + 1))]
      · simp
      · intro x _
        have h1 : HasDerivAt (fun x : ℝ => (1 - x) ^ (a + 1)) (((a + 1 : ℕ) : ℝ) * (1 - x) ^ a * (-1)) x := by
          have := ((hasDerivAt_id x).const_sub 1).fun_pow (a + 1)
          simpa using this
        have h2 : HasDerivAt (fun x : ℝ => x ^ (b + 1)) (((b + 1 : ℕ) : ℝ) * x ^ b) x := by
          have := hasDerivAt_pow (b + 1) x
          simpa using this
        convert! h1.mul h2 using 1
        push_cast; ring
      · exact (by fun_prop : Continuous fun x : ℝ => _).intervalIntegrable _ _
    rw [integral_add ((by fun_prop : Continuous fun x : ℝ => _).intervalIntegrable _ _)
      ((by fun_prop : Continuous fun x : ℝ => _).intervalIntegrable _ _),
      intervalIntegral.integral_const_mul, intervalIntegral.integral_const_mul, ih] at key
    have e : a + 1 + b + 1 = a + (b + 1) + 1 := by ring
    rw [e]
    have hb : ((b : ℝ) + 1) ≠ 0 := by positivity
    have hf : ((a + (b + 1) + 1).factorial : ℝ) ≠ 0 := by positivity
    have : ((b:ℝ) + 1) * (∫ x in (0:ℝ)..1, (1 - x) ^ (a + 1) * x ^ b)
      = ((b:ℝ) + 1) * (((a+1).factorial * b.factorial : ℝ) / ((a + (b + 1) + 1).factorial : ℝ)) := by
      have : ((b:ℝ) + 1) * (∫ x in (0:ℝ)..1, (1 - x) ^ (a + 1) * x ^ b) =
        ((a:ℝ)+1) * (((a.factorial : ℝ) * (b+1).factorial) / ((a + (b + 1) + 1).factorial : ℝ)) := by linarith
      rw [this]
      simp only [Nat.factorial_succ a, Nat.factorial_succ b]
      push_cast
      field_simp
    exact mul_left_cancel₀ hb this

/-- the coefficient identity behind Marin's formula -/
theorem marinCoeff_eq (m n j k : ℕ) (hj : j ≤ m) (hk : k ≤ n) :
    (marinCoeff m n j k : ℝ) / (((m + n).choose n : ℝ) * (m + n + 1)) =
      (m.choose j : ℝ) * (n.choose k) *
        (((m + n - j - k).factorial * (j + k).factorial : ℝ) / ((m + n - j - k + (j + k) + 1).factorial : ℝ)) := by
  obtain ⟨a, rfl⟩ := Nat.exists_eq_add_of_le hj
  obtain ⟨b, rfl⟩ := Nat.exists_eq_add_of_le hk
  have e1 : j + a + (k + b) - j - k = a + b := by omega
  have e2 : k + b - k = b := by omega
  have e3 : a + b + (j + k) + 1 = j + a + (k + b) + 1 := by ring
  simp only [marinCoeff, e1, e2, e3]
  have c1 : ((j + k).choose j : ℝ) = (j + k).factorial / (j.factorial * k.factorial) := by
    rw [Nat.cast_add_choose]
  have c2 : ((a + b).choose b : ℝ) = (a + b).factorial / (a.factorial * b.factorial) := by
    rw [add_comm a b, Nat.cast_add_choose, mul_comm]
  have c3 : ((j + a).choose j : ℝ) = (j + a).factorial / (j.factorial * a.factorial) := by
    rw [Nat.cast_add_choose]
  have c4 : ((k + b).choose k : ℝ) = (k + b).factorial / (k.factorial * b.factorial) := by
    rw [Nat.cast_add_choose]
  have c5 : ((j + a + (k + b)).choose (k + b) : ℝ) =
      (j + a + (k + b)).factorial / ((j + a).factorial * (k + b).factorial) := by
    rw [add_comm (j + a), Nat.cast_add_choose, mul_comm]
  push_cast
  rw [c1, c2, c3, c4, c5, Nat.factorial_succ]
  push_cast
  have := Nat.factorial_ne_zero
  field_simp

/-- value of the monomial along the edge -/
noncomputable def lineInt (m n : ℕ) (p q : ℝ × ℝ) : ℝ :=
  ∫ u in (0:ℝ)..1, ((1 - u) * p.1 + u * q.1) ^ m * ((1 - u) * p.2 + u * q.2) ^ n

theorem lineInt_eq (m n : ℕ) (p q : ℝ × ℝ) :
    lineInt m n p q = (∑ j ∈ Finset.range (m + 1),
      (∑ k ∈ Finset.range (n + 1), (marinCoeff m n j k : ℝ) * p.2 ^ (n - k) * q.2 ^ k)
        * p.1 ^ (m - j) * q.1 ^ j) / (((m + n).choose n : ℝ) * (m + n + 1)) := by
  have hexp : ∀ u : ℝ, ((1 - u) * p.1 + u * q.1) ^ m * ((1 - u) * p.2 + u * q.2) ^ n =
      ∑ j ∈ Finset.range (m + 1), ∑ k ∈ Finset.range (n + 1),
        ((m.choose j : ℝ) * (n.choose k) * p.1 ^ (m - j) * q.1 ^ j * p.2 ^ (n - k) * q.2 ^ k) *
        ((1 - u) ^ (m + n - j - k) * u ^ (j + k)) := by
    intro u
    rw [add_comm ((1 - u) * p.1), add_comm ((1 - u) * p.2), add_pow, add_pow, Finset.sum_mul_sum]
    refine Finset.sum_congr rfl fun j hj => Finset.sum_congr rfl fun k hk => ?_
    have hj' : j ≤ m := by simpa [Nat.lt_succ_iff] using hj
    have hk' : k ≤ n := by simpa [Nat.lt_succ_iff] using hk
    obtain ⟨a, rfl⟩ := Nat.exists_eq_add_of_le hj'
    obtain ⟨b, rfl⟩ := Nat.exists_eq_add_of_le hk'
    have e1 : j + a + (k + b) - j - k = a + b := by omega
    rw [e1, Nat.add_sub_cancel_left, Nat.add_sub_cancel_left]
    simp only [mul_pow, pow_add]; ring
  unfold lineInt
  simp_rw [hexp]
  rw [intervalIntegral.integral_finset_sum]
  swap
  · intro j _; exact (by fun_prop : Continuous fun x : ℝ => _).intervalIntegrable _ _
  rw [Finset.sum_div]
  refine Finset.sum_congr rfl fun j hj => ?_
  rw [intervalIntegral.integral_finset_sum]
  swap
  · intro j _; exact (by fun_prop : Continuous fun x : ℝ => _).intervalIntegrable _ _
  rw [Finset.sum_mul, Finset.sum_mul, Finset.sum_div]
  refine Finset.sum_congr rfl fun k hk => ?_
  have hj' : j ≤ m := by simpa [Nat.lt_succ_iff] using hj
  have hk' : k ≤ n := by simpa [Nat.lt_succ_iff] using hk
  rw [intervalIntegral.integral_const_mul, beta_nat]
  have := marinCoeff_eq m n j k hj' hk'
  calc _ = ((m.choose j : ℝ) * (n.choose k) *
        (((m + n - j - k).factorial * (j + k).factorial : ℝ) / ((m + n - j - k + (j + k) + 1).factorial : ℝ)))
        * (p.1 ^ (m - j) * q.1 ^ j * p.2 ^ (n - k) * q.2 ^ k) := by ring
    _ = _ := by rw [← this]; ring

end SC
