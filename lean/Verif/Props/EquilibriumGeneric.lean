import Mathlib.Data.Set.Countable
import Verif.Props.Equilibrium

/-!
# C23, C24: the exact-midpoint failure concerns at most countably many axial loads

The searches compare residuals with a strict sign test, so a trial plane in *exact* equilibrium can be
lost (`C23_fixed_curvature_violated`, `C24_violated`).  The trial planes of one search are taken from a
fixed countable family that does not depend on the axial load; hence for a given section, curvature and
start the failure can only happen for countably many loads, and every other load is balanced.
-/

set_option autoImplicit false

namespace SC

open Spec

/-- **C23** for all but countably many axial loads (partial: the remaining alternative, a bracketing search
that runs away from the start, is real: `C23_no_bracket_violated`).  The exceptional set depends on the
section, the curvature and the start only. -/
theorem C23_almost_all_partial (N : ℝ → ℝ → ℝ) (curv eps0 : ℝ) :
    ∃ C : Set ℝ, C.Countable ∧ ∀ n, n ∉ C → ∀ (e chi z : ℝ) (k : ℕ),
      fixedCurvature N n curv eps0 = some (.ok (e, chi, z), k) →
      chi = curv ∧ z = 0 ∧ (|N e curv - n| ≤ 1e-2 ∨
        ∃ x, (N eps0 curv - n) * (x - eps0) < 0 ∧ 0 ≤ (N eps0 curv - n) * (N x curv - n) ∧ |N x curv - n| > |N eps0 curv - n|) := by
  refine ⟨(Set.range fun q : ℕ × ℕ => N (eps0 + 1 * 1e-3 * q.1 / 2 ^ q.2) curv) ∪
    Set.range fun q : ℕ × ℕ => N (eps0 + -1 * 1e-3 * q.1 / 2 ^ q.2) curv,
    (Set.countable_range _).union (Set.countable_range _), ?_⟩
  intro n hn e chi z k h
  obtain ⟨h1, h2, h | ⟨s, hs, p, m, hz⟩ | h⟩ := C23_fixed_curvature_partial N n curv eps0 e chi z k h
  · exact ⟨h1, h2, Or.inl h⟩
  · exact absurd (by rcases hs with rfl | rfl; exacts [Or.inl ⟨(p, m), hz⟩, Or.inr ⟨(p, m), hz⟩]) hn
  · exact ⟨h1, h2, Or.inr h⟩

/-- **C23**, total correctness for all but countably many axial loads within reach: a section whose axial force
never falls with the axial strain (and does not rise faster than `1e24`) is always brought into equilibrium. -/
theorem C23_monotone_almost_all (N : ℝ → ℝ → ℝ) (curv eps0 L : ℝ) (hmono : Monotone fun e => N e curv)
    (hlip : ∀ x y, |N x curv - N y curv| ≤ L * |x - y|) (hL : L ≤ 1e24) :
    ∃ C : Set ℝ, C.Countable ∧ ∀ n, n ∉ C →
      N (eps0 - 1e-3 * 2 ^ 19) curv < n → n < N (eps0 + 1e-3 * 2 ^ 19) curv →
      ∃ e k, fixedCurvature N n curv eps0 = some (.ok (e, curv, 0), k) ∧ |N e curv - n| ≤ 1e-2 := by
  refine ⟨(Set.range fun q : ℕ × ℕ => N (eps0 + 1 * 1e-3 * q.1 / 2 ^ q.2) curv) ∪
    Set.range fun q : ℕ × ℕ => N (eps0 + -1 * 1e-3 * q.1 / 2 ^ q.2) curv,
    (Set.countable_range _).union (Set.countable_range _), ?_⟩
  intro n hn h1 h2
  refine C23_monotone_partial N n curv eps0 L hmono hlip hL ⟨h1, h2⟩ ?_
  rintro s hs p m hz
  exact hn (by rcases hs with rfl | rfl; exacts [Or.inl ⟨(p, m), hz⟩, Or.inr ⟨(p, m), hz⟩])

/-- Linear elastic prism, any curvature, any start: all but countably many loads are balanced. -/
example (curv eps0 : ℝ) : ∃ C : Set ℝ, C.Countable ∧ ∀ n, n ∉ C →
    3e9 * (eps0 - 1e-3 * 2 ^ 19) < n → n < 3e9 * (eps0 + 1e-3 * 2 ^ 19) →
    ∃ e k, fixedCurvature (fun e _ => 3e9 * e) n curv eps0 = some (.ok (e, curv, 0), k) ∧
      |3e9 * e - n| ≤ 1e-2 :=
  C23_monotone_almost_all (fun e _ => 3e9 * e) curv eps0 3e9 (fun x y h => by simp only; linarith)
    (fun x y => by rw [← mul_sub, abs_mul, abs_of_pos (by norm_num : (0:ℝ) < 3e9)]) (by norm_num)

/-- **C24** for all but countably many axial loads: between the axial forces of the two (nearly) uniform planes
through the pivots, every returned plane is in equilibrium. No hypothesis on the response. -/
theorem C24_almost_all_partial (N : ℝ → ℝ → ℝ) (parts : List Part) (rc yielding : Bool) (yn yp : ℝ) (strain : Fin 3 → ℝ)
    (hb : balancedFailure parts rc yielding = .ok (yn, yp, strain)) :
    ∃ C : Set ℝ, C.Countable ∧ ∀ n, n ∉ C →
      N (strain 0 + strain 1 * yn - (-1e-13) * yn) (-1e-13) < n →
      n < N (strain 0 + strain 1 * yp - (-1e-13) * yp) (-1e-13) →
      ∀ (e chi z : ℝ) (k : ℕ), fixedPivot N parts rc yielding n = some (.ok (e, chi, z), k) →
        |N e chi - n| ≤ 1e-2 := by
  refine ⟨(Set.range fun q : ℕ × ℕ =>
      N (strain 0 + strain 1 * yp - (strain 1 + (q.1 / 2 ^ q.2 : ℝ) * (-1e-13 - strain 1)) * yp)
        (strain 1 + (q.1 / 2 ^ q.2 : ℝ) * (-1e-13 - strain 1))) ∪
    Set.range fun q : ℕ × ℕ =>
      N (strain 0 + strain 1 * yn - (strain 1 + (q.1 / 2 ^ q.2 : ℝ) * (-1e-13 - strain 1)) * yn)
        (strain 1 + (q.1 / 2 ^ q.2 : ℝ) * (-1e-13 - strain 1)),
    (Set.countable_range _).union (Set.countable_range _), ?_⟩
  intro n hn hlow hhigh e chi z k h
  have hn0 : ∀ y, y = yp ∨ y = yn → ∀ p m : ℕ, p ≤ 2 ^ m →
      N (strain 0 + strain 1 * y - (strain 1 + (p / 2 ^ m : ℝ) * (-1e-13 - strain 1)) * y)
        (strain 1 + (p / 2 ^ m : ℝ) * (-1e-13 - strain 1)) ≠ n := by
    rintro y hy p m - rfl
    rcases hy with rfl | rfl
    · exact hn (Or.inl ⟨(p, m), rfl⟩)
    · exact hn (Or.inr ⟨(p, m), rfl⟩)
  by_cases hlt : N (strain 0) (strain 1) < n
  · refine C24_equilibrium_partial N parts rc yielding n yn yp strain hb yp (by rw [if_pos hlt]) ?_ (hn0 _ (Or.inl rfl))
      e chi z k h
    exact mul_neg_of_neg_of_pos (by linarith) (by linarith)
  · have hne : N (strain 0) (strain 1) ≠ n := by
      have := hn0 yn (Or.inr rfl) 0 0 (by norm_num)
      simpa using this
    have hgt : n < N (strain 0) (strain 1) := lt_of_le_of_ne (not_lt.1 hlt) (Ne.symm hne)
    refine C24_equilibrium_partial N parts rc yielding n yn yp strain hb yn (by rw [if_neg hlt]) ?_ (hn0 _ (Or.inr rfl))
      e chi z k h
    exact mul_neg_of_pos_of_neg (by linarith) (by linarith)

/-- A section of concrete, steel and a brittle bar with a linear response: of the loads between `-3.4e6` and `2.9e7`
all but countably many are balanced by every returned plane. -/
example : ∃ C : Set ℝ, C.Countable ∧ ∀ n, n ∉ C → -3.4e6 < n → n < 2.9e7 →
    ∀ (e chi z : ℝ) (k : ℕ), fixedPivot (fun e chi => 1e9 * (e + chi * 250)) brittleTop true false n =
      some (.ok (e, chi, z), k) → |1e9 * (e + chi * 250) - n| ≤ 1e-2 := by
  obtain ⟨C, hC, h⟩ := C24_almost_all_partial (fun e chi => 1e9 * (e + chi * 250)) _ _ _ _ _ _ brittleTop_balanced
  refine ⟨C, hC, fun n hn h1 h2 => h n hn ?_ ?_⟩
  · norm_num at h1 ⊢
    linarith
  · norm_num at h2 ⊢
    linarith

end SC
