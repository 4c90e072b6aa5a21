import Verif.Spec.Laws

/-!
# Specification vocabulary: piecewise linear replacement of a law

Used by C65.  Nothing here refers to the modelled code.
-/

set_option autoImplicit false

namespace SC.Spec

/-- The `i`-th of eleven equally spaced strains from `-u` to `0`. -/
noncomputable def tenth (u : ℝ) (i : ℕ) : ℝ := -u + i * (u / 10)

/-- `d` is the polygon inscribed in `g` on ten equal parts of `[-u, 0]`: it has the values of `g` at
the eleven strains, runs straight between neighbours (except within the library's tolerance of the
two ends, where the end value is used) and is zero outside. -/
structure Inscribed (g d : ℝ → ℝ) (u : ℝ) : Prop where
  node : ∀ i ≤ 10, d (tenth u i) = g (tenth u i)
  straight : ∀ i < 10, ∀ t, 0 ≤ t → t ≤ 1 →
    Clear (tenth u i + t * (u / 10)) (-u) → Clear (tenth u i + t * (u / 10)) 0 →
    d (tenth u i + t * (u / 10)) = (1 - t) * g (tenth u i) + t * g (tenth u (i + 1))
  ends : ∀ e, (¬ Clear e (-u) → Clear e 0 → d e = g (-u)) ∧ (¬ Clear e 0 → d e = g 0)
  outside : ∀ e, Clear e (-u) → Clear e 0 → (e < -u ∨ 0 < e) → d e = 0

end SC.Spec
