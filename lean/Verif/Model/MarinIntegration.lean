import Verif.Model.Py
import Mathlib.Algebra.BigOperators.Intervals
import Mathlib.Data.Nat.Choose.Basic

/-!
# Model of structuralcodes/core/_marin_integration.py
-/

set_option autoImplicit false

namespace SC

noncomputable section

/-- structuralcodes/core/_marin_integration.py:13-15, `_coeff` (the `lru_cache` is
irrelevant to the value: the function is pure).  `math.comb` is `Nat.choose`; the loops only
call it with `j ≤ m`, `k ≤ n`, where the natural subtractions agree with Python's. -/
def marinCoeff (m n j k : ℕ) : ℕ := (j + k).choose j * (m + n - j - k).choose (n - k)

/-- structuralcodes/core/_marin_integration.py:38-46: the body of the loop over `i` for the
edge from `(y0, z0) = (y[i], z[i])` to `(y1, z1) = (y[i+1], z[i+1])`. -/
def marinEdge (m n : ℕ) (y0 z0 y1 z1 : ℝ) : ℝ :=
  (∑ j ∈ Finset.range (m + 1),
    (∑ k ∈ Finset.range (n + 1), (marinCoeff m n j k : ℝ) * z0 ^ (n - k) * z1 ^ k)
      * y0 ^ (m - j) * y1 ^ j) * (y0 * z1 - y1 * z0)

/-- structuralcodes/core/_marin_integration.py:18-47, `marin_integration`.  The Python loop
runs `i` over `range(len(y) - 1)` and indexes `z[i+1]`, so a `z` shorter than `y` raises
IndexError as soon as there is an edge; extra entries of `z` are ignored. -/
def marinIntegration (y z : List ℝ) (m n : ℕ) : Except PyErr ℝ :=
  if 2 ≤ y.length ∧ z.length < y.length then .error .indexError else
  .ok ((∑ i ∈ Finset.range (y.length - 1),
      marinEdge m n (y.getD i 0) (z.getD i 0) (y.getD (i + 1) 0) (z.getD (i + 1) 0))
    / (((m + n).choose n * (m + n + 1) * (m + n + 2) : ℕ) : ℝ))

/-- `marin_integration` on a vertex list `[(y0, z0), (y1, z1), ...]`, i.e. on
`y = [p[0] for p in poly]`, `z = [p[1] for p in poly]`, where it never raises.  This is how
the integrators call it (structuralcodes/sections/section_integrators/_marin_integrator.py,
`marin_integration(*polygon.xy, m, n)`). -/
def marin (poly : List (ℝ × ℝ)) (m n : ℕ) : ℝ :=
  (∑ i ∈ Finset.range (poly.length - 1),
      marinEdge m n (poly.getD i 0).1 (poly.getD i 0).2
        (poly.getD (i + 1) 0).1 (poly.getD (i + 1) 0).2)
    / (((m + n).choose n * (m + n + 1) * (m + n + 2) : ℕ) : ℝ)

end

end SC
