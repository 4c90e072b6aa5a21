import Verif.Model.Py

/-! Specification vocabulary: polynomials given by coefficient lists, piecewise polynomials. -/

set_option autoImplicit false

namespace SC.Spec

/-- Value of the polynomial `c0 + c1*y + c2*y^2 + ...`. -/
noncomputable def evalPoly : List ℝ → ℝ → ℝ
  | [], _ => 0
  | c :: cs, y => c + y * evalPoly cs y

/-- Ranges that do not overlap (except at end points). -/
def Tiling (ranges : List (ℝ × ℝ)) : Prop :=
  (∀ r ∈ ranges, r.1 ≤ r.2) ∧ ranges.Pairwise (fun r s => r.2 ≤ s.1 ∨ s.2 ≤ r.1)

/-- The pieces (range, coefficients) reproduce `f` along the profile `eps(y) = e0 + e1*y`, for the
admitted strains `ok`: non-overlapping ranges; the polynomial of a range equals `f` wherever the
strain lies in the (closed) range; and `f` vanishes where the strain is in no range. -/
structure PiecesMatch (f : ℝ → ℝ) (e0 e1 : ℝ) (ok : ℝ → Prop) (ranges : List (ℝ × ℝ))
    (coeffs : List (List ℝ)) : Prop where
  length : ranges.length = coeffs.length
  tiling : Tiling ranges
  inside : ∀ rc ∈ ranges.zip coeffs, ∀ y : ℝ, ok (e0 + e1 * y) →
    rc.1.1 ≤ e0 + e1 * y → e0 + e1 * y ≤ rc.1.2 → evalPoly rc.2 y = f (e0 + e1 * y)
  outside : ∀ y : ℝ, ok (e0 + e1 * y) →
    (∀ r ∈ ranges, e0 + e1 * y < r.1 ∨ r.2 < e0 + e1 * y) → f (e0 + e1 * y) = 0

/-- Same, with the polynomial required to match only in the interior of each range (for
quantities that jump at the ends, like a tangent modulus). -/
structure PiecesMatchInterior (f : ℝ → ℝ) (e0 e1 : ℝ) (ok : ℝ → Prop) (ranges : List (ℝ × ℝ))
    (coeffs : List (List ℝ)) : Prop where
  length : ranges.length = coeffs.length
  tiling : Tiling ranges
  inside : ∀ rc ∈ ranges.zip coeffs, ∀ y : ℝ, ok (e0 + e1 * y) →
    rc.1.1 < e0 + e1 * y → e0 + e1 * y < rc.1.2 → evalPoly rc.2 y = f (e0 + e1 * y)
  outside : ∀ y : ℝ, ok (e0 + e1 * y) →
    (∀ r ∈ ranges, e0 + e1 * y < r.1 ∨ r.2 < e0 + e1 * y) → f (e0 + e1 * y) = 0

end SC.Spec
