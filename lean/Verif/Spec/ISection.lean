import Verif.Spec.Area

/-! # Specification vocabulary: rolled sections

Used by C62.  Nothing here refers to the modelled code. -/

set_option autoImplicit false

namespace SC.Spec

open MeasureTheory

/-- What is assumed of a family `disc c r` of approximate discs: measurable, placed at `c`, symmetric about
both axes through `c` and within the square of half side `r` around it.  True discs and regular polygons with
`4 q` corners are of this kind. -/
structure IsDisc (disc : ℝ × ℝ → ℝ → Set (ℝ × ℝ)) : Prop where
  measurable : ∀ c r, MeasurableSet (disc c r)
  placed : ∀ c r x, x ∈ disc c r ↔ x - c ∈ disc 0 r
  mirror_y : ∀ r x, x ∈ disc 0 r → (-x.1, x.2) ∈ disc 0 r
  mirror_z : ∀ r x, x ∈ disc 0 r → (x.1, -x.2) ∈ disc 0 r
  small : ∀ r x, x ∈ disc 0 r → |x.1| ≤ r ∧ |x.2| ≤ r

/-- The fillet of radius `r` in the corner between two plates: the points with distances `u`, `v` from the two plates, both
at most `r`, that are not in the disc touching the plates. -/
def filletShape (disc : ℝ × ℝ → ℝ → Set (ℝ × ℝ)) (r : ℝ) : Set (ℝ × ℝ) :=
  {x | 0 ≤ x.1 ∧ x.1 ≤ r ∧ 0 ≤ x.2 ∧ x.2 ≤ r ∧ (r - x.1, r - x.2) ∉ disc 0 r}

/-- The integral of `f` over the plate `[y0, y1] × [z0, z1]`. -/
noncomputable def plateIntegral (f : ℝ × ℝ → ℝ) (y0 y1 z0 z1 : ℝ) : ℝ := ∫ x in Set.Icc y0 y1 ×ˢ Set.Icc z0 z1, f x

end SC.Spec
