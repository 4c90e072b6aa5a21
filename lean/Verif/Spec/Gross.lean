import Verif.Spec.Region

/-! # Specification vocabulary: weighted bodies and their moments

Used by C52 (and C63).  Nothing here refers to the modelled code. -/

set_option autoImplicit false

namespace SC.Spec

open MeasureTheory

/-- A plane body: regions with a weight per unit area, and concentrated points with a weight. -/
structure Body where
  areas : List (ℝ × Set (ℝ × ℝ))
  points : List (ℝ × (ℝ × ℝ))

/-- Integral of `g` over the body. -/
noncomputable def Body.integral (b : Body) (g : ℝ × ℝ → ℝ) : ℝ :=
  (b.areas.map fun a => a.1 * ∫ x in a.2, g x).sum + (b.points.map fun p => p.1 * g p.2).sum

/-- Second moment of the body about the axis through `c` that makes the angle `phi` with the `y` axis:
the integral of the squared distance. -/
noncomputable def Body.aboutAxis (b : Body) (c : ℝ × ℝ) (phi : ℝ) : ℝ :=
  b.integral fun x => (-(x.1 - c.1) * Real.sin phi + (x.2 - c.2) * Real.cos phi) ^ 2

/-- Length of a line through the given points. -/
noncomputable def perimeter (ring : List (ℝ × ℝ)) : ℝ :=
  ((edges ring).map fun e => √((e.2.1 - e.1.1) ^ 2 + (e.2.2 - e.1.2) ^ 2)).sum

end SC.Spec
