import Mathlib.Analysis.Convex.Hull
import Mathlib.MeasureTheory.Integral.Bochner.Set
import Mathlib.MeasureTheory.Measure.Lebesgue.Basic

/-!
# Specification vocabulary for area moments (used by C01-C04, C21)

Nothing here refers to the modelled code: areas are Lebesgue integrals over subsets of the
plane `ℝ × ℝ`.
-/

set_option autoImplicit false

namespace SC.Spec

open MeasureTheory

/-- the closed triangle with the three given vertices -/
def triangle (a b c : ℝ × ℝ) : Set (ℝ × ℝ) := convexHull ℝ {a, b, c}

/-- twice the signed area of a triangle -/
def cross (a b c : ℝ × ℝ) : ℝ := (b.1 - a.1) * (c.2 - a.2) - (c.1 - a.1) * (b.2 - a.2)

/-- `1` for a counterclockwise triangle, `-1` for a clockwise one, `0` if degenerate -/
noncomputable def orientation (a b c : ℝ × ℝ) : ℝ := SignType.sign (cross a b c)

/-- area moment `∫∫ y^m z^n dy dz` of a plane region -/
noncomputable def areaMoment (m n : ℕ) (R : Set (ℝ × ℝ)) : ℝ :=
  ∫ x in R, x.1 ^ m * x.2 ^ n

/-- the edges `(v0,v1), (v1,v2), ...` of a vertex list -/
def edges : List (ℝ × ℝ) → List ((ℝ × ℝ) × (ℝ × ℝ))
  | a :: b :: l => (a, b) :: edges (b :: l)
  | _ => []

/-- A vertex list is closed when its last vertex repeats the first. -/
def Closed (poly : List (ℝ × ℝ)) : Prop := poly.head? = poly.getLast?

/-- Signed area moment of a polygon given by its (closed) vertex list, seen from an apex `o`:
each edge contributes the moment of the triangle it spans with `o`, positively when the
triangle is counterclockwise. -/
noncomputable def signedMoment (m n : ℕ) (o : ℝ × ℝ) (poly : List (ℝ × ℝ)) : ℝ :=
  ((edges poly).map fun e => orientation o e.1 e.2 * areaMoment m n (triangle o e.1 e.2)).sum

end SC.Spec

namespace SC.Spec

/-- A vertex ring is strictly convex and counterclockwise: any three of its vertices, taken in
ring order, turn left. -/
def ConvexCCW (ring : List (ℝ × ℝ)) : Prop :=
  ∀ a b c, [a, b, c].Sublist ring → 0 < cross a b c

end SC.Spec
