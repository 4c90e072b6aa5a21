import Verif.Spec.Split

/-! # Specification vocabulary: triangular meshes

Used by C57.  Nothing here refers to the modelled code. -/

set_option autoImplicit false

namespace SC.Spec

/-- Square of the distance of two points. -/
def distSq (a b : ℝ × ℝ) : ℝ := (a.1 - b.1) ^ 2 + (a.2 - b.2) ^ 2

/-- The triangles (given by their three vertices) lie in the region, have a positive area and cover the region once. -/
structure Triangulates (mesh : List ((ℝ × ℝ) × (ℝ × ℝ) × (ℝ × ℝ))) (R : Set (ℝ × ℝ)) : Prop where
  proper : ∀ t ∈ mesh, cross t.1 t.2.1 t.2.2 ≠ 0
  inside : ∀ t ∈ mesh, triangle t.1 t.2.1 t.2.2 ⊆ R
  covers : CoversOnce R (mesh.map fun t => triangle t.1 t.2.1 t.2.2)

/-- No side of a triangle is longer than `h`. -/
def SidesAtMost (h : ℝ) (mesh : List ((ℝ × ℝ) × (ℝ × ℝ) × (ℝ × ℝ))) : Prop :=
  ∀ t ∈ mesh, distSq t.1 t.2.1 ≤ h ^ 2 ∧ distSq t.2.1 t.2.2 ≤ h ^ 2 ∧ distSq t.2.2 t.1 ≤ h ^ 2

/-- The sine of the angle at `a` of the triangle `a b c` is at least one half.  If this holds at the three corners, no angle is
smaller than 30 degrees. -/
def SineHalf (a b c : ℝ × ℝ) : Prop := √(distSq a b) * √(distSq a c) / 2 ≤ |cross a b c|

/-- A mesh as requested from the mesher: no angle below 30 degrees, no triangle larger than `amax`. -/
def Quality (amax : ℝ) (mesh : List ((ℝ × ℝ) × (ℝ × ℝ) × (ℝ × ℝ))) : Prop :=
  ∀ t ∈ mesh, SineHalf t.1 t.2.1 t.2.2 ∧ SineHalf t.2.1 t.2.2 t.1 ∧ SineHalf t.2.2 t.1 t.2.1 ∧
    |cross t.1 t.2.1 t.2.2| / 2 ≤ amax

end SC.Spec
