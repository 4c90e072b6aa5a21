import Verif.Spec.Gross

/-! # Specification vocabulary: cracked elastic sections

Used by C63.  Nothing here refers to the modelled code. -/

set_option autoImplicit false

namespace SC.Spec

open MeasureTheory

/-- Height of a point above the axis through the origin that makes the angle `theta` with the `y` axis. -/
noncomputable def height (theta : ℝ) (x : ℝ × ℝ) : ℝ := x.2 * Real.cos theta - x.1 * Real.sin theta

/-- The compression side of the axis at height `z`. -/
def upperSide (theta z : ℝ) : Set (ℝ × ℝ) := {x | z ≤ height theta x}

/-- An elastic member of a section: modulus, region, and whether it carries no tension (concrete). -/
structure Member where
  E : ℝ
  noTension : Bool
  region : Set (ℝ × ℝ)

/-- The part of a member that works when the axis is at height `z`. -/
def Member.working (m : Member) (theta z : ℝ) : Set (ℝ × ℝ) :=
  if m.noTension then m.region ∩ upperSide theta z else m.region

/-- First moment, about the axis at height `z`, of the working parts weighted by the moduli, and of the bars
(`E A` and position).  The section is in equilibrium without axial force, bent about this axis, if it is zero. -/
noncomputable def axisImbalance (theta : ℝ) (ms : List Member) (bars : List (ℝ × (ℝ × ℝ))) (z : ℝ) : ℝ :=
  (ms.map fun m => m.E * ∫ x in m.working theta z, (height theta x - z)).sum +
    (bars.map fun b => b.1 * (height theta b.2 - z)).sum

/-- Axial rigidity of the uncracked section. -/
noncomputable def rigidity (ms : List Member) (bars : List (ℝ × (ℝ × ℝ))) : ℝ :=
  (ms.map fun m => m.E * ∫ _ in m.region, (1 : ℝ)).sum + (bars.map Prod.fst).sum

end SC.Spec
