import Verif.Spec.Region

/-! # Specification vocabulary: regions cut along a straight line

Used by C63 and C64.  Nothing here refers to the modelled code. -/

set_option autoImplicit false

namespace SC.Spec

open MeasureTheory

/-- The regions `Rs` cover `R` exactly once (up to a set of area zero). -/
def CoversOnce (R : Set (ℝ × ℝ)) (Rs : List (Set (ℝ × ℝ))) : Prop :=
  ∀ᵐ x : ℝ × ℝ, (Rs.map fun S => S.indicator (fun _ => (1 : ℝ)) x).sum = R.indicator (fun _ => 1) x

/-- Left of (or on) the line from `a` to `b`. -/
def leftOf (a b : ℝ × ℝ) : Set (ℝ × ℝ) := {x | 0 ≤ cross a b x}

/-- Right of (or on) the line from `a` to `b`. -/
def rightOf (a b : ℝ × ℝ) : Set (ℝ × ℝ) := {x | cross a b x ≤ 0}

/-- On or above the line through `c` with the slope `m`. -/
def aboveLine (c : ℝ × ℝ) (m : ℝ) : Set (ℝ × ℝ) := {x | c.2 + m * (x.1 - c.1) ≤ x.2}

/-- On or below the line through `c` with the slope `m`. -/
def belowLine (c : ℝ × ℝ) (m : ℝ) : Set (ℝ × ℝ) := {x | x.2 ≤ c.2 + m * (x.1 - c.1)}

end SC.Spec
