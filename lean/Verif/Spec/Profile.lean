import Verif.Spec.Region

/-! # Specification vocabulary: plastic bending of a plane region

Used by C60.  Nothing here refers to the modelled code. -/

set_option autoImplicit false

namespace SC.Spec

open MeasureTheory

/-- Area above the horizontal line at height `z` minus area below it. -/
noncomputable def imbalance (R : Set (ℝ × ℝ)) (z : ℝ) : ℝ :=
  (volume (R ∩ {x | z ≤ x.2})).toReal - (volume (R ∩ {x | x.2 ≤ z})).toReal

/-- Sum of the static moments, taken positive, of the parts above and below the line at height `z`. -/
noncomputable def absMoment (R : Set (ℝ × ℝ)) (z : ℝ) : ℝ := ∫ x in R, |x.2 - z|

/-- Area to the right of the vertical line at `y` minus area to the left of it. -/
noncomputable def imbalanceY (R : Set (ℝ × ℝ)) (y : ℝ) : ℝ :=
  (volume (R ∩ {x | y ≤ x.1})).toReal - (volume (R ∩ {x | x.1 ≤ y})).toReal

/-- Sum of the static moments, taken positive, of the parts on both sides of the vertical line at `y`. -/
noncomputable def absMomentY (R : Set (ℝ × ℝ)) (y : ℝ) : ℝ := ∫ x in R, |x.1 - y|

/-- The regions `Rs` are what remains of `R` after a cut along the line at height `z`: each lies on one
side and together they cover `R` once (up to a set of area zero). -/
structure Splits (z : ℝ) (R : Set (ℝ × ℝ)) (Rs : List (Set (ℝ × ℝ))) : Prop where
  side : ∀ S ∈ Rs, S ⊆ {x | z ≤ x.2} ∨ S ⊆ {x | x.2 ≤ z}
  cover : ∀ᵐ x : ℝ × ℝ, (Rs.map fun S => S.indicator (fun _ => (1 : ℝ)) x).sum = R.indicator (fun _ => 1) x

end SC.Spec
