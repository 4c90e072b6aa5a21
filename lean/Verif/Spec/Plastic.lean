import Verif.Spec.Cracked

/-! # Specification vocabulary: rigid-plastic bending

Used by C75.  Nothing here refers to the modelled code. -/

set_option autoImplicit false

namespace SC.Spec

open MeasureTheory

/-- A region of a rigid-plastic material with yield strength `fy` in tension and in compression. -/
structure YieldPlate where
  region : Set (ℝ × ℝ)
  fy : ℝ

/-- The axial force at which the whole section yields. -/
noncomputable def squashLoad (ps : List YieldPlate) : ℝ := (ps.map fun p => p.fy * ∫ _ in p.region, (1:ℝ)).sum

/-- The moment, about the line at height `z`, of the stresses `-fy` above and `fy` below that line. -/
noncomputable def plasticMoment (theta : ℝ) (ps : List YieldPlate) (z : ℝ) : ℝ :=
  (ps.map fun p => p.fy * ∫ x in p.region, |height theta x - z|).sum

end SC.Spec
