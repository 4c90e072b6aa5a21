import Verif.Spec.Area
import Verif.Spec.Section

/-!
# Specification vocabulary: sections as plane regions

Used by C21 and C50.  Nothing here refers to the modelled code.
-/

set_option autoImplicit false

namespace SC.Spec

open MeasureTheory

/-- Area moment of the interior of a ring, whatever its orientation. -/
noncomputable def ringMoment (m n : ℕ) (ring : List (ℝ × ℝ)) : ℝ :=
  SignType.sign (signedMoment 0 0 0 ring) * signedMoment m n 0 ring

/-- A usable boundary: a closed ring with nonzero signed area. -/
def ProperRing (ring : List (ℝ × ℝ)) : Prop := Closed ring ∧ signedMoment 0 0 0 ring ≠ 0

/-- Area moment of a polygon with holes: exterior minus interiors. -/
noncomputable def holedMoment (m n : ℕ) (ext : List (ℝ × ℝ)) (ints : List (List (ℝ × ℝ))) : ℝ :=
  ringMoment m n ext - (ints.map (ringMoment m n)).sum

/-- The exterior ring `ext` and the holes `ints` bound the region `R`: all area moments agree. -/
structure Encloses (ext : List (ℝ × ℝ)) (ints : List (List (ℝ × ℝ))) (R : Set (ℝ × ℝ)) : Prop where
  measurable : MeasurableSet R
  bounded : Bornology.IsBounded R
  ext_proper : ProperRing ext
  ints_proper : ∀ r ∈ ints, ProperRing r
  moments : ∀ m n, holedMoment m n ext ints = areaMoment m n R

/-- Stress resultants `(N, My, Mz)` of a plane region: `N = ∫ σ dA`, `My = ∫ σ z dA`,
`Mz = -∫ σ y dA`, where `σ` is a function of the plane strain. -/
noncomputable def regionResultants (R : Set (ℝ × ℝ)) (sig : ℝ → ℝ) (e : Fin 3 → ℝ) : Fin 3 → ℝ :=
  fun i => ∫ x in R, sig (planeStrain e x.1 x.2) * lever x.1 x.2 i

/-- Section stiffness of a plane region. -/
noncomputable def regionStiffness (R : Set (ℝ × ℝ)) (tan : ℝ → ℝ) (e : Fin 3 → ℝ) :
    Matrix (Fin 3) (Fin 3) ℝ :=
  fun i j => ∫ x in R, tan (planeStrain e x.1 x.2) * lever x.1 x.2 i * lever x.1 x.2 j

end SC.Spec
