import Verif.Spec.Strength
import Mathlib.MeasureTheory.Integral.IntegrableOn

/-! # Specification vocabulary: the largest moment of a section

Used by C74.  Nothing here refers to the modelled code. -/

set_option autoImplicit false

namespace SC.Spec

open MeasureTheory

/-- Moment about the axis inclined by `theta` of the resultants `(N, My, Mz)`, positive when it compresses the upper side. -/
noncomputable def bendingMoment (theta : ℝ) (f : Fin 3 → ℝ) : ℝ := -(f 1 * Real.cos theta + f 2 * Real.sin theta)

namespace CrossSection

/-- A section whose parts have integrable stresses, non-negative areas, and stresses that do not decrease with the strain between
the limit strains. -/
structure NonSoftening (s : CrossSection) : Prop where
  region : ∀ p ∈ s.plates, MeasurableSet p.region ∧ p.region ⊆ convexHull ℝ {v | v ∈ p.outline}
  integrable : ∀ p ∈ s.plates, ∀ (e : Fin 3 → ℝ) (i : Fin 3),
    IntegrableOn (fun x : ℝ × ℝ => p.response (planeStrain e x.1 x.2) * lever x.1 x.2 i) p.region
  area : ∀ r ∈ s.rods, 0 ≤ r.fibre.A
  plates_mono : ∀ p ∈ s.plates, MonotoneOn p.response (Set.Icc p.lo p.hi)
  rods_mono : ∀ r ∈ s.rods, MonotoneOn r.fibre.resp (Set.Icc r.lo r.hi)

/-- A corner or bar is at its limit in compression and whatever lies above it already has the smallest stress any admissible plane
gives it, or a corner or bar is at its limit in tension and whatever lies below it already has the largest. -/
def Ultimate (s : CrossSection) (theta : ℝ) (e : Fin 3 → ℝ) : Prop :=
  (∃ c ∈ s.corners, planeStrain e c.1.1 c.1.2 = c.2.1 ∧ ∀ e', s.Admissible e' →
    (∀ p ∈ s.plates, ∀ x ∈ p.region, height theta c.1 < height theta x →
      p.response (planeStrain e x.1 x.2) ≤ p.response (planeStrain e' x.1 x.2)) ∧
    ∀ r ∈ s.rods, height theta c.1 < height theta (r.fibre.y, r.fibre.z) →
      r.fibre.resp (planeStrain e r.fibre.y r.fibre.z) ≤ r.fibre.resp (planeStrain e' r.fibre.y r.fibre.z)) ∨
  ∃ c ∈ s.corners, planeStrain e c.1.1 c.1.2 = c.2.2 ∧ ∀ e', s.Admissible e' →
    (∀ p ∈ s.plates, ∀ x ∈ p.region, height theta x < height theta c.1 →
      p.response (planeStrain e' x.1 x.2) ≤ p.response (planeStrain e x.1 x.2)) ∧
    ∀ r ∈ s.rods, height theta (r.fibre.y, r.fibre.z) < height theta c.1 →
      r.fibre.resp (planeStrain e' r.fibre.y r.fibre.z) ≤ r.fibre.resp (planeStrain e r.fibre.y r.fibre.z)

/-- No point of the section is farther than `R` from the axis through the origin inclined by `theta`. -/
def Within (s : CrossSection) (theta R : ℝ) : Prop :=
  (∀ p ∈ s.plates, ∀ x ∈ p.region, |height theta x| ≤ R) ∧ ∀ r ∈ s.rods, |height theta (r.fibre.y, r.fibre.z)| ≤ R

end CrossSection

end SC.Spec
