import Verif.Spec.Cracked

/-! # Specification vocabulary: strength of sections made of regions and concentrated areas

Used by C66.  Nothing here refers to the modelled code. -/

set_option autoImplicit false

namespace SC.Spec

/-- A part of a cross-section: region, vertices of its outline, stress-strain response, limit strains in compression and in
tension. -/
structure Plate where
  region : Set (ℝ × ℝ)
  outline : List (ℝ × ℝ)
  response : ℝ → ℝ
  lo : ℝ
  hi : ℝ

/-- A concentrated area with its limit strains. -/
structure Rod where
  fibre : Fibre
  lo : ℝ
  hi : ℝ

/-- A cross-section. -/
structure CrossSection where
  plates : List Plate
  rods : List Rod

namespace CrossSection

/-- Stress resultants `(N, My, Mz)` of a strain plane. -/
noncomputable def forces (s : CrossSection) (e : Fin 3 → ℝ) : Fin 3 → ℝ :=
  (s.plates.map fun p => regionResultants p.region p.response e).sum + resultants (s.rods.map Rod.fibre) e

/-- Corners and bars, each with its limit strains. -/
def corners (s : CrossSection) : List ((ℝ × ℝ) × ℝ × ℝ) :=
  (s.plates.flatMap fun p => p.outline.map fun v => (v, p.lo, p.hi)) ++
    s.rods.map fun r => ((r.fibre.y, r.fibre.z), r.lo, r.hi)

/-- No point of the convex hull of a part, and no bar, is strained beyond its limits. -/
def Admissible (s : CrossSection) (e : Fin 3 → ℝ) : Prop :=
  (∀ p ∈ s.plates, ∀ x ∈ convexHull ℝ {v | v ∈ p.outline}, p.lo ≤ planeStrain e x.1 x.2 ∧ planeStrain e x.1 x.2 ≤ p.hi) ∧
  ∀ r ∈ s.rods, r.lo ≤ planeStrain e r.fibre.y r.fibre.z ∧ planeStrain e r.fibre.y r.fibre.z ≤ r.hi

/-- Some corner or bar is exactly at a limit strain. -/
def AtLimit (s : CrossSection) (e : Fin 3 → ℝ) : Prop :=
  ∃ c ∈ s.corners, planeStrain e c.1.1 c.1.2 = c.2.1 ∨ planeStrain e c.1.1 c.1.2 = c.2.2

end CrossSection

/-- The plane with curvature `c` about the axis inclined by `theta`, and strain `v` at height `h`. -/
noncomputable def planeThrough (theta h v c : ℝ) : Fin 3 → ℝ :=
  ![v - c * h, c * Real.cos theta, c * Real.sin theta]

theorem planeThrough_height (theta h v c : ℝ) (x : ℝ × ℝ) :
    planeStrain (planeThrough theta h v c) x.1 x.2 = v + c * (height theta x - h) := by
  simp only [planeThrough, planeStrain, height, Matrix.cons_val]
  ring

end SC.Spec
