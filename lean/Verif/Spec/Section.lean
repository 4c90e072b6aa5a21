import Mathlib.Data.Matrix.Mul
import Mathlib.LinearAlgebra.Matrix.Notation
import Mathlib.Data.Real.Basic

/-!
# Equilibrium of a set of fibres

Independent specification used to state the integrator properties: a fibre has a position, an
area, and a stress response; plane sections remain plane.
-/

set_option autoImplicit false

namespace SC.Spec

/-- A fibre at `(y, z)` with area `A` and a response function (its stress or its tangent). -/
structure Fibre where
  y : ℝ
  z : ℝ
  A : ℝ
  resp : ℝ → ℝ

/-- Plane strain distribution: axial strain and two curvatures. -/
def planeStrain (e : Fin 3 → ℝ) (y z : ℝ) : ℝ := e 0 + e 1 * z - e 2 * y

/-- Lever arms of a fibre with respect to the generalised strains. -/
def lever (y z : ℝ) : Fin 3 → ℝ := ![1, z, -y]

/-- Resultants `(N, My, Mz) = (Σ σ A, Σ σ A z, -Σ σ A y)`. -/
noncomputable def resultants (fs : List Fibre) (e : Fin 3 → ℝ) : Fin 3 → ℝ :=
  fun i => (fs.map fun f => f.A * f.resp (planeStrain e f.y f.z) * lever f.y f.z i).sum

/-- Stiffness `K i j = Σ E_t A lever_i lever_j`. -/
noncomputable def stiffness (fs : List Fibre) (e : Fin 3 → ℝ) : Matrix (Fin 3) (Fin 3) ℝ :=
  fun i j => (fs.map fun f =>
    f.A * f.resp (planeStrain e f.y f.z) * lever f.y f.z i * lever f.y f.z j).sum

end SC.Spec
