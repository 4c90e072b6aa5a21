import Verif.Model.Py

/-!
# Specification vocabulary for constitutive laws

Nothing here refers to the model's definitions of the laws.
-/

namespace SC.Spec

/-- An array method: for every array shape `ι` a map from arrays to arrays. -/
abbrev ArrayFn := ∀ (ι : Type), (ι → ℝ) → ι → ℝ

/-- "The array version returns, entry by entry, what the scalar version returns on the entry". -/
def Agree (scalar : ℝ → ℝ) (array : ArrayFn) : Prop :=
  ∀ (ι : Type) (eps : ι → ℝ) (i : ι), array ι eps i = scalar (eps i)

/-- `x` is farther than numpy's tolerance from the limit `lim`
(`np.isclose(x, lim, atol=1e-6)` is false). -/
def Clear (x lim : ℝ) : Prop := 1e-6 + 1e-5 * |lim| < |x - lim|

/-- A compression-only law with strength `fc ≥ 0` and ultimate compressive strain `-u`. -/
structure CompressionOnly (sig : ℝ → ℝ) (fc u : ℝ) : Prop where
  no_tension : ∀ e, 0 < e → sig e = 0
  failed : ∀ e, e < -u → Clear e (-u) → sig e = 0
  bounded : ∀ e, -fc ≤ sig e ∧ sig e ≤ 0

end SC.Spec
