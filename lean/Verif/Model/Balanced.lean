import Verif.Model.Py

/-! # GenericSectionCalculator.get_balanced_failure_strain -/

set_option autoImplicit false

namespace SC

noncomputable section

/-- What the balanced failure search reads from a geometry (surface or point): the `concrete` flag
(surfaces only), `bounds[1]`/`bounds[3]` of the polygon (both the ordinate for a point) and
`constitutive_law.get_ultimate_strain(yielding=...)`. -/
structure Part where
  surface : Bool
  concrete : Bool
  yLow : ℝ
  yHigh : ℝ
  ult : Bool → ℝ × ℝ

/-- sections/_generic.py:325-327 `eps_p`. -/
def Part.posLimit (yielding : Bool) (g : Part) : ℝ := (g.ult yielding).2

/-- sections/_generic.py:338-354 `eps_n` with `use_yielding`. -/
def Part.negLimit (yielding rc : Bool) (g : Part) : ℝ :=
  (g.ult (if (rc && (g.surface && g.concrete)) || !rc then yielding else false)).1

/-- Local variables of the search: `chi_min`, and `(eps_0, y_n_min, y_p_min)` once bound. -/
structure BalState where
  chiMin : ℝ
  best : Option (ℝ × ℝ × ℝ)

open Classical in
/-- sections/_generic.py:325-368: one pair `(g, other_g)`. -/
def balStep (yielding rc : Bool) (s : BalState) (pr : Part × Part) : BalState :=
  let eps_p := pr.1.posLimit yielding
  let y_p := pr.1.yLow
  let eps_n := pr.2.negLimit yielding rc
  let y_n := pr.2.yHigh
  if y_p ≥ y_n then s
  else
    let chi := -(eps_p - eps_n) / (y_p - y_n)
    if chi < s.chiMin then ⟨chi, some (eps_n + chi * y_n, y_n, y_p)⟩ else s

/-- sections/_generic.py:299-372 `get_balanced_failure_strain`: returns `(y_n, y_p, strain)`;
`rc` is `self.section.geometry.reinforced_concrete`; `UnboundLocalError` when no pair was
accepted. -/
def balancedFailure (parts : List Part) (rc yielding : Bool) :
    Except PyErr (ℝ × ℝ × (Fin 3 → ℝ)) :=
  let s := (parts.flatMap fun g => parts.map fun o => (g, o)).foldl (balStep yielding rc) ⟨1e10, none⟩
  match s.best with
  | none => .error .unboundLocal
  | some (eps0, yn, yp) => .ok (yn, yp, ![eps0, -s.chiMin, 0])

end

end SC
