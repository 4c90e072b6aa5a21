import Verif.Model.Calculator
import Mathlib.LinearAlgebra.Matrix.NonsingularInverse

/-! # calculate_strain_profile -/

set_option autoImplicit false

namespace SC

noncomputable section

/-- `np.linalg.norm` of a vector with three entries. -/
def norm3 (v : Fin 3 → ℝ) : ℝ := Real.sqrt (v 0 ^ 2 + v 1 ^ 2 + v 2 ^ 2)

open Classical in
/-- `np.linalg.solve`: raises `LinAlgError` (a `ValueError`) for a singular matrix. -/
def solve3 (K : Matrix (Fin 3) (Fin 3) ℝ) (r : Fin 3 → ℝ) : Except PyErr (Fin 3 → ℝ) :=
  if K.det = 0 then .error .valueError else .ok (K⁻¹.mulVec r)

/-- Local variables of the Newton loop (1477-1478): `strain`, `num_iter`, `delta_strain` once
bound, and whether a `break` was executed. -/
structure SPState where
  strain : Fin 3 → ℝ
  numIter : ℕ
  delta : Option (Fin 3 → ℝ)
  stop : Bool

open Classical in
/-- sections/_generic.py:1487-1520 body of `while True`.  `R` is the response, `step strain residual`
the computation of `delta_strain` (1496-1511). -/
def spBody (R : (Fin 3 → ℝ) → Except PyErr (Fin 3 → ℝ))
    (step : (Fin 3 → ℝ) → (Fin 3 → ℝ) → Except PyErr (Fin 3 → ℝ)) (loads : Fin 3 → ℝ)
    (max_iter : ℤ) (tol : ℝ) (s : SPState) : Except PyErr SPState :=
  if (s.numIter : ℤ) > max_iter then .ok { s with stop := true }
  else
    match R s.strain with
    | .error e => .error e
    | .ok response =>
      match step s.strain (loads - response) with
      | .error e => .error e
      | .ok delta =>
        .ok ⟨s.strain + delta, s.numIter + 1, some delta, decide (norm3 delta < tol)⟩

/-- sections/_generic.py:1477-1525: loop and final check; `none` = does not stop. -/
def spLoop (R : (Fin 3 → ℝ) → Except PyErr (Fin 3 → ℝ))
    (step : (Fin 3 → ℝ) → (Fin 3 → ℝ) → Except PyErr (Fin 3 → ℝ)) (loads : Fin 3 → ℝ)
    (max_iter : ℤ) (tol : ℝ) : Option (Except PyErr (Fin 3 → ℝ) × ℕ) :=
  (pyWhile (fun s : SPState => s.stop = false) (spBody R step loads max_iter tol)
      ⟨0, 0, none, false⟩).map fun r =>
    (match r.1 with
      | .error e => .error e
      | .ok s => if (s.numIter : ℤ) ≥ max_iter then .error .stopIteration else .ok s.strain,
      r.2)

/-- sections/_generic.py:1496-1511: the increment; `lu` is `lu_solve(lu_factor(K0), .)`, a parameter. -/
def spStep (lu : Matrix (Fin 3) (Fin 3) ℝ → (Fin 3 → ℝ) → (Fin 3 → ℝ)) (initial : Bool)
    (K0 : Matrix (Fin 3) (Fin 3) ℝ)
    (K : (Fin 3 → ℝ) → Except PyErr (Matrix (Fin 3) (Fin 3) ℝ)) (strain residual : Fin 3 → ℝ) :
    Except PyErr (Fin 3 → ℝ) :=
  if initial then .ok (lu K0 residual)
  else
    match K strain with
    | .error e => .error e
    | .ok k => solve3 k residual

/-- The forces of a 'stress' integration. -/
def Response.vec : Response → Fin 3 → ℝ
  | .forces f => f
  | .stiffness k => fun i => k i i

/-- The matrix of a 'modulus' integration. -/
def Response.mat : Response → Matrix (Fin 3) (Fin 3) ℝ
  | .forces f => Matrix.diagonal f
  | .stiffness k => k

/-- sections/_generic.py:1431-1525 `calculate_strain_profile`; the modulus integrations omit
`mesh_size` (1464-1471, 1501-1508), `integrate_strain_profile` passes it. -/
def strainProfileM (E : Engine) (lu : Matrix (Fin 3) (Fin 3) ℝ → (Fin 3 → ℝ) → (Fin 3 → ℝ))
    (loads : Fin 3 → ℝ) (initial : Bool) (max_iter : ℤ) (tol : ℝ) : CalcM (Fin 3 → ℝ) := do
  let r0 ← call E 0 0 .modulus defaultMesh true
  withData fun data =>
    match spLoop
        (fun e => match E.integ 0 e .stress data E.meshSize with
          | .error er => .error er
          | .ok (r, _) => .ok r.vec)
        (spStep lu initial r0.mat fun e => match E.integ 0 e .modulus data defaultMesh with
          | .error er => .error er
          | .ok (r, _) => .ok r.mat)
        loads max_iter tol with
    | none => .error .runtimeError
    | some (r, _) => r

/-! ### Public operations of a section calculator -/

/-- The public calculations with their arguments.  The two search methods take a geometry; they
appear here applied to the geometry of the section. -/
inductive Op
  | limitAxialLoad
  | limits
  | integrate (strain : Fin 3 → ℝ) (what : IntegrateArg)
  | bending (theta n : ℝ)
  | momentCurvature (theta n chi_first : ℝ) (num_pre num_post : ℕ) (chi : Option (List ℝ))
  | nm (profiles : Except PyErr (List (Fin 3 → ℝ)))
  | nmm (profiles : Except PyErr (List (Fin 3 → ℝ)))
  | mm (n : ℝ) (thetas : List ℝ)
  | strainProfile (loads : Fin 3 → ℝ) (initial : Bool) (max_iter : ℤ) (tol : ℝ)
  | fixedPivot (n : ℝ) (yielding : Bool)
  | fixedCurvature (n curv eps0 : ℝ)

/-- Returned values. -/
inductive Out
  | pair (l : ℝ × ℝ)
  | response (r : Response)
  | bending (r : BendingResult)
  | curve (l : List MCPoint)
  | responses (l : List Response)
  | bendings (l : List BendingResult)
  | plane (e : Fin 3 → ℝ)

/-- Call of a public method. -/
def Op.run (E : Engine) (lu : Matrix (Fin 3) (Fin 3) ℝ → (Fin 3 → ℝ) → (Fin 3 → ℝ)) :
    Op → CalcM Out
  | .limitAxialLoad => do pure (.pair (← SC.limitAxialLoad E))
  | .limits => do pure (.pair (← SC.limits E))
  | .integrate e w => do pure (.response (← integrateStrainProfile E e w))
  | .bending th n => do pure (.bending (← bendingStrength E th n))
  | .momentCurvature th n c a b chi => do pure (.curve (← SC.momentCurvature E th n c a b chi))
  | .nm p => do pure (.responses (← nmDomain E p))
  | .nmm p => do pure (.responses (← nmmDomain E p))
  | .mm n ths => do pure (.bendings (← mmDomain E n ths))
  | .strainProfile l i m t => do pure (.plane (← strainProfileM E lu l i m t))
  | .fixedPivot n y => do pure (.plane (← pivotM E 0 n y))
  | .fixedCurvature n c e => do pure (.plane (← curvatureM E 0 n c e))

/-- State after a sequence of calls, whether they returned or raised. -/
def history (E : Engine) (lu : Matrix (Fin 3) (Fin 3) ℝ → (Fin 3 → ℝ) → (Fin 3 → ℝ)) :
    List Op → CalcState → CalcState
  | [], s => s
  | op :: ops, s => history E lu ops (op.run E lu s).1

end

end SC
