import Verif.Model.Equilibrium
import Verif.Model.MarinIntegrator
import Verif.Model.Balanced

/-!
# GenericSectionCalculator as a state machine

State: the cached integration data and the cached axial load limits.  Every method is a function
from the state to a new state and a result or exception; an exception keeps the state reached so
far.  The integrator and `get_balanced_failure_strain` on the (rotated) geometry of the section
are parameters (`Engine`), instantiated with the two integrators at the end.
-/

set_option autoImplicit false

namespace SC

noncomputable section

/-! ### The searches with integrations that may raise -/

open Classical in
/-- sections/_generic.py:437-455 and 570-588 with an integration that may raise. -/
def bisBodyE (f : ℝ → Except PyErr ℝ) (s : BisState) : Except PyErr BisState :=
  let c := (s.a + s.b) / 2
  match f c with
  | .error e => .error e
  | .ok dc =>
    if dc * s.da < 0 then .ok ⟨s.a, s.da, c, dc, some c, s.it + 1⟩
    else .ok ⟨c, dc, s.b, s.db, some c, s.it + 1⟩

/-- sections/_generic.py:435-462 and 568-595. -/
def bisectionE (f : ℝ → Except PyErr ℝ) (a da b db : ℝ) : Option (Except PyErr ℝ × ℕ) :=
  (pyWhile bisCond (bisBodyE f) ⟨a, da, b, db, none, 0⟩).map fun r =>
    (match r.1 with
      | .error e => .error e
      | .ok s =>
        if s.it ≥ 100 then .error .valueError
        else
          match s.c with
          | none => .error .unboundLocal
          | some c => .ok c,
      r.2)

open Classical in
/-- sections/_generic.py:491-520 with an integration that may raise. -/
def preBodyE (f : ℝ → Except PyErr ℝ) (epsA dnA : ℝ) (s : PreState) : Except PyErr PreState :=
  let epsB := epsA + preSign dnA * s.delta * 2 ^ s.it
  match f epsB with
  | .error e => .error e
  | .ok dnB =>
    if dnA * dnB < 0 then .ok ⟨true, s.it + 1, s.restarts, s.delta, s.steps, (epsB, dnB)⟩
    else if |dnB| > |dnA| then
      if s.steps + 1 > 10 then .ok ⟨false, 0 + 1, s.restarts + 1, s.delta / 2, 0, (epsB, dnB)⟩
      else .ok ⟨false, s.it + 1, s.restarts, s.delta, s.steps + 1, (epsB, dnB)⟩
    else .ok ⟨false, s.it + 1, s.restarts, s.delta, s.steps, (epsB, dnB)⟩

/-- sections/_generic.py:465-525. -/
def prefindE (f : ℝ → Except PyErr ℝ) (epsA dnA : ℝ) : Option (Except PyErr (ℝ × ℝ) × ℕ) :=
  (pyWhile preCond (preBodyE f epsA dnA) preStart).map fun r =>
    (match r.1 with
      | .error e => .error e
      | .ok s => if s.it ≥ 20 ∧ s.found = false then .error .valueError else .ok s.b,
      r.2)

/-- Residual `n_int - n`. -/
def residual (N : ℝ → ℝ → Except PyErr ℝ) (n e chi : ℝ) : Except PyErr ℝ :=
  match N e chi with
  | .error er => .error er
  | .ok v => .ok (v - n)

open Classical in
/-- sections/_generic.py:527-595. -/
def fixedCurvatureE (N : ℝ → ℝ → Except PyErr ℝ) (n curv eps0 : ℝ) :
    Option (Except PyErr (ℝ × ℝ × ℝ) × ℕ) :=
  match residual N n eps0 curv with
  | .error e => some (.error e, 1)
  | .ok dnA =>
    if |dnA| ≤ 1e-2 then some (.ok (eps0, curv, 0), 1)
    else
      match prefindE (fun e => residual N n e curv) eps0 dnA with
      | none => none
      | some (.error e, k) => some (.error e, k + 1)
      | some (.ok (epsB, dnB), k) =>
        (bisectionE (fun e => residual N n e curv) eps0 dnA epsB dnB).map fun r =>
          (match r.1 with
            | .error e => .error e
            | .ok c => .ok (c, curv, 0), r.2 + k + 1)

open Classical in
/-- sections/_generic.py:402-463 (after the balanced failure). -/
def fixedPivotFromE (N : ℝ → ℝ → Except PyErr ℝ) (n yn yp : ℝ) (strain : Fin 3 → ℝ) :
    Option (Except PyErr (ℝ × ℝ × ℝ) × ℕ) :=
  match N (strain 0) (strain 1) with
  | .error e => some (.error e, 1)
  | .ok nInt =>
    if |nInt - n| ≤ 1e-2 then some (.ok (strain 0, strain 1, 0), 1)
    else
      let pivot := if nInt < n then yp else yn
      let strainPivot := if nInt < n then strain 0 + strain 1 * yp else strain 0 + strain 1 * yn
      let f := fun chi => residual N n (strainPivot - chi * pivot) chi
      match f (-1e-13) with
      | .error e => some (.error e, 2)
      | .ok dnB =>
        (bisectionE f (strain 1) (nInt - n) (-1e-13) dnB).map fun r =>
          (match r.1 with
            | .error e => .error e
            | .ok c => .ok (strainPivot - c * pivot, c, 0), r.2 + 2)

/-! ### State and effects -/

/-- sections/_generic.py:125-130: `integration_data`, and `_n_min`/`_n_max` (always assigned
together, lines 635 and 645). -/
structure CalcState where
  data : Option (List Group)
  lim : Option (ℝ × ℝ)

/-- State after `__init__`, sections/_generic.py:103-130. -/
def CalcState.fresh : CalcState := ⟨none, none⟩

/-- Methods: state-passing with exceptions; an exception does not undo the effects. -/
def CalcM (α : Type) := CalcState → CalcState × Except PyErr α

instance : Monad CalcM where
  pure a := fun s => (s, .ok a)
  bind m f := fun s =>
    match m s with
    | (s', .error e) => (s', .error e)
    | (s', .ok a) => f a s'

/-- What the calculator uses: the integrator on the section geometry rotated by an angle
(`integ angle strain integrate integration_data mesh_size`), the balanced failure of the rotated
geometry, and `self.mesh_size`. -/
structure Engine where
  integ : ℝ → (Fin 3 → ℝ) → IntegrateArg → Option (List Group) → ℝ →
    Except PyErr (Response × List Group)
  balanced : ℝ → Bool → Except PyErr (ℝ × ℝ × (Fin 3 → ℝ))
  meshSize : ℝ

/-- `kwargs.get('mesh_size', 0.01)`: value when the caller omits `mesh_size`,
section_integrators/_fiber_integrator.py:216. -/
def defaultMesh : ℝ := 0.01

/-- A pure computation that may raise. -/
def liftE {α : Type} (r : Except PyErr α) : CalcM α := fun s => (s, r)

/-- A computation that reads the cached data. -/
def withData {α : Type} (g : Option (List Group) → Except PyErr α) : CalcM α := fun s => (s, g s.data)

/-- A call of the integrator with `integration_data=self.integration_data`; with `cache` it is
followed by `if self.integration_data is None and integration_data is not None: ...` (the
integrators always return data), e.g. sections/_generic.py:404-418. -/
def call (E : Engine) (angle : ℝ) (strain : Fin 3 → ℝ) (what : IntegrateArg) (mesh : ℝ)
    (cache : Bool) : CalcM Response := fun s =>
  match E.integ angle strain what s.data mesh with
  | .error e => (s, .error e)
  | .ok (r, d) => (if cache && s.data.isNone then { s with data := some d } else s, .ok r)

/-- First component of the returned tuple. -/
def Response.N : Response → ℝ
  | .forces f => f 0
  | .stiffness k => k 0 0

/-- The second and third component of the returned tuple. -/
def Response.M : Response → ℝ × ℝ
  | .forces f => (f 1, f 2)
  | .stiffness k => (k 1 1, k 2 2)

/-- Axial force of the plane `[e, chi, 0]` with the current data, mesh size omitted. -/
def oracleN (E : Engine) (angle : ℝ) (data : Option (List Group)) (e chi : ℝ) : Except PyErr ℝ :=
  match E.integ angle ![e, chi, 0] .stress data defaultMesh with
  | .error er => .error er
  | .ok (r, _) => .ok r.N

/-- Result of a search; the searches always stop (C25), so `none` does not occur. -/
def searchResult (r : Option (Except PyErr (ℝ × ℝ × ℝ) × ℕ)) : Except PyErr (Fin 3 → ℝ) :=
  match r with
  | none => .error .runtimeError
  | some (.error e, _) => .error e
  | some (.ok (e, chi, z), _) => .ok ![e, chi, z]

/-- sections/_generic.py:374-463 `find_equilibrium_fixed_pivot` on the rotated geometry.  The first
integration is made with `mesh_size` and fills the cache; the search then repeats it with the
cached data (same value). -/
def pivotM (E : Engine) (angle n : ℝ) (yielding : Bool) : CalcM (Fin 3 → ℝ) := do
  let b ← liftE (E.balanced angle yielding)
  let _ ← call E angle b.2.2 .stress E.meshSize true
  withData fun d => searchResult (fixedPivotFromE (oracleN E angle d) n b.1 b.2.1 b.2.2)

/-- sections/_generic.py:527-595 `find_equilibrium_fixed_curvature` on the rotated geometry; no
`mesh_size` is passed (554). -/
def curvatureM (E : Engine) (angle n curv eps0 : ℝ) : CalcM (Fin 3 → ℝ) := do
  let _ ← call E angle ![eps0, curv, 0] .stress defaultMesh true
  withData fun d => searchResult (fixedCurvatureE (oracleN E angle d) n curv eps0)

/-- sections/_generic.py:597-626 `calculate_limit_axial_load`. -/
def limitAxialLoad (E : Engine) : CalcM (ℝ × ℝ) := fun s =>
  match E.balanced 0 false with
  | .error e => (s, .error e)
  | .ok (yn, yp, strain) =>
    let eps_p := strain 0 + strain 1 * yp
    let eps_n := strain 0 + strain 1 * yn
    match E.integ 0 ![eps_n, 0, 0] .stress s.data E.meshSize with
    | .error e => (s, .error e)
    | .ok (r1, d) =>
      match E.integ 0 ![eps_p, 0, 0] .stress (some d) defaultMesh with
      | .error e => (s, .error e)
      | .ok (r2, _) =>
        (if s.data.isNone then { s with data := some d } else s, .ok (r1.N, r2.N))

/-- sections/_generic.py:628-646 `n_min`, `n_max`: both limits, computed when not cached. -/
def limits (E : Engine) : CalcM (ℝ × ℝ) := fun s =>
  match s.lim with
  | some l => (s, .ok l)
  | none =>
    match limitAxialLoad E s with
    | (s', .error e) => (s', .error e)
    | (s', .ok l) => ({ s' with lim := some l }, .ok l)

open Classical in
/-- sections/_generic.py:648-657 `check_axial_load`. -/
def checkAxialLoad (E : Engine) (n : ℝ) : CalcM Unit := do
  let l ← limits E
  if n < l.1 ∨ n > l.2 then liftE (.error .valueError) else pure ()

/-- sections/_generic.py:755-757, 774-776, 834-836, 925-927 with 659-674: rotate the cached data,
if there is any. -/
def rotateData (angle : ℝ) : CalcM Unit := fun s =>
  ({ s with data := s.data.map (List.map (rotGroup angle)) }, .ok ())

/-- `T @ v` with `T = [[cos, -sin], [sin, cos]]`. -/
def rot2 (theta : ℝ) (v : ℝ × ℝ) : ℝ × ℝ := rotPt theta v

/-- Result of `calculate_bending_strength`: n, chi_y, chi_z, eps_a, m_y, m_z. -/
structure BendingResult where
  n : ℝ
  chi : ℝ × ℝ
  eps_a : ℝ
  m : ℝ × ℝ

/-- sections/_generic.py:734-790 `calculate_bending_strength`. -/
def bendingStrength (E : Engine) (theta n : ℝ) : CalcM BendingResult := do
  checkAxialLoad E n
  rotateData (-theta)
  let strain ← pivotM E (-theta) n false
  let r ← call E (-theta) strain .stress defaultMesh false
  rotateData theta
  pure ⟨r.N, rot2 theta (strain 1, strain 2), strain 0, rot2 theta r.M⟩

open Classical in
/-- sections/_generic.py:856-882: the default curvature grid. -/
def curvatureGrid (chi_first chi_yield chi_ultimate : ℝ) (num_pre num_post : ℕ) : List ℝ :=
  let c1 := chi_first * (if chi_first * chi_yield < 0 then -1 else 1)
  let c2 := if |c1| ≥ |chi_yield| then chi_yield / num_pre else c1
  if |chi_ultimate| ≤ |chi_yield| + 1e-8 then linspace c2 chi_yield num_pre true
  else linspace c2 chi_yield (num_pre - 1) false ++ linspace chi_yield chi_ultimate (num_post + 1) true

/-- One point of a moment-curvature diagram: eps_axial, (m_y, m_z), (chi_y, chi_z). -/
abbrev MCPoint := ℝ × (ℝ × ℝ) × (ℝ × ℝ)

/-- sections/_generic.py:893-923: the loop over the curvatures, each search starting from the
previous axial strain. -/
def mcLoop (E : Engine) (theta n : ℝ) : ℝ → List ℝ → CalcM (List MCPoint)
  | _, [] => pure []
  | eps, curv :: rest => do
    let strain ← curvatureM E (-theta) n curv eps
    let r ← call E (-theta) strain .stress defaultMesh false
    let tail ← mcLoop E theta n (strain 0) rest
    pure ((strain 0, rot2 theta r.M, rot2 theta (curv, 0)) :: tail)

open Classical in
/-- sections/_generic.py:792-934 `calculate_moment_curvature`.  `chi` as given by the caller or
computed; `num_pre = 0` (division by zero in line 862) is not modelled. -/
def momentCurvature (E : Engine) (theta n chi_first : ℝ) (num_pre num_post : ℕ)
    (chi : Option (List ℝ)) : CalcM (List MCPoint) := do
  checkAxialLoad E n
  rotateData (-theta)
  let grid ← (match chi with
    | some l => pure l
    | none => do
      let su ← pivotM E (-theta) n false
      let sy ← pivotM E (-theta) n true
      if su 1 * sy 1 < 0 then liftE (.error .valueError)
      else pure (curvatureGrid chi_first (sy 1) (su 1) num_pre num_post))
  let pts ← mcLoop E theta n 0 grid
  rotateData theta
  pure pts

/-- sections/_generic.py:1104-1118 (`mesh_size` passed) and 1375-1388 (`mesh_size` omitted): forces
of a list of strain profiles on the unrotated geometry, caching the data. -/
def integrateAll (E : Engine) (mesh : ℝ) : List (Fin 3 → ℝ) → CalcM (List Response)
  | [] => pure []
  | e :: rest => do
    let r ← call E 0 e .stress mesh true
    let tail ← integrateAll E mesh rest
    pure (r :: tail)

/-- sections/_generic.py:992-1125 `calculate_nm_interaction_domain`: the strain profiles are computed
from the geometry only (`profiles`, modelled in `Model/Domain.lean`). -/
def nmDomain (E : Engine) (profiles : Except PyErr (List (Fin 3 → ℝ))) : CalcM (List Response) := do
  let l ← liftE profiles
  integrateAll E E.meshSize l

/-- sections/_generic.py:1286-1395 `calculate_nmm_interaction_domain`. -/
def nmmDomain (E : Engine) (profiles : Except PyErr (List (Fin 3 → ℝ))) : CalcM (List Response) := do
  let l ← liftE profiles
  integrateAll E defaultMesh l

/-- sections/_generic.py:1397-1429 `calculate_mm_interaction_domain` for given angles. -/
def mmDomain (E : Engine) (n : ℝ) : List ℝ → CalcM (List BendingResult)
  | [] => pure []
  | th :: rest => do
    let r ← bendingStrength E th n
    let tail ← mmDomain E n rest
    pure (r :: tail)

/-- sections/_generic.py:676-732 `integrate_strain_profile`. -/
def integrateStrainProfile (E : Engine) (strain : Fin 3 → ℝ) (what : IntegrateArg) :
    CalcM Response :=
  call E 0 strain what E.meshSize true

/-! ### The two integrators on a section -/

/-- What the balanced failure search reads from a bar. -/
def Bar.part (b : Bar) : Part := ⟨false, false, b.y, b.y, b.law.law.ult⟩

/-- A section calculated with the fiber integrator.  `surfs a` and `surfParts a` are the surfaces
rotated by `a`, as seen by the mesher and by the balanced failure search. -/
def fiberEngine (surfs : ℝ → List MeshSurf) (surfParts : ℝ → List Part) (bars : List Bar)
    (rc : Bool) (meshSize : ℝ) : Engine where
  integ a e w d m := fiberIntegrate (surfs a) (bars.map (Bar.rotate a)) e w d m
  balanced a y := balancedFailure (surfParts a ++ (bars.map (Bar.rotate a)).map Bar.part) rc y
  meshSize := meshSize

/-- A section calculated with the Marin integrator. -/
def marinEngine (split : Polygon → ℝ → ℝ → ShapelyResult) (surfs : List Surf)
    (surfParts : ℝ → List Part) (bars : List Bar) (rc : Bool) (meshSize : ℝ) : Engine where
  integ a e w d _ := marinIntegrate split (surfs.map fun g => { g with polygon := g.polygon.rotate a })
    (bars.map (Bar.rotate a)) e w d
  balanced a y := balancedFailure (surfParts a ++ (bars.map (Bar.rotate a)).map Bar.part) rc y
  meshSize := meshSize

end

end SC
