import Verif.Model.Laws
import Mathlib.Data.Matrix.Mul
import Mathlib.LinearAlgebra.Matrix.Notation

/-! # FiberIntegrator -/

set_option autoImplicit false

namespace SC

noncomputable section

/-- A constitutive law object; `id` is its identity, used as dictionary key
(core/base.py:160-166; no `__eq__`/`__hash__` is defined, so dictionaries use identity). -/
structure LawObj where
  id : ℕ
  law : Law

/-- A point geometry: coordinates, area and the law of its material. -/
structure Bar where
  x : ℝ
  y : ℝ
  area : ℝ
  law : LawObj

/-- One entry `(x, y, area, law)` of `integration_data`: parallel arrays as a list of triples. -/
structure Group where
  pts : List (ℝ × ℝ × ℝ)
  law : LawObj

/-- section_integrators/_fiber_integrator.py:96-126: centroid and area of one mesh triangle. -/
def triFibre (t : (ℝ × ℝ) × (ℝ × ℝ) × (ℝ × ℝ)) : ℝ × ℝ × ℝ :=
  let p0 := t.1
  let p1 := t.2.1
  let p2 := t.2.2
  ((p0.1 + p1.1 + p2.1) / 3, (p0.2 + p1.2 + p2.2) / 3,
    |p0.1 * p1.2 - p0.2 * p1.1 + (p1.1 * p2.2 - p1.2 * p2.1) + (p2.1 * p0.2 - p2.2 * p0.1)| * 0.5)

/-- section_integrators/_fiber_integrator.py:143-158 (identical to
_marin_integrator.py:185-200): insertion of one bar in the dictionary keyed by the law. -/
def insertBar (d : List Group) (b : Bar) : List Group :=
  match d with
  | [] => [⟨[(b.x, b.y, b.area)], b.law⟩]
  | g :: rest =>
    if g.law.id = b.law.id then ⟨g.pts ++ [(b.x, b.y, b.area)], g.law⟩ :: rest
    else g :: insertBar rest b

/-- section_integrators/_fiber_integrator.py:135-162 (and _marin_integrator.py:175-205):
bars grouped by law. -/
def groupBars (bars : List Bar) : List Group := bars.foldl insertBar []

/-- A surface geometry as seen by the fiber integrator: the mesher (the external `triangle`
library, a parameter of the model) maps the maximal area to a list of triangles. -/
structure MeshSurf where
  area : ℝ
  mesh : ℝ → List ((ℝ × ℝ) × (ℝ × ℝ) × (ℝ × ℝ))
  law : LawObj

/-- section_integrators/_fiber_integrator.py:64-164 `triangulate`. -/
def triangulate (surfs : List MeshSurf) (bars : List Bar) (meshSize : ℝ) :
    Except PyErr (List Group) :=
  if meshSize ≤ 0 ∨ meshSize > 1 then .error .valueError
  else .ok (surfs.map (fun g => ⟨(g.mesh (g.area * meshSize)).map triFibre, g.law⟩) ++
    groupBars bars)

/-- The `integrate` argument: 'stress', 'modulus' or any other string. -/
inductive IntegrateArg
  | stress | modulus | other
  deriving DecidableEq

/-- section_integrators/_fiber_integrator.py:226-231 choice of integrand. -/
def LawObj.integrand (l : LawObj) : IntegrateArg → Except PyErr (ℝ → ℝ)
  | .stress => .ok l.law.stress
  | .modulus => .ok l.law.tangent
  | .other => .error .valueError

/-- section_integrators/_fiber_integrator.py:222-234: one group.  The law is applied to the array
of strains; by C05/C06 this is its scalar value elementwise (simplification: the exceptions
listed there are not reproduced here). -/
def fiberGroup (strain : Fin 3 → ℝ) (integrate : IntegrateArg) (g : Group) :
    Except PyErr (List (ℝ × ℝ × ℝ)) :=
  match g.law.integrand integrate with
  | .error e => .error e
  | .ok f => .ok (g.pts.map fun p =>
      (p.1, p.2.1, f (strain 0 - strain 2 * p.1 + strain 1 * p.2.1) * p.2.2))

/-- section_integrators/_fiber_integrator.py:219-235 `prepare_input` once the data is known.
`np.hstack` of an empty list raises `ValueError`. -/
def fiberPrepare (data : List Group) (strain : Fin 3 → ℝ) (integrate : IntegrateArg) :
    Except PyErr (List (ℝ × ℝ × ℝ)) :=
  match data.mapM (fiberGroup strain integrate) with
  | .error e => .error e
  | .ok [] => .error .valueError
  | .ok l => .ok l.flatten

/-- section_integrators/_fiber_integrator.py:239-260 `integrate_stress`. -/
def fiberStress (inp : List (ℝ × ℝ × ℝ)) : Fin 3 → ℝ :=
  ![(inp.map fun p => p.2.2).sum, (inp.map fun p => p.2.2 * p.2.1).sum,
    (inp.map fun p => -p.2.2 * p.1).sum]

/-- section_integrators/_fiber_integrator.py:262-288 `integrate_modulus`. -/
def fiberModulus (inp : List (ℝ × ℝ × ℝ)) : Matrix (Fin 3) (Fin 3) ℝ :=
  let k00 := (inp.map fun p => p.2.2).sum
  let k01 := (inp.map fun p => p.2.2 * p.2.1).sum
  let k02 := (inp.map fun p => -p.2.2 * p.1).sum
  let k11 := (inp.map fun p => p.2.1 * p.2.1 * p.2.2).sum
  let k12 := (inp.map fun p => -p.1 * p.2.1 * p.2.2).sum
  let k22 := (inp.map fun p => p.1 * p.1 * p.2.2).sum
  !![k00, k01, k02; k01, k11, k12; k02, k12, k22]

/-- Value returned by `integrate_strain_response_on_geometry` (without the data). -/
inductive Response
  | forces (f : Fin 3 → ℝ)
  | stiffness (k : Matrix (Fin 3) (Fin 3) ℝ)

/-- section_integrators/_fiber_integrator.py:290-340 `integrate_strain_response_on_geometry`,
including lines 210-217: with `integration_data = None` the geometry is triangulated, otherwise
the given data is used; the data is returned with the response. -/
def fiberIntegrate (surfs : List MeshSurf) (bars : List Bar) (strain : Fin 3 → ℝ)
    (integrate : IntegrateArg) (data : Option (List Group)) (meshSize : ℝ) :
    Except PyErr (Response × List Group) :=
  match (match data with
    | some d => Except.ok d
    | none => triangulate surfs bars meshSize) with
  | .error e => .error e
  | .ok d =>
    match fiberPrepare d strain integrate with
    | .error e => .error e
    | .ok inp =>
      match integrate with
      | .stress => .ok (.forces (fiberStress inp), d)
      | .modulus => .ok (.stiffness (fiberModulus inp), d)
      | .other => .error .valueError

end

end SC
