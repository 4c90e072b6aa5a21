import Verif.Model.Materials
import Verif.Model.Geometry

/-! # Gross section properties

`sections/_generic.py:132-297` with the `from_geometry` methods of `geometry/_geometry.py`.  The
eigenvalue solver (`np.linalg.eig`) and shapely's `unary_union` are parameters. -/

set_option autoImplicit false

namespace SC

noncomputable section

/-- A surface of the section: polygon and material (`geo.polygon`, `geo.material`). -/
structure GSurf where
  poly : Polygon
  mat : Material

/-- A point geometry of the section: position, area and material. -/
structure GBar where
  pt : ℝ × ℝ
  area : ℝ
  mat : Material

/-- The section's geometry. -/
structure GSection where
  surfs : List GSurf
  bars : List GBar

/-- A surface after `from_geometry`: the material is elastic. -/
structure ESurf where
  poly : Polygon
  law : Elastic

/-- A bar after `from_geometry`; `id` is the identity of its law object. -/
structure EBar where
  pt : ℝ × ℝ
  area : ℝ
  law : Elastic
  id : ℕ

/-- `material.constitutive_law.get_tangent(eps=0)`. -/
def initialModulus (m : Material) : ℝ := m.law.tangent 0

/-- materials/basic/_elastic.py:68-80 `ElasticMaterial.from_material`, as far as the law is concerned: an
elastic law without ultimate strain, rejected unless its modulus is positive. -/
def elasticOf (m : Material) : Except PyErr Elastic := Elastic.mk? (initialModulus m) none

/-- geometry/_geometry.py:636-671 (`SurfaceGeometry.from_geometry`) for one surface. -/
def elasticSurface (new : Option Elastic) (g : GSurf) : Except PyErr ESurf :=
  match new with
  | some l => .ok ⟨g.poly, l⟩
  | none => (elasticOf g.mat).map fun l => ⟨g.poly, l⟩

/-- geometry/_geometry.py:291-332 (`PointGeometry.from_geometry`) for the point number `i`: a given material
is shared by all points, otherwise each gets an object of its own. -/
def elasticBar (new : Option Elastic) (b : GBar × ℕ) : Except PyErr EBar :=
  match new with
  | some l => .ok ⟨b.1.pt, b.1.area, l, 0⟩
  | none => (elasticOf b.1.mat).map fun l => ⟨b.1.pt, b.1.area, l, b.2⟩

/-- geometry/_geometry.py:907-935 `CompoundGeometry.from_geometry`. -/
def fromGeometry (new : Option Elastic) (s : GSection) : Except PyErr (List ESurf × List EBar) := do
  let ss ← s.surfs.mapM (elasticSurface new)
  let bs ← s.bars.zipIdx.mapM (elasticBar new)
  return (ss, bs)

/-- geometry/_geometry.py:827-842 `CompoundGeometry.translate` on the section. -/
def GSection.translate (dx dy : ℝ) (s : GSection) : GSection :=
  ⟨s.surfs.map fun g => ⟨g.poly.map (translatePt dx dy), g.mat⟩,
    s.bars.map fun b => ⟨translatePt dx dy b.pt, b.area, b.mat⟩⟩

/-- An integrator on elastic geometries: `integrate_strain_response_on_geometry(geometry, strain,
integration_data=...)` with `integrate = 'stress'`, which returns `N, My, Mz` and the data. -/
abbrev ElasticIntegrator := List ESurf → List EBar → (Fin 3 → ℝ) → Option (List Group) →
  Except PyErr (Response × List Group)

/-- A bar as the integrators see it. -/
def EBar.bar (b : EBar) : Bar := ⟨b.pt.1, b.pt.2, b.area, ⟨b.id, b.law.law⟩⟩

/-- section_integrators/_marin_integrator.py:472-525 on an elastic geometry. -/
def marinElastic (split : Polygon → ℝ → ℝ → ShapelyResult) : ElasticIntegrator :=
  fun surfs bars e d => marinIntegrate split
    (surfs.map fun s => ⟨s.poly, fun a b => (.ok (s.law.marin a b).1, (s.law.marin a b).2),
      fun a b => (.ok (s.law.marinT a b).1, (s.law.marinT a b).2)⟩)
    (bars.map EBar.bar) e .stress d

/-- section_integrators/_fiber_integrator.py:290-340 on an elastic geometry; `mesher` is the `triangle` library
(polygon and maximal area to triangles).  Only bars are grouped by the identity of the law. -/
def fiberElastic (mesher : Polygon → ℝ → List ((ℝ × ℝ) × (ℝ × ℝ) × (ℝ × ℝ))) (meshSize : ℝ) :
    ElasticIntegrator :=
  fun surfs bars e d => fiberIntegrate
    (surfs.map fun s => ⟨s.poly.area, mesher s.poly, ⟨0, s.law.law⟩⟩) (bars.map EBar.bar) e .stress d meshSize

/-- `math.isclose(a, b, rel_tol=..., abs_tol=...)` (Python standard library). -/
def mathIsclose (a b relTol absTol : ℝ) : Prop := |a - b| ≤ max (relTol * max |a| |b|) absTol

/-- `sy, sz, iyy, izz, iyz`. -/
structure AreaMoments where
  sy : ℝ
  sz : ℝ
  iyy : ℝ
  izz : ℝ
  iyz : ℝ

/-- sections/_generic.py:191-240 `compute_area_moments`.  (Only `Response.forces` can come back.) -/
def computeAreaMoments (integ : ElasticIntegrator) (s : GSection) (new : Option Elastic) :
    Except PyErr AreaMoments := do
  let g ← fromGeometry new s
  match ← integ g.1 g.2 ![0, 1, 0] none with
  | (.stiffness _, _) => .error .typeError
  | (.forces f, data) =>
    let iyz := -f 2
    match ← integ g.1 g.2 ![0, 0, -1] (some data) with
    | (.stiffness _, _) => .error .typeError
    | (.forces h, _) =>
      let izz := -h 2
      let absTol := 0.5 * (f 1 + izz) * 1e-9
      raiseIfRun (¬ mathIsclose iyz (h 1) 1e-9 absTol)
      return ⟨f 0, h 0, f 1, izz, iyz⟩
where
  /-- sections/_generic.py:235-238 `raise RuntimeError`. -/
  raiseIfRun (p : Prop) : Except PyErr Unit := open Classical in if p then .error .runtimeError else .ok ()

/-- Result of `np.linalg.eig` on a 2x2 matrix: eigenvalues and unit eigenvectors (columns). -/
structure Eig where
  w0 : ℝ
  w1 : ℝ
  v0 : ℝ × ℝ
  v1 : ℝ × ℝ

open Classical in
/-- sections/_generic.py:280-287 `find_principal_axes_moments` (and geometry/profiles/_base_profile.py:118-129);
`eig a b c` stands for `np.linalg.eig(np.array([[a, b], [b, c]]))`.  `np.argmax` takes the first of equal
values. -/
def findPrincipal (eig : ℝ → ℝ → ℝ → Eig) (iyy izz iyz : ℝ) : ℝ × ℝ × ℝ :=
  let r := eig iyy iyz izz
  if r.w1 > r.w0 then (r.w1, r.w0, Real.arccos r.v1.1) else (r.w0, r.w1, Real.arccos r.v0.1)

/-- sections/_generic.py:154 `polygon.exterior.length`: length of a closed ring (shapely). -/
def ringLength : List (ℝ × ℝ) → ℝ
  | p :: q :: l => Real.sqrt ((q.1 - p.1) ^ 2 + (q.2 - p.2) ^ 2) + ringLength (q :: l)
  | _ => 0

/-- core/_section_results.py:11-108 `SectionProperties`. -/
structure GrossProps where
  area : ℝ
  areaReinf : ℝ
  ea : ℝ
  mass : ℝ
  perimeter : ℝ
  m : AreaMoments
  em : AreaMoments
  cy : ℝ
  cz : ℝ
  /-- `iyy_c, izz_c, iyz_c` (first moments of the translated section are not stored). -/
  mc : AreaMoments
  /-- `e_iyy_c, e_izz_c, e_iyz_c`. -/
  emc : AreaMoments
  i11 : ℝ
  i22 : ℝ
  theta : ℝ
  e_i11 : ℝ
  e_i22 : ℝ
  e_theta : ℝ

/-- sections/_generic.py:132-297 `_calculate_gross_section_properties`.  A union that is not a single polygon has no
attribute `exterior` (line 156).  `density` is a float for every material of the library. -/
def grossProperties (integ : ElasticIntegrator) (eig : ℝ → ℝ → ℝ → Eig) (union : List Polygon → ShapelyResult)
    (s : GSection) : Except PyErr GrossProps := do
  let perimeter ← (match union (s.surfs.map GSurf.poly) with
    | .polygon p => .ok (ringLength p.ext)
    | _ => .error .attributeError : Except PyErr ℝ)
  let area := s.surfs.foldl (fun a g => a + g.poly.area) 0
  let ea := s.surfs.foldl (fun a g => a + g.poly.area * initialModulus g.mat) 0
  let mass := s.surfs.foldl (fun a g => a + g.poly.area * g.mat.density * 1e-9) 0
  let ea := s.bars.foldl (fun a b => a + b.area * initialModulus b.mat) ea
  let areaReinf := s.bars.foldl (fun a b => a + b.area) 0
  let mass := s.bars.foldl (fun a b => a + b.area * b.mat.density * 1e-9) mass
  let dummy ← Elastic.mk? 1 none
  let m ← computeAreaMoments integ s (some dummy)
  let em ← computeAreaMoments integ s none
  let cy ← pyDiv em.sz ea
  let cz ← pyDiv em.sy ea
  let s' := s.translate (-cy) (-cz)
  let mc ← computeAreaMoments integ s' (some dummy)
  let emc ← computeAreaMoments integ s' none
  let p := findPrincipal eig mc.iyy mc.izz mc.iyz
  let ep := findPrincipal eig emc.iyy emc.izz emc.iyz
  return ⟨area, areaReinf, ea, mass, perimeter, m, em, cy, cz, mc, emc, p.1, p.2.1, p.2.2, ep.1, ep.2.1, ep.2.2⟩

end

end SC
