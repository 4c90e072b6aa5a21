import Verif.Model.Profile
import Verif.Model.Equilibrium
import Verif.Model.UserDefined

/-! # Splitting of surfaces and elastic cracked properties

`geometry/_geometry.py:469-541` and `sections/_rc_utils.py`.  shapely's `split` and `intersects`, the clipper of
the Marin integrator, the mesher of the fibre integrator, `unary_union` and numpy's `eig` are parameters. -/

set_option autoImplicit false

namespace SC

noncomputable section

/-! ### Splitting -/

/-- A line as `SurfaceGeometry.split` takes it: a `LineString` (its first two coordinates are what the code looks at,
one with more is not modelled) or a point and an angle. -/
inductive LineArg
  | ends (a b : ℝ × ℝ)
  | pointAngle (point : ℝ × ℝ) (theta : ℝ)

/-- geometry/_geometry.py:484-491: the two ends of the line. -/
def LineArg.line (p : Polygon) : LineArg → (ℝ × ℝ) × (ℝ × ℝ)
  | .ends a b => (a, b)
  | .pointAngle pt theta => createLine pt theta p.bounds

open Classical in
/-- geometry/_geometry.py:499-505 and 507-514: the pieces are put into `above_polygons` or `below_polygons` by the
side of the line their centroid is on. -/
def classify (a b : ℝ × ℝ) (geoms : List Polygon) : List Polygon × List Polygon :=
  (geoms.filter fun g => decide (isCcw a b g.centroid), geoms.filter fun g => ¬ decide (isCcw a b g.centroid))

open Classical in
/-- geometry/_geometry.py:469-516 `SurfaceGeometry.split`: above and below. -/
def splitSurface (sh : Shapely) (p : Polygon) (l : LineArg) : List Polygon × List Polygon :=
  let ab := l.line p
  if sh.intersects ab.1 ab.2 p then classify ab.1 ab.2 (sh.split p ab.1 ab.2) else classify ab.1 ab.2 [p]

/-- The argument of `SurfaceGeometry.split_two_lines`: a tuple of lines, a `MultiLineString` or something else. -/
inductive LinesArg
  | tuple (lines : List ((ℝ × ℝ) × (ℝ × ℝ)))
  | multi (lines : List ((ℝ × ℝ) × (ℝ × ℝ)))
  | other

/-- geometry/_geometry.py:518-541 `SurfaceGeometry.split_two_lines`; `clip p pts` stands for
`polygon.intersection(hull)` with the convex hull of the given points.  Neither branch assigns `multi_line` for
anything that is not a tuple or a `MultiLineString` (a list, for example). -/
def splitTwoLines (clip : Polygon → List (ℝ × ℝ) → ShapelyResult) (p : Polygon) :
    LinesArg → Except PyErr ShapelyResult
  | .multi ls => .ok (clip p (ls.flatMap fun l => [l.1, l.2]))
  | .tuple ls => if ls.length ≠ 2 then .error .runtimeError else .ok (clip p (ls.flatMap fun l => [l.1, l.2]))
  | .other => .error .unboundLocal

/-- section_integrators/_marin_integrator.py:153-158: how the Marin integrator cuts the strip `y0 ≤ z ≤ y1` out of a
polygon. -/
def marinSplit (clip : Polygon → List (ℝ × ℝ) → ShapelyResult) (p : Polygon) (y0 y1 : ℝ) : ShapelyResult :=
  match splitTwoLines clip p (.multi [createLine (0, y0) 0 p.bounds, createLine (0, y1) 0 p.bounds]) with
  | .ok r => r
  | .error _ => .other

/-! ### Cracked properties -/

/-- A surface of the section with its flag `concrete`. -/
structure RSurf where
  poly : Polygon
  mat : Material
  concrete : Bool

/-- A surface after sections/_rc_utils.py:71-89: compression-only for concrete, elastic for other materials;
`density` is that of the material. -/
inductive CrackLaw
  | concrete (l : UserDefined)
  | other (l : Elastic)

/-- The law of the new material. -/
def CrackLaw.law : CrackLaw → Law
  | .concrete l => l.law
  | .other l => l.law

/-- sections/_rc_utils.py:72-86: the new law of a surface.  `UserDefined([-100, 0], [-100 * E, 0])` is
compression-only; `ElasticMaterial` rejects a modulus that is not positive. -/
def crackLaw (s : RSurf) : Except PyErr CrackLaw :=
  let E := initialModulus s.mat
  if s.concrete then (UserDefined.new? [-100, 0] [-100 * E, 0] none 0).map .concrete
  else (Elastic.mk? E none).map .other

/-- The new material of a surface: the constructor takes the absolute value of the density (core/base.py:48). -/
def crackMaterial (density : ℝ) (l : Law) : Material := ⟨|density|, none, none, none, l⟩

/-- Surface of the temporary section. -/
structure CSurf where
  poly : Polygon
  law : CrackLaw
  density : ℝ

/-- Bar of the temporary section. -/
structure CBar where
  bar : EBar
  density : ℝ

/-- The axial force in the result of `integrate_strain_response_on_geometry`.  Integrations of these laws do not
raise (shown for the Marin integrator by `cracked_axial`), the other cases are not reached. -/
def axialForce (r : Except PyErr (Response × List Group)) : ℝ :=
  match r with
  | .ok (.forces f, _) => f 0
  | _ => 0

/-- The two uses of an integrator: axial force of the temporary section for `[eps, chi, 0]`, and the integration of
elastic geometries for the gross properties. -/
structure CrackIntegrator where
  axial : List CSurf → List CBar → ℝ → ℝ → ℝ
  elastic : ElasticIntegrator

/-- What the Marin integrator sees of a surface. -/
def CSurf.surf (s : CSurf) : Surf :=
  match s.law with
  | .concrete l => ⟨s.poly, fun a b => (.ok (l.marin a b).1, (l.marin a b).2),
      fun a b => (.ok (l.marinT a b).1, (l.marinT a b).2)⟩
  | .other l => ⟨s.poly, fun a b => (.ok (l.marin a b).1, (l.marin a b).2),
      fun a b => (.ok (l.marinT a b).1, (l.marinT a b).2)⟩

/-- sections/_rc_utils.py:64-66: `integrator = 'marin'`. -/
def marinCrack (split : Polygon → ℝ → ℝ → ShapelyResult) : CrackIntegrator where
  axial surfs bars eps chi := axialForce (marinIntegrate split (surfs.map CSurf.surf)
    (bars.map fun b => b.bar.bar) ![eps, chi, 0] .stress none)
  elastic := marinElastic split

/-- sections/_rc_utils.py:59-63: `integrator = 'fiber'`.  The integrator has no attribute `mesh_size`
(section_integrators/_fiber_integrator.py), so the default `0.01` is always used. -/
def fiberCrack (mesher : Polygon → ℝ → List ((ℝ × ℝ) × (ℝ × ℝ) × (ℝ × ℝ))) : CrackIntegrator where
  axial surfs bars eps chi := axialForce (fiberIntegrate
    (surfs.map fun s => ⟨s.poly.area, mesher s.poly, ⟨0, s.law.law⟩⟩) (bars.map fun b => b.bar.bar)
    ![eps, chi, 0] .stress none 0.01)
  elastic := fiberElastic mesher 0.01

/-- Rotation of a polygon about the origin, `geometry.rotate(angle)`. -/
def turnPoly (angle : ℝ) (p : Polygon) : Polygon := p.map (rotatePt angle (0, 0) true)

/-- sections/_rc_utils.py:68-106: rotated surfaces and bars with their elastic materials. -/
def crackSection (theta : ℝ) (surfs : List RSurf) (bars : List GBar) : Except PyErr (List CSurf × List CBar) := do
  let ss ← surfs.mapM fun s => (crackLaw s).map fun l => (⟨turnPoly (-theta) s.poly, l, s.mat.density⟩ : CSurf)
  let bs ← bars.zipIdx.mapM fun b => (elasticOf b.1.mat).map fun l =>
    (⟨⟨rotatePt (-theta) (0, 0) true b.1.pt, b.1.area, l, b.2⟩, b.1.mat.density⟩ : CBar)
  return (ss, bs)

/-- sections/_rc_utils.py:108-113: height of the neutral axis.  The search stops (C25), `none` does not occur. -/
def crackAxis (N : ℝ → ℝ → ℝ) : Except PyErr ℝ :=
  let curv := -1e-5
  match fixedCurvature N 0 curv 0 with
  | none => .error .runtimeError
  | some (.error e, _) => .error e
  | some (.ok r, _) => .ok (-r.1 / curv)

/-- sections/_rc_utils.py:116-126 with 13-26 `_create_surface_geometries`: what remains of a surface. -/
def crackSurface (sh : Shapely) (z : ℝ) (s : CSurf) : List GSurf :=
  (splitSurface sh s.poly (.pointAngle (0, z) 0)).1.map fun q => ⟨q, crackMaterial s.density s.law.law⟩

/-- sections/_rc_utils.py:68-131: the cracked geometry. -/
def crackedGeometry (ci : CrackIntegrator) (sh : Shapely) (theta : ℝ) (surfs : List RSurf) (bars : List GBar) :
    Except PyErr GSection := do
  let g ← crackSection theta surfs bars
  let z ← crackAxis (ci.axial g.1 g.2)
  return ⟨(g.1.flatMap (crackSurface sh z)).map fun s => ⟨turnPoly theta s.poly, s.mat⟩,
    g.2.map fun b => ⟨rotatePt theta (0, 0) true b.bar.pt, b.bar.area, crackMaterial b.density b.bar.law.law⟩⟩

/-- sections/_rc_utils.py:29-144 `calculate_elastic_cracked_properties`: `none` if the geometry is not reinforced
concrete (geometry/_geometry.py:784-793); properties and geometry otherwise. -/
def crackedProperties (ci : CrackIntegrator) (sh : Shapely) (eig : ℝ → ℝ → ℝ → Eig)
    (union : List Polygon → ShapelyResult) (theta : ℝ) (surfs : List RSurf) (bars : List GBar) :
    Except PyErr (Option (GrossProps × GSection)) :=
  if surfs.any fun s => s.concrete then do
    let g ← crackedGeometry ci sh theta surfs bars
    let gp ← grossProperties ci.elastic eig union g
    return some (gp, g)
  else .ok none

end

end SC
