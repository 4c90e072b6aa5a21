import Verif.Model.Fiber
import Verif.Model.MarinLaws
import Verif.Model.MarinIntegration
import Mathlib.Analysis.SpecialFunctions.Complex.Arg

/-! # MarinIntegrator -/

set_option autoImplicit false

namespace SC

noncomputable section

/-- `math.atan2(y, x)`; `atan2(0, 0) = 0` in Python as well.  (Signed zeros are not modelled.) -/
def atan2 (y x : ℝ) : ℝ := Complex.arg ⟨x, y⟩

/-- Rotation of a point about the origin by `angle`: `T @ coords` with
`T = [[cos, -sin], [sin, cos]]`, section_integrators/_marin_integrator.py:42-49; also
`affinity.rotate(..., origin=(0, 0))`, geometry/_geometry.py:240-264 and 587-612. -/
def rotPt (angle : ℝ) (p : ℝ × ℝ) : ℝ × ℝ :=
  (Real.cos angle * p.1 - Real.sin angle * p.2, Real.sin angle * p.1 + Real.cos angle * p.2)

/-- A polygon: exterior ring and interior rings, each a closed coordinate list. -/
structure Polygon where
  ext : List (ℝ × ℝ)
  ints : List (List (ℝ × ℝ))

/-- geometry/_geometry.py:587-612 `SurfaceGeometry.rotate` on the polygon. -/
def Polygon.rotate (angle : ℝ) (p : Polygon) : Polygon :=
  ⟨p.ext.map (rotPt angle), p.ints.map (List.map (rotPt angle))⟩

/-- What `polygon.intersection(...)` returned: `Polygon`, `MultiPolygon`, or any other shapely
geometry (empty collection, line, point, `GeometryCollection`). -/
inductive ShapelyResult
  | polygon (p : Polygon)
  | multi (ps : List Polygon)
  | other

/-- A surface geometry: polygon, and the methods of its law.  The `Except` is for laws whose
`__marin__` can raise (Parallel); the second component is `strain[0]` after the call, since
`__marin__` may assign to it. -/
structure Surf where
  polygon : Polygon
  marin : ℝ → ℝ → Except PyErr MarinOut × ℝ
  marinT : ℝ → ℝ → Except PyErr MarinOut × ℝ

/-- An item of `prepared_input`: `(0, y, z, coeffs)` or `(1, y, z, IA)`. -/
inductive Item
  | ring (r : List (ℝ × ℝ)) (coeffs : List ℝ)
  | points (pts : List (ℝ × ℝ × ℝ))

open Classical in
/-- `shapely.geometry.polygon.orient(polygon, 1)`: exterior rings with negative signed area and
interior rings with positive signed area are reversed (`signed_area` is the shoelace formula,
the value of `marin ring 0 0`). -/
def orient (p : Polygon) : Polygon :=
  ⟨if 0 ≤ marin p.ext 0 0 then p.ext else p.ext.reverse,
    p.ints.map fun r => if marin r 0 0 ≤ 0 then r else r.reverse⟩

/-- section_integrators/_marin_integrator.py:65-88 `_get_input_polygon`.  The `ValueError`s for
wrongly oriented rings are unreachable after `orient` (non-degenerate rings) and not modelled;
`polygon.is_empty` is an empty exterior. -/
def inputPolygon (p : Polygon) (coeffs : List ℝ) : List Item :=
  if p.ext = [] then []
  else Item.ring (orient p).ext coeffs :: (orient p).ints.map fun r => Item.ring r coeffs

/-- section_integrators/_marin_integrator.py:90-128 `_get_coefficcients`. -/
def Surf.coefficients (g : Surf) (e0 e1 : ℝ) : IntegrateArg → Except PyErr MarinOut × ℝ
  | .stress => g.marin e0 e1
  | .modulus => g.marinT e0 e1
  | .other => (.error .valueError, e0)

/-- section_integrators/_marin_integrator.py:149-166: one strain range.  `split p y0 y1` is
`g.split_two_lines(lines)` (shapely, a parameter).  `/ strain[1]` is only reached with
`strain[1] != 0` by the library's laws; Python floats would raise `ZeroDivisionError`. -/
def processRange (split : Polygon → ℝ → ℝ → ShapelyResult) (p : Polygon) (e0 e1 : ℝ)
    (range : ℝ × ℝ) (coeffs : List ℝ) : List Item :=
  let y0 := -(e0 - range.1) / e1
  let y1 := -(e0 - range.2) / e1
  let ys := if y0 > y1 then (y1, y0) else (y0, y1)
  match split p ys.1 ys.2 with
  | .polygon q => inputPolygon q coeffs
  | .multi qs => qs.flatMap fun q => inputPolygon q coeffs
  | .other => []

open Classical in
/-- section_integrators/_marin_integrator.py:139-166: one geometry.  `coeffs[p]` with a missing
entry raises `IndexError`. -/
def processSurface (split : Polygon → ℝ → ℝ → ShapelyResult) (integrate : IntegrateArg)
    (e0 e1 : ℝ) (g : Surf) : Except PyErr (List Item) × ℝ :=
  let out := g.coefficients e0 e1 integrate
  (match out.1 with
  | .error e => .error e
  | .ok m =>
    match m.ranges with
    | none =>
      match m.coeffs with
      | [] => .error .indexError
      | c :: _ => .ok (inputPolygon g.polygon c)
    | some rs =>
      if rs ≠ [] ∧ e1 = 0 then .error .zeroDivision
      else if m.coeffs.length < rs.length then .error .indexError
      else .ok ((rs.zip m.coeffs).flatMap fun rc =>
        processRange split g.polygon out.2 e1 rc.1 rc.2), out.2)

/-- section_integrators/_marin_integrator.py:130-166 `_process_surface_geometries`; the strain list
is shared by all geometries, so an assignment to `strain[0]` persists. -/
def processSurfaces (split : Polygon → ℝ → ℝ → ShapelyResult) (integrate : IntegrateArg) (e1 : ℝ) :
    ℝ → List Surf → Except PyErr (List Item × ℝ)
  | e0, [] => .ok ([], e0)
  | e0, g :: gs =>
    match processSurface split integrate e0 e1 g with
    | (.error e, _) => .error e
    | (.ok items, e0') =>
      match processSurfaces split integrate e1 e0' gs with
      | .error e => .error e
      | .ok (rest, e0'') => .ok (items ++ rest, e0'')

/-- Rotation of integration data, section_integrators/_marin_integrator.py:40-57, 363-374, 447-458
and sections/_generic.py:659-674. -/
def rotGroup (angle : ℝ) (g : Group) : Group :=
  ⟨g.pts.map fun p => ((rotPt angle (p.1, p.2.1)).1, (rotPt angle (p.1, p.2.1)).2, p.2.2), g.law⟩

/-- geometry/_geometry.py:240-264 `PointGeometry.rotate`. -/
def Bar.rotate (angle : ℝ) (b : Bar) : Bar :=
  ⟨(rotPt angle (b.x, b.y)).1, (rotPt angle (b.x, b.y)).2, b.area, b.law⟩

/-- section_integrators/_marin_integrator.py:229-241: one group. -/
def marinGroup (e0 e1 : ℝ) (integrate : IntegrateArg) (g : Group) :
    Except PyErr (List (ℝ × ℝ × ℝ)) :=
  match g.law.integrand integrate with
  | .error e => .error e
  | .ok f => .ok (g.pts.map fun p => (p.1, p.2.1, f (e0 + e1 * p.2.1) * p.2.2))

open Classical in
/-- section_integrators/_marin_integrator.py:226-243: all groups.  `np.array(y)` on arrays of
different lengths raises `ValueError` (numpy >= 1.24; older numpy only warned). -/
def marinGroups (e0 e1 : ℝ) (integrate : IntegrateArg) (data : List Group) :
    Except PyErr Item :=
  match data.mapM (marinGroup e0 e1 integrate) with
  | .error e => .error e
  | .ok l =>
    if ∃ a ∈ data, ∃ b ∈ data, a.pts.length ≠ b.pts.length then .error .valueError
    else .ok (.points l.flatten)

/-- section_integrators/_marin_integrator.py:330-354: contribution of one item to `(N, My, Mz)`. -/
def itemForces : Item → Fin 3 → ℝ
  | .ring r c =>
    ![(c.zipIdx.map fun ck => ck.1 * marin r 0 ck.2).sum,
      (c.zipIdx.map fun ck => ck.1 * marin r 0 (ck.2 + 1)).sum,
      -(c.zipIdx.map fun ck => ck.1 * marin r 1 ck.2).sum]
  | .points pts =>
    ![(pts.map fun p => p.2.2).sum, (pts.map fun p => p.2.2 * p.2.1).sum,
      -(pts.map fun p => p.2.2 * p.1).sum]

/-- section_integrators/_marin_integrator.py:327-358: sum over the items, moments rotated back. -/
def marinForces (angle : ℝ) (items : List Item) : Fin 3 → ℝ :=
  let s := (items.map itemForces).sum
  let c := Real.cos (-angle)
  let d := Real.sin (-angle)
  ![s 0, c * s 1 - d * s 2, d * s 1 + c * s 2]

/-- section_integrators/_marin_integrator.py:411-432: contribution of one item to the upper
triangle of the stiffness, as `(k00, k01, k02, k11, k12, k22)`. -/
def itemStiffness : Item → Fin 6 → ℝ
  | .ring r c =>
    let s (m off : ℕ) := (c.zipIdx.map fun ck => ck.1 * marin r m (ck.2 + off)).sum
    ![1 * s 0 0, 1 * s 0 1, -1 * s 1 0, 1 * s 0 2, -1 * s 1 1, 1 * s 2 0]
  | .points pts =>
    ![(pts.map fun p => p.2.2).sum, (pts.map fun p => p.2.2 * p.2.1).sum,
      -(pts.map fun p => p.2.2 * p.1).sum, (pts.map fun p => p.2.2 * p.2.1 * p.2.1).sum,
      -(pts.map fun p => p.2.2 * p.1 * p.2.1).sum, (pts.map fun p => p.2.2 * p.1 * p.1).sum]

/-- section_integrators/_marin_integrator.py:397-470: assembled, mirrored and rotated back
(`T.T @ stiffness @ T`). -/
def marinStiffness (angle : ℝ) (items : List Item) : Matrix (Fin 3) (Fin 3) ℝ :=
  let s := (items.map itemStiffness).sum
  let K : Matrix (Fin 3) (Fin 3) ℝ := !![s 0, s 1, s 2; s 1, s 3, s 4; s 2, s 4, s 5]
  let c := Real.cos (-angle)
  let d := Real.sin (-angle)
  let T : Matrix (Fin 3) (Fin 3) ℝ := !![1, 0, 0; 0, c, d; 0, -d, c]
  T.transpose * K * T

/-- section_integrators/_marin_integrator.py:246-308 `prepare_input`: the angle, the items and the
(rotated) integration data. -/
def marinPrepare (split : Polygon → ℝ → ℝ → ShapelyResult) (surfs : List Surf) (bars : List Bar)
    (strain : Fin 3 → ℝ) (integrate : IntegrateArg) (data : Option (List Group)) :
    Except PyErr (ℝ × List Item × List Group) :=
  let angle := -atan2 (strain 2) (strain 1)
  let e1 := Real.sqrt (strain 2 ^ 2 + strain 1 ^ 2)
  let rotSurfs := surfs.map fun g => { g with polygon := g.polygon.rotate angle }
  match processSurfaces split integrate e1 (strain 0) rotSurfs with
  | .error e => .error e
  | .ok (items, e0) =>
    let d := match data with
      | some d => d.map (rotGroup angle)
      | none => groupBars (bars.map (Bar.rotate angle))
    match marinGroups e0 e1 integrate d with
    | .error e => .error e
    | .ok item => .ok (angle, items ++ [item], d)

/-- section_integrators/_marin_integrator.py:472-525 `integrate_strain_response_on_geometry`,
with 310-378 and 380-470; the returned data is rotated back. -/
def marinIntegrate (split : Polygon → ℝ → ℝ → ShapelyResult) (surfs : List Surf) (bars : List Bar)
    (strain : Fin 3 → ℝ) (integrate : IntegrateArg) (data : Option (List Group)) :
    Except PyErr (Response × List Group) :=
  match marinPrepare split surfs bars strain integrate data with
  | .error e => .error e
  | .ok (angle, items, d) =>
    match integrate with
    | .stress => .ok (.forces (marinForces angle items), d.map (rotGroup (-angle)))
    | .modulus => .ok (.stiffness (marinStiffness angle items), d.map (rotGroup (-angle)))
    | .other => .error .valueError

end

end SC
