import Verif.Model.MarinIntegrator
import Mathlib.LinearAlgebra.Matrix.NonsingularInverse

/-! # structuralcodes/geometry/_geometry.py

Shapely is modelled by what it documents: a polygon is an exterior ring and interior rings of
coordinates; affine maps act on every coordinate; `area` is the shoelace area of the exterior minus
those of the interiors; `bounds` are the extreme coordinates of the exterior. -/

set_option autoImplicit false

namespace SC

noncomputable section

/-- A material as far as geometries look at it: identity, and `isinstance(material, Concrete)`. -/
structure Mat where
  ident : ℕ
  isConcrete : Bool
  deriving DecidableEq

/-- Signed shoelace area of a closed ring. -/
def shoelace : List (ℝ × ℝ) → ℝ
  | p :: q :: l => (p.1 * q.2 - q.1 * p.2) / 2 + shoelace (q :: l)
  | _ => 0

/-- shapely `Polygon.area` (geometry/_geometry.py:420-426 `SurfaceGeometry.area`). -/
def Polygon.area (p : Polygon) : ℝ := |shoelace p.ext| - (p.ints.map fun r => |shoelace r|).sum

/-- An affine map of shapely applied to a polygon: all coordinates are mapped. -/
def Polygon.map (f : ℝ × ℝ → ℝ × ℝ) (p : Polygon) : Polygon :=
  ⟨p.ext.map f, p.ints.map (List.map f)⟩

/-- geometry/_geometry.py:374-417 `SurfaceGeometry`; `name = none` stands for a generated name. -/
structure Surface where
  poly : Polygon
  mat : Mat
  concrete : Bool
  name : Option String
  label : Option String

/-- geometry/_geometry.py:384-417 `SurfaceGeometry.__init__`: the flag is set for concrete materials. -/
def Surface.new (poly : Polygon) (mat : Mat) (concrete : Bool) (name label : Option String) : Surface :=
  ⟨poly, mat, if mat.isConcrete then true else concrete, name, label⟩

/-- geometry/_geometry.py:128-181 `PointGeometry` (two coordinates given). -/
structure PointGeo where
  pt : ℝ × ℝ
  diameter : ℝ
  mat : Mat
  name : Option String
  label : Option String

/-- geometry/_geometry.py:181 `_area`. -/
def PointGeo.area (p : PointGeo) : ℝ := Real.pi * p.diameter ^ 2 / 4

/-! ### Affine maps -/

/-- `affinity.translate`. -/
def translatePt (dx dy : ℝ) (p : ℝ × ℝ) : ℝ × ℝ := (p.1 + dx, p.2 + dy)

/-- `affinity.rotate(geom, angle, origin, use_radians)`. -/
def rotatePt (angle : ℝ) (origin : ℝ × ℝ) (useRadians : Bool) (p : ℝ × ℝ) : ℝ × ℝ :=
  let a := if useRadians then angle else angle * Real.pi / 180
  let q := rotPt a (p.1 - origin.1, p.2 - origin.2)
  (q.1 + origin.1, q.2 + origin.2)

/-- geometry/_geometry.py:27-57 `_mirror_about_axis_matrix`: the axis is a `LineString`, given by its
coordinates; more or fewer than two make the unpacking in line 31 raise `ValueError`. -/
def mirrorMatrix (axis : List (ℝ × ℝ)) : Except PyErr (Matrix (Fin 3) (Fin 3) ℝ) :=
  match axis with
  | [(x1, y1), (x2, y2)] =>
    let theta := atan2 (y2 - y1) (x2 - x1)
    let T : Matrix (Fin 3) (Fin 3) ℝ := !![1, 0, -x1; 0, 1, -y1; 0, 0, 1]
    let R : Matrix (Fin 3) (Fin 3) ℝ :=
      !![Real.cos theta, Real.sin theta, 0; -Real.sin theta, Real.cos theta, 0; 0, 0, 1]
    let M : Matrix (Fin 3) (Fin 3) ℝ := !![1, 0, 0; 0, -1, 0; 0, 0, 1]
    .ok (T⁻¹ * R⁻¹ * M * R * T)
  | _ => .error .valueError

/-- `affinity.affine_transform` with the parameters of lines 282 and 629. -/
def affinePt (A : Matrix (Fin 3) (Fin 3) ℝ) (p : ℝ × ℝ) : ℝ × ℝ :=
  (A 0 0 * p.1 + A 0 1 * p.2 + A 0 2, A 1 0 * p.1 + A 1 1 * p.2 + A 1 2)

/-- geometry/_geometry.py:571-585 (translate), 587-612 (rotate), 614-634 (mirror) of
`SurfaceGeometry`: the new object gets the material and the flag, but neither name nor label. -/
def Surface.move (f : ℝ × ℝ → ℝ × ℝ) (s : Surface) : Surface :=
  Surface.new (s.poly.map f) s.mat s.concrete none none

/-- geometry/_geometry.py:222-238, 240-264, 266-289 of `PointGeometry`: everything else is kept. -/
def PointGeo.move (f : ℝ × ℝ → ℝ × ℝ) (p : PointGeo) : PointGeo := { p with pt := f p.pt }

/-! ### Compounds -/

/-- geometry/_geometry.py:724-773 `CompoundGeometry`: surfaces, points, and the attribute
`_reinforced_concrete` (`none`: never assigned). -/
structure Compound where
  surfs : List Surface
  pts : List PointGeo
  rcCache : Option (Option Bool)

/-- The geometries a user passes around. -/
inductive Geo
  | surface (s : Surface)
  | point (p : PointGeo)
  | compound (c : Compound)

/-- geometry/_geometry.py:704-721 `_process_geometries_list`. -/
def processList : List Geo → List Surface × List PointGeo
  | [] => ([], [])
  | g :: rest =>
    let r := processList rest
    match g with
    | .surface s => (s :: r.1, r.2)
    | .compound c => (c.surfs ++ r.1, c.pts ++ r.2)
    | .point p => (r.1, p :: r.2)

/-- geometry/_geometry.py:762-773 `CompoundGeometry([...])`. -/
def Compound.ofList (l : List Geo) : Compound :=
  ⟨(processList l).1, (processList l).2, some none⟩

/-- The `materials` argument of a `CompoundGeometry` made of a `MultiPolygon`. -/
inductive MatsArg
  | one (m : Mat)
  | many (ms : List Mat)
  | none

/-- geometry/_geometry.py:681-701 `_process_geometries_multipolygon` and 752-761: the constructor
returns without assigning `_reinforced_concrete`. -/
def Compound.ofMultiPolygon (polys : List Polygon) (m : MatsArg) : Except PyErr Compound :=
  match m with
  | .one m => .ok ⟨polys.map fun p => Surface.new p m false none none, [], none⟩
  | .many ms =>
    if polys.length ≠ ms.length then .error .valueError
    else .ok ⟨(polys.zip ms).map fun pm => Surface.new pm.1 pm.2 false none none, [], none⟩
  | .none => .ok ⟨[], [], none⟩

/-- geometry/_geometry.py:116-125 `__add__`. -/
def Geo.add (a b : Geo) : Compound := Compound.ofList [a, b]

/-- geometry/_geometry.py:784-793 `reinforced_concrete`: the object after the read, and the value. -/
def Compound.reinforcedConcrete (c : Compound) : Compound × Except PyErr Bool :=
  match c.rcCache with
  | none => (c, .error .attributeError)
  | some (some b) => (c, .ok b)
  | some none =>
    let b := c.surfs.any fun s => s.concrete
    ({ c with rcCache := some (some b) }, .ok b)

/-- geometry/_geometry.py:795-801 `area`. -/
def Compound.area (c : Compound) : ℝ := c.surfs.foldl (fun a s => a + s.poly.area) 0

/-- Extreme values of a list, `0` if empty (never used then). -/
def listMin (l : List ℝ) : ℝ := l.foldl min (l.headD 0)
/-- See `listMin`. -/
def listMax (l : List ℝ) : ℝ := l.foldl max (l.headD 0)

/-- geometry/_geometry.py:457-467 `SurfaceGeometry.calculate_extents`: min_x, max_x, min_y, max_y. -/
def Surface.extents (s : Surface) : ℝ × ℝ × ℝ × ℝ :=
  (listMin (s.poly.ext.map Prod.fst), listMax (s.poly.ext.map Prod.fst),
    listMin (s.poly.ext.map Prod.snd), listMax (s.poly.ext.map Prod.snd))

/-- geometry/_geometry.py:803-825 `CompoundGeometry.calculate_extents`. -/
def Compound.extents (c : Compound) : ℝ × ℝ × ℝ × ℝ :=
  c.surfs.foldl (fun a s => (min a.1 s.extents.1, max a.2.1 s.extents.2.1,
    min a.2.2.1 s.extents.2.2.1, max a.2.2.2 s.extents.2.2.2)) (1e16, -1e16, 1e16, -1e16)

/-- geometry/_geometry.py:827-842 (translate), 844-868 (rotate), 870-885 (mirror). -/
def Compound.move (f : ℝ × ℝ → ℝ × ℝ) (c : Compound) : Compound :=
  Compound.ofList ((c.surfs.map fun s => Geo.surface (s.move f)) ++
    (c.pts.map fun p => Geo.point (p.move f)))

/-- Translation, rotation and mirroring of any geometry. -/
def Geo.move (f : ℝ × ℝ → ℝ × ℝ) : Geo → Geo
  | .surface s => .surface (s.move f)
  | .point p => .point (p.move f)
  | .compound c => .compound (c.move f)

/-- `geo.translate(dx, dy)`. -/
def Geo.translate (dx dy : ℝ) (g : Geo) : Geo := g.move (translatePt dx dy)
/-- `geo.rotate(angle, point, use_radians)`. -/
def Geo.rotate (angle : ℝ) (point : ℝ × ℝ) (useRadians : Bool) (g : Geo) : Geo :=
  g.move (rotatePt angle point useRadians)
/-- `geo.mirror(axis)`. -/
def Geo.mirror (axis : List (ℝ × ℝ)) (g : Geo) : Except PyErr Geo :=
  match mirrorMatrix axis with
  | .error e => .error e
  | .ok A => .ok (g.move (affinePt A))

/-- geometry/_geometry.py:543-565 `SurfaceGeometry.__sub__`; `diff` is shapely's difference.  The
constructor raises `TypeError` unless the result is a single polygon. -/
def Surface.sub (diff : ShapelyResult → Polygon → ShapelyResult) (s : Surface) (other : Geo) :
    Except PyErr Surface :=
  let r := match other with
    | .surface o => diff (.polygon s.poly) o.poly
    | .compound c => c.surfs.foldl (fun r (g : Surface) => diff r g.poly) (.polygon s.poly)
    | .point _ => .polygon s.poly
  match r with
  | .polygon p => .ok (Surface.new p s.mat false none none)
  | _ => .error .typeError

/-- geometry/_geometry.py:887-905 `CompoundGeometry.__sub__`. -/
def Compound.sub (diff : ShapelyResult → Polygon → ShapelyResult) (c : Compound) (other : Geo) :
    Except PyErr Compound :=
  match other with
  | .point _ => .ok c
  | _ =>
    match c.surfs.mapM fun s => s.sub diff other with
    | .error e => .error e
    | .ok ss => .ok (Compound.ofList ((ss.map Geo.surface) ++ (c.pts.map Geo.point)))

/-! ### Splitting line -/

open Classical in
/-- geometry/_geometry.py:335-371 `create_line_point_angle`: the two end points; `bbox` is
`(min_x, min_y, max_x, max_y)`. -/
def createLine (point : ℝ × ℝ) (theta : ℝ) (bbox : ℝ × ℝ × ℝ × ℝ) : (ℝ × ℝ) × (ℝ × ℝ) :=
  if |Real.cos theta| > 1e-8 then
    let tg := Real.sin theta / Real.cos theta
    let x1 := bbox.1 - 1e-3
    let x2 := bbox.2.2.1 + 1e-3
    ((x1, point.2 + (x1 - point.1) * tg), (x2, point.2 + (x2 - point.1) * tg))
  else
    let ctg := Real.cos theta / Real.sin theta
    let y1 := bbox.2.1 - 1e-3
    let y2 := bbox.2.2.1 + 1e-3
    ((point.1 + (y1 - point.2) * ctg, y1), (point.1 + (y2 - point.2) * ctg, y2))

end

end SC
