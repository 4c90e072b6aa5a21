import Verif.Model.Profile

/-! # Tapered I and U sections and angles: `geometry/profiles/_common_functions.py:80-205, 267-307`

The outline is put together from polylines.  `LineString.offset_curve` is a parameter (`offs`); `set_precision` (a grid of
`1e-13`) is the identity in the model. -/

set_option autoImplicit false

namespace SC

noncomputable section

/-- `LineString`: the list of its points. -/
abbrev Polyline := List (ℝ × ℝ)

/-- `shapely.affinity.scale(line, xfact, yfact)` with the default origin, the centre of the bounding box; used in
geometry/profiles/_common_functions.py:130, 136 and 192. -/
def scaleCentre (fx fy : ℝ) (l : Polyline) : Polyline :=
  let bd := Polygon.bounds ⟨l, []⟩
  let x0 := (bd.1 + bd.2.2.1) / 2
  let y0 := (bd.2.1 + bd.2.2.2) / 2
  l.map fun p => (x0 + fx * (p.1 - x0), y0 + fy * (p.2 - y0))

/-- `shapely.affinity.translate(geometry, dx, dy)`. -/
def shiftLine (dx dy : ℝ) (l : Polyline) : Polyline := l.map fun p => (p.1 + dx, p.2 + dy)

open Classical in
/-- `shapely.ops.linemerge` of two lines with a common end point: the joint is kept once.  When the two lines
have both ends in common the result is a ring, which shapely may start at another vertex. -/
def merge2 (p q : Polyline) : Polyline :=
  if p.getLast? = q.head? then p ++ q.tail
  else if p.head? = q.head? then q.reverse ++ p.tail
  else if p.getLast? = q.getLast? then p ++ q.reverse.tail
  else if p.head? = q.getLast? then q ++ p.tail
  else p

/-- `linemerge(list of lines)`, the lines being given in order. -/
def linemerge : List Polyline → Polyline
  | [] => []
  | l :: ls => ls.foldl merge2 l

/-- `LineString([a, b, c]).offset_curve(r).offset_curve(-r)`: geometry/profiles/_common_functions.py:106, 119, 168,
181, 277, 284, 291. -/
def rounded (offs : Polyline → ℝ → Polyline) (r : ℝ) (a b c : ℝ × ℝ) : Polyline := offs (offs [a, b, c] r) (-r)

open Classical in
/-- `get_geometry(polygonize([line]), 0)`: the polygon of a closed line; for a line that is not closed the collection is
empty, `get_geometry` returns `None` and the next call raises. -/
def ringPolygon (l : Polyline) : Except PyErr Polygon :=
  if l.head? = l.getLast? ∧ 4 ≤ l.length then .ok ⟨l, []⟩ else .error .attributeError

open Classical in
/-- `shapely.geometry.polygon.orient(polygon, 1)` of a polygon without holes. -/
def orientCcw (p : Polygon) : Polygon := ⟨if 0 ≤ marin p.ext 0 0 then p.ext else p.ext.reverse, []⟩

/-- `translate(poly, xoff=-poly.centroid.x, yoff=-poly.centroid.y)`. -/
def toCentroid (p : Polygon) : Polygon := ⟨shiftLine (-p.centroid.1) (-p.centroid.2) p.ext, []⟩

/-- geometry/profiles/_common_functions.py:91-121: a quarter of the outline of the tapered I section, from the middle of
the lower edge to the middle of the web. -/
def taperIQuarter (offs : Polyline → ℝ → Polyline) (h b tw tf r1 r2 slope : ℝ) : Polyline :=
  linemerge [[(0, -h / 2), (b / 2, -h / 2)],
    rounded offs r2 (b / 2, -h / 2) (b / 2, -h / 2 + tf - b / 4 * slope) (b / 4, -h / 2 + tf),
    rounded offs (-r1) (b / 4, -h / 2 + tf) (tw / 2, -h / 2 + tf + (b / 4 - tw / 2) * slope) (tw / 2, 0)]

/-- geometry/profiles/_common_functions.py:124-136: the quarter is mirrored twice. -/
def taperIOutline (b h : ℝ) (quarter : Polyline) : Polyline :=
  let half := linemerge [quarter, shiftLine (-b / 2) 0 (scaleCentre (-1) 1 quarter)]
  linemerge [half, shiftLine 0 (h / 2) (scaleCentre 1 (-1) half)]

/-- geometry/profiles/_common_functions.py:80-145 `_create_taper_I_section`. -/
def createTaperI (offs : Polyline → ℝ → Polyline) (h b tw tf r1 r2 slope : ℝ) : Except PyErr Polygon := do
  let poly ← ringPolygon (taperIOutline b h (taperIQuarter offs h b tw tf r1 r2 slope))
  pure (orientCcw poly)

/-- geometry/profiles/_common_functions.py:158-187: the lower half of the outline of the tapered U section. -/
def taperUHalf (offs : Polyline → ℝ → Polyline) (h b tw tf r1 r2 slope u : ℝ) : Polyline :=
  linemerge [[(0, h / 2), (0, 0), (b, 0)],
    rounded offs r2 (b, 0) (b, tf - slope * u) (b - u, tf),
    rounded offs (-r1) (b - u, tf) (tw, tf + slope * (b - u - tw)) (tw, h / 2)]

/-- geometry/profiles/_common_functions.py:147-205 `_create_taper_U_section`. -/
def createTaperU (offs : Polyline → ℝ → Polyline) (h b tw tf r1 r2 slope u : ℝ) : Except PyErr Polygon := do
  let half := taperUHalf offs h b tw tf r1 r2 slope u
  let poly ← ringPolygon (linemerge [half, shiftLine 0 (h / 2) (scaleCentre 1 (-1) half)])
  pure (orientCcw (toCentroid poly))

/-- geometry/profiles/_common_functions.py:270-294: the outline of the angle. -/
def angleOutline (offs : Polyline → ℝ → Polyline) (h b t1 t2 r1 r2 : ℝ) : Polyline :=
  linemerge [[(0, h), (0, 0), (b, 0)],
    rounded offs r2 (b, 0) (b, t1) (b / 2, t1),
    rounded offs (-r1) (b / 2, t1) (t2, t1) (t2, h / 2),
    rounded offs r2 (t2, h / 2) (t2, h) (0, h)]

/-- geometry/profiles/_common_functions.py:267-307 `_create_L_section`. -/
def createL (offs : Polyline → ℝ → Polyline) (h b t1 t2 r1 r2 : ℝ) : Except PyErr Polygon := do
  let poly ← ringPolygon (angleOutline offs h b t1 t2 r1 r2)
  pure (orientCcw (toCentroid poly))

end

end SC
