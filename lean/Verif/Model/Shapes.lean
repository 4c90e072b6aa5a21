import Verif.Model.Geometry
import Verif.Model.Rectangular

/-! # structuralcodes/geometry/_rectangular.py and _circular.py -/

set_option autoImplicit false

namespace SC

noncomputable section

/-- geometry/_circular.py:71-74: the origin check; the origin is any sequence of coordinates. -/
def parseOrigin (origin : Option (List ℝ)) : Except PyErr (ℝ × ℝ) :=
  match origin with
  | none => .ok (0, 0)
  | some [x, y] => .ok (x, y)
  | some _ => .error .valueError

/-- geometry/_rectangular.py:27-84 `RectangularGeometry`, with the ring of `rectangularGeometry`. -/
def rectangularSurface (width height : ℝ) (mat : Mat) (concrete : Bool) (origin : Option (List ℝ))
    (name label : Option String) : Except PyErr Surface :=
  match rectangularGeometry width height origin with
  | .error e => .error e
  | .ok ring => .ok (Surface.new ⟨ring, []⟩ mat concrete name label)

/-- Python `round(p / 4)` for an integer `p`: to the nearest integer, ties to even. -/
def roundQuarter (p : ℤ) : ℤ :=
  if p % 4 = 0 then p / 4
  else if p % 4 = 1 then p / 4
  else if p % 4 = 3 then p / 4 + 1
  else if (p / 4) % 2 = 0 then p / 4 else p / 4 + 1

/-- shapely `Point.buffer(radius, quad_segs=q)`, `q ≥ 1`: the closed ring of `4 q` points of the circle,
clockwise from angle 0. -/
def bufferRing (c : ℝ × ℝ) (radius : ℝ) (q : ℕ) : List (ℝ × ℝ) :=
  (List.range (4 * q + 1)).map fun k : ℕ =>
    (c.1 + radius * Real.cos (-(k * (Real.pi / (2 * q)))), c.2 + radius * Real.sin (-(k * (Real.pi / (2 * q)))))

/-- geometry/_circular.py:19-87 `_create_circle`, `CircularGeometry`.  Simplification: what shapely does
for `quad_segs < 1` (fewer than three points) is not modelled; the model then uses an empty polygon. -/
def circularGeometry (diameter : ℝ) (mat : Mat) (nPoints : ℤ) (concrete : Bool) (origin : Option (List ℝ))
    (name label : Option String) : Except PyErr Surface :=
  open Classical in
  if diameter ≤ 0 then .error .valueError
  else
    match parseOrigin origin with
    | .error e => .error e
    | .ok c =>
      .ok (Surface.new ⟨if (roundQuarter nPoints).toNat = 0 then [] else
        bufferRing c (diameter / 2) (roundQuarter nPoints).toNat, []⟩ mat concrete name label)

end

end SC
