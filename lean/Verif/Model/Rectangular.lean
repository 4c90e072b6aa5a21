import Verif.Model.Py

/-! Model of structuralcodes/geometry/_rectangular.py -/

set_option autoImplicit false

namespace SC

noncomputable section

/-- structuralcodes/geometry/_rectangular.py:27-84: the exterior ring built by
`RectangularGeometry.__init__`, as the vertex list `polygon.exterior.coords` (shapely repeats
the first vertex at the end).  `origin` is `None` or an array-like, modelled by a list.  The
material, name and label are not modelled here. -/
def rectangularGeometry (width height : ℝ) (origin : Option (List ℝ)) :
    Except PyErr (List (ℝ × ℝ)) :=
  if width ≤ 0 then .error .valueError else
  if height ≤ 0 then .error .valueError else
  match (match origin with | none => some ((0 : ℝ), (0 : ℝ)) | some [a, b] => some (a, b) | some _ => none) with
  | none => .error .valueError
  | some o => .ok
    [ (-width / 2 + o.1, -height / 2 + o.2),
      (width / 2 + o.1, -height / 2 + o.2),
      (width / 2 + o.1, height / 2 + o.2),
      (-width / 2 + o.1, height / 2 + o.2),
      (-width / 2 + o.1, -height / 2 + o.2) ]

end

end SC
