import Verif.Spec.Area

/-! # Rounded corners -/

set_option autoImplicit false

namespace SC.Spec

/-- A polyline rounds the corner `a b c`: it runs from `a` to `c` inside the triangle and cuts off a part of the triangle
(the fraction `t` of its area; the closed ring `path, b, a` has the orientation of `a c b`). -/
structure Rounds (path : List (ℝ × ℝ)) (a b c : ℝ × ℝ) (t : ℝ) : Prop where
  start : path.head? = some a
  finish : path.getLast? = some c
  inside : ∀ p ∈ path, p ∈ triangle a b c
  part : 0 ≤ t ∧ t ≤ 1
  cut : signedMoment 0 0 0 (path ++ [b, a]) = t * (cross a c b / 2)

end SC.Spec
