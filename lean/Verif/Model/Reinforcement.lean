import Verif.Model.Geometry

/-! # structuralcodes/geometry/_reinforcement.py -/

set_option autoImplicit false

namespace SC

noncomputable section

/-- What all the new bars share: diameter, material, group label. -/
structure BarSpec where
  diameter : ℝ
  mat : Mat
  label : Option String

/-- The bar at a place. -/
def BarSpec.bar (b : BarSpec) (p : ℝ × ℝ) : PointGeo := ⟨p, b.diameter, b.mat, none, b.label⟩

/-- geometry/_reinforcement.py:14-39 `add_reinforcement`. -/
def addReinforcement (geo : Geo) (coords : ℝ × ℝ) (b : BarSpec) : Geo :=
  .compound (Geo.add geo (.point (b.bar coords)))

/-- geometry/_reinforcement.py:108-112 and 238-242: the loop index is skipped. -/
def skipped (n : ℕ) (first last : Bool) (i : ℕ) : Bool :=
  (i == 0 && !first) || (i + 1 == n && !last)

/-- geometry/_reinforcement.py:107-121 and 237-250: the loop adding the bars; `coords i` is the place
of bar `i`. -/
def addLoop (geo : Geo) (n : ℕ) (first last : Bool) (coords : ℕ → ℝ × ℝ) (b : BarSpec) : Geo :=
  (List.range n).foldl (fun g i => if skipped n first last i then g else addReinforcement g (coords i) b) geo

/-- `np.linalg.norm(p2 - p1)`. -/
def segLength (pi pj : ℝ × ℝ) : ℝ := Real.sqrt ((pj.1 - pi.1) ^ 2 + (pj.2 - pi.2) ^ 2)

/-- geometry/_reinforcement.py:83-106: number of bars, and start point, direction and spacing
(`none`: some of them is not a number; numpy divides by zero without an exception). -/
def lineGrid (pi pj : ℝ × ℝ) (n : ℤ) (s : ℝ) : Except PyErr (ℤ × Option ((ℝ × ℝ) × (ℝ × ℝ) × ℝ)) :=
  open Classical in
  let dist := segLength pi pj
  let v := ((pj.1 - pi.1) / dist, (pj.2 - pi.2) / dist)
  if 0 < n ∧ 0 < s then
    let d := ((n : ℝ) - 1) * s
    if d > dist then .error .valueError
    else if dist = 0 then .ok (n, none)
    else .ok (n, some ((pi.1 + v.1 * (dist - d) / 2, pi.2 + v.2 * (dist - d) / 2), v, s))
  else if 0 < n then
    if dist = 0 ∨ n = 1 then .ok (n, none)
    else .ok (n, some (pi, v, dist / ((n : ℝ) - 1)))
  else if 0 < s then
    let n := ⌊dist / s⌋ + 1
    let d := ((n : ℝ) - 1) * s
    if dist = 0 then .ok (n, none)
    else .ok (n, some ((pi.1 + v.1 * (dist - d) / 2, pi.2 + v.2 * (dist - d) / 2), v, s))
  else .error .valueError

/-- geometry/_reinforcement.py:42-121 `add_reinforcement_line`; the result `none` means that bars at
`(nan, nan)` were added. -/
def addLine (geo : Geo) (pi pj : ℝ × ℝ) (b : BarSpec) (n : ℤ) (s : ℝ) (first last : Bool) :
    Except PyErr (Option Geo) :=
  match lineGrid pi pj n s with
  | .error e => .error e
  | .ok (n, some (p1, v, s)) =>
    .ok (some (addLoop geo n.toNat first last (fun i => (p1.1 + v.1 * s * i, p1.2 + v.2 * s * i)) b))
  | .ok (n, none) =>
    if (List.range n.toNat).all (skipped n.toNat first last) then .ok (some geo) else .ok none

/-- geometry/_reinforcement.py:188-229: number of samples, offset, and whether the last one is
dropped. -/
def circleGrid (radius : ℝ) (n : ℤ) (s : ℝ) (start stop : ℝ) : Except PyErr (ℤ × ℝ × Bool) :=
  open Classical in
  let length := radius * (stop - start)
  let whole : Bool := decide (|length - 2 * Real.pi * radius| ≤ 1e-4)
  let addN : ℤ := if whole then 1 else 0
  if 0 < n ∧ 0 < s then
    let n := n + addN
    let needed := ((n : ℝ) - 1) * s
    if needed > length then .error .valueError
    else if radius = 0 then .error .zeroDivision
    else .ok (n, (length - needed) / 2 / radius, whole)
  else if 0 < n then
    if n = 1 then .error .zeroDivision
    else .ok (n + addN, 0, whole)
  else if 0 < s then
    let n := ⌊length / s⌋ + 1
    let needed := ((n : ℝ) - 1) * s
    if radius = 0 then .error .zeroDivision
    else .ok (n, (length - needed) / 2 / radius, false)
  else .error .valueError

/-- geometry/_reinforcement.py:124-250 `add_reinforcement_circle`: `np.linspace` raises `ValueError`
for a negative number of samples. -/
def addCircle (geo : Geo) (center : ℝ × ℝ) (radius : ℝ) (b : BarSpec) (n : ℤ) (s : ℝ)
    (first last : Bool) (start stop : ℝ) : Except PyErr Geo :=
  open Classical in
  if stop - start ≤ 0 ∨ stop - start > 2 * Real.pi then .error .valueError
  else
    match circleGrid radius n s start stop with
    | .error e => .error e
    | .ok (n, delta, whole) =>
      if n < 0 then .error .valueError
      else
        let phi := linspace (start + delta) (stop - delta) n.toNat true
        let phi := if whole then phi.dropLast else phi
        let n := if whole then n.toNat - 1 else n.toNat
        .ok (addLoop geo n first last (fun i =>
          (center.1 + radius * Real.cos (phi.getD i 0), center.2 + radius * Real.sin (phi.getD i 0))) b)

end

end SC
