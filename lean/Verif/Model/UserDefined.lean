import Verif.Model.MarinLaws

/-!
# UserDefined law

Model of `structuralcodes/materials/constitutive_laws/_userdefined.py`.  The two arrays
`_x`, `_y` are kept as a list of pairs.
-/

set_option autoImplicit false

namespace SC

noncomputable section

open Classical

/-- constitutive_laws/_userdefined.py:57-67: `_x`, `_y` (as pairs) and the ultimate strains. -/
structure UserDefined where
  pts : List (ℝ × ℝ)
  ult_n : ℝ
  ult_p : ℝ

namespace UserDefined

/-- constitutive_laws/_userdefined.py:55-62: if no strain is negative the data are mirrored,
`-np.flip(x)[:-1]` (all but the first given point, reversed and negated) in front of the data. -/
def mirror (pts : List (ℝ × ℝ)) : List (ℝ × ℝ) :=
  if ∃ p ∈ pts, p.1 < 0 then pts
  else (pts.tail.reverse.map fun p => (-p.1, -p.2)) ++ pts

/-- constitutive_laws/_userdefined.py:68-93: extension of the data for `flag` 1, 2, 3.  Index
errors (fewer than two points for flag 2, no point otherwise) are raised as in numpy; the divisions are
numpy divisions, which do not raise. -/
def extend (flag : ℕ) (pts : List (ℝ × ℝ)) : Except PyErr (List (ℝ × ℝ)) :=
  match pts with
  | [] => .error .indexError
  | p0 :: rest =>
    let pn := (p0 :: rest).getLast (List.cons_ne_nil _ _)
    match flag with
    | 0 => .ok pts
    | 1 => .ok ((p0.1 * 100, p0.2) :: pts ++ [(pn.1 * 100, pn.2)])
    | 2 =>
      match rest with
      | [] => .error .indexError
      | p1 :: _ =>
        let pm := (p0 :: rest).dropLast.getLastD p0
        let tp := (pn.2 - pm.2) / (pn.1 - pm.1)
        let tn := (p1.2 - p0.2) / (p1.1 - p0.1)
        .ok ((p0.1 * 100, (p0.1 * 100 - p0.1) * tn + p0.2) :: pts
          ++ [(pn.1 * 100, (pn.1 * 100 - pn.1) * tp + pn.2)])
    | _ =>
      let sp := pn.2 / pn.1
      let sn := p0.2 / p0.1
      .ok ((p0.1 * 100, (p0.1 * 100 - p0.1) * sn + p0.2) :: pts
        ++ [(pn.1 * 100, (pn.1 * 100 - pn.1) * sp + pn.2)])

/-- constitutive_laws/_userdefined.py:234-271 `_set_ultimate_strain` is the same code as in
`Elastic` (`setUltimate`); lines 24-100 `__init__`. -/
def new? (x y : List ℝ) (eps_u : Option EpsUArg) (flag : ℕ) : Except PyErr UserDefined :=
  if x.length ≠ y.length then .error .valueError
  else
    let pts := mirror (x.zip y)
    if 3 < flag then .error .valueError
    else match pts with
      | [] => .error .indexError
      | p0 :: rest =>
        match extend flag pts with
        | .error e => .error e
        | .ok ext =>
          let pn := (p0 :: rest).getLast (List.cons_ne_nil _ _)
          match eps_u with
          | none => .ok ⟨ext, p0.1, pn.1⟩
          | some a => match setUltimate a with
            | .error e => .error e
            | .ok u => .ok ⟨ext, u.1, u.2⟩

/-- constitutive_laws/_userdefined.py:229-232 -/
def ult (l : UserDefined) : ℝ × ℝ := (l.ult_n, l.ult_p)

/-- constitutive_laws/_userdefined.py:102-110 `get_stress` on a scalar. -/
def stress (l : UserDefined) (eps : ℝ) : ℝ := interp (snap l.ult eps) l.pts 0 0

/-- constitutive_laws/_userdefined.py:102-110 `get_stress` on an array (`np.interp` is
elementwise). -/
def stressArr {ι : Type*} (l : UserDefined) (eps : ι → ℝ) : ι → ℝ :=
  let eps := snapArr l.ult eps
  fun i => interp (eps i) l.pts 0 0

/-- constitutive_laws/_userdefined.py:96 `np.diff(y) / np.diff(x)`. -/
def slopes : List (ℝ × ℝ) → List ℝ
  | [] => []
  | [_] => []
  | (a, b) :: (c, d) :: rest => (d - b) / (c - a) :: slopes ((c, d) :: rest)

/-- constitutive_laws/_userdefined.py:119-125: index `searchsorted(x, eps) - 1`, clipped to
`[0, len(slopes) - 1]`.  (With a single data point the slope array is empty and numpy raises
IndexError; the theorems assume at least two points.) -/
def slopeAt (l : UserDefined) (eps : ℝ) : ℝ :=
  let i := searchsorted (l.pts.map Prod.fst) eps - 1
  (slopes l.pts).getD (min i ((slopes l.pts).length - 1)) 0

/-- constitutive_laws/_userdefined.py:112-135 `get_tangent`, scalar branch. -/
def tangent (l : UserDefined) (eps : ℝ) : ℝ :=
  let t := l.slopeAt eps
  if eps < (l.pts.map Prod.fst).headD 0 ∨ eps > (l.pts.map Prod.fst).getLastD 0 then 0 else t

/-- constitutive_laws/_userdefined.py:112-135 `get_tangent`, array branch. -/
def tangentArr {ι : Type*} (l : UserDefined) (eps : ι → ℝ) : ι → ℝ :=
  let t := fun i => l.slopeAt (eps i)
  let t := maskSet (fun i => eps i < (l.pts.map Prod.fst).headD 0) (fun _ => 0) t
  maskSet (fun i => eps i > (l.pts.map Prod.fst).getLastD 0) (fun _ => 0) t

/-- Loop of constitutive_laws/_userdefined.py:158-171: first segment containing the strain. -/
def marinFind (e0 e1 : ℝ) : List (ℝ × ℝ) → List ℝ
  | (a, b) :: (c, d) :: rest =>
      if a ≤ e0 ∧ c ≥ e0 then
        [(d - b) / (c - a) * (e0 - a) + b, (d - b) / (c - a) * e1]
      else marinFind e0 e1 ((c, d) :: rest)
  | _ => [0]

/-- Loop of constitutive_laws/_userdefined.py:173-181. -/
def marinRanges : List (ℝ × ℝ) → List (ℝ × ℝ)
  | (a, _) :: (c, d) :: rest => (a, c) :: marinRanges ((c, d) :: rest)
  | _ => []

/-- Loop of constitutive_laws/_userdefined.py:173-181, coefficients. -/
def marinCoeffs (e0 e1 : ℝ) : List (ℝ × ℝ) → List (List ℝ)
  | (a, b) :: (c, d) :: rest =>
      [(d - b) / (c - a) * (e0 - a) + b, (d - b) / (c - a) * e1]
        :: marinCoeffs e0 e1 ((c, d) :: rest)
  | _ => []

/-- constitutive_laws/_userdefined.py:137-183 `__marin__`. -/
def marin (l : UserDefined) (e0 e1 : ℝ) : MarinOut × ℝ :=
  if e1 = 0 then
    let e0 := snap l.ult e0
    (⟨none, [marinFind e0 e1 l.pts]⟩, e0)
  else (⟨some (marinRanges l.pts), marinCoeffs e0 e1 l.pts⟩, e0)

/-- Loop of constitutive_laws/_userdefined.py:206-217. -/
def marinTFind (e0 : ℝ) : List (ℝ × ℝ) → List ℝ
  | (a, b) :: (c, d) :: rest =>
      if a ≤ e0 ∧ c ≥ e0 then [(d - b) / (c - a)] else marinTFind e0 ((c, d) :: rest)
  | _ => [0]

/-- constitutive_laws/_userdefined.py:185-227 `__marin_tangent__`. -/
def marinT (l : UserDefined) (e0 e1 : ℝ) : MarinOut × ℝ :=
  if e1 = 0 then
    let e0 := snap l.ult e0
    (⟨none, [marinTFind e0 l.pts]⟩, e0)
  else (⟨some (marinRanges l.pts), (slopes l.pts).map fun s => [s]⟩, e0)

/-- Packed. -/
def law (l : UserDefined) : Law := ⟨l.stress, l.tangent, fun _ => l.ult⟩

end UserDefined

end

end SC
