import Verif.Model.Gross
import Verif.Model.Loop

/-! # Steel profiles: section properties

`geometry/profiles/_base_profile.py`.  A profile object is a state (the polygon and the cached values);
reading a property is a state transition that returns a value or raises; an exception keeps the state
reached so far.  shapely's `split`, `intersects` and numpy's `eig` are parameters. -/

set_option autoImplicit false

namespace SC

noncomputable section

/-- The shapely predicates and operations used: `line.intersects(polygon)` and `split(polygon, line).geoms`
(`shapely.ops.split`), the line being given by its two ends. -/
structure Shapely where
  intersects : ℝ × ℝ → ℝ × ℝ → Polygon → Prop
  split : Polygon → ℝ × ℝ → ℝ × ℝ → List Polygon

/-- `polygon.bounds`: minx, miny, maxx, maxy of the exterior. -/
def Polygon.bounds (p : Polygon) : ℝ × ℝ × ℝ × ℝ :=
  (listMin (p.ext.map Prod.fst), listMin (p.ext.map Prod.snd),
    listMax (p.ext.map Prod.fst), listMax (p.ext.map Prod.snd))

/-- `polygon.centroid`: first moments over area; rings count with the sign that makes the exterior positive
and the holes negative (`marin r m n` is the moment of a counterclockwise ring). -/
def Polygon.centroid (p : Polygon) : ℝ × ℝ :=
  let mom (m n : ℕ) := SignType.sign (marin p.ext 0 0) * marin p.ext m n -
    (p.ints.map fun r => SignType.sign (marin r 0 0) * marin r m n).sum
  (mom 1 0 / mom 0 0, mom 0 1 / mom 0 0)

/-- `LinearRing((a, b, c)).is_ccw` of a triangle. -/
def isCcw (a b c : ℝ × ℝ) : Prop := 0 < (b.1 - a.1) * (c.2 - a.2) - (c.1 - a.1) * (b.2 - a.2)

open Classical in
/-- geometry/profiles/_base_profile.py:100-106 and 110-115: one geometry is added to `area_above` or
`area_below`. -/
def addSide (a b : ℝ × ℝ) (acc : ℝ × ℝ) (g : Polygon) : ℝ × ℝ :=
  if isCcw a b g.centroid then (acc.1 + g.area, acc.2) else (acc.1, acc.2 + g.area)

open Classical in
/-- geometry/profiles/_base_profile.py:84-116 `_find_delta_area_above_minus_below`. -/
def deltaArea (sh : Shapely) (p : Polygon) (z : ℝ) : ℝ :=
  let xmax := max |p.bounds.1| p.bounds.2.2.1
  let a := (-xmax * 1.05, z)
  let b := (xmax * 1.05, z)
  let r := if sh.intersects a b p then (sh.split p a b).foldl (addSide a b) (0, 0)
    else addSide a b (0, 0) p
  r.1 - r.2

/-- Local variables of the bisection, geometry/profiles/_base_profile.py:57-77; `zC` is unbound at the start,
`stop` records that `break` was executed. -/
structure PnaState where
  zA : ℝ
  zB : ℝ
  daA : ℝ
  it : ℕ
  zC : Option ℝ
  stop : Bool

/-- geometry/profiles/_base_profile.py:65. -/
def pnaCond (h : ℝ) (s : PnaState) : Prop := s.stop = false ∧ s.it < 200 ∧ |s.zB - s.zA| > h * 1e-10

open Classical in
/-- geometry/profiles/_base_profile.py:66-77. -/
def pnaBody (da : ℝ → ℝ) (s : PnaState) : Except PyErr PnaState :=
  let zC := (s.zA + s.zB) / 2
  let daC := da zC
  if |daC| < 1e-10 then .ok { s with zC := some zC, stop := true }
  else if s.daA * daC < 0 then .ok { s with zB := zC, zC := some zC, it := s.it + 1 }
  else .ok { s with zA := zC, daA := daC, zC := some zC, it := s.it + 1 }

/-- geometry/profiles/_base_profile.py:49-82 `_find_plastic_neutral_axis_y`; the loop stops (C60), `none` does
not occur. -/
def findPna (sh : Shapely) (p : Polygon) : Except PyErr ℝ :=
  let zmin := p.bounds.2.1
  let zmax := p.bounds.2.2.2
  let s0 : PnaState := ⟨zmin, zmax, deltaArea sh p zmin, 0, none, false⟩
  match pyWhile (pnaCond (zmax - zmin)) (pnaBody (deltaArea sh p)) s0 with
  | none => .error .runtimeError
  | some (.error e, _) => .error e
  | some (.ok s, _) =>
    if s.it ≥ 200 then .error .valueError
    else match s.zC with
      | none => .error .unboundLocal
      | some z => .ok z

/-- geometry/profiles/_base_profile.py:255-263 and 279-287: the polygon is moved so that the plastic neutral
axis is at height zero, split there (the line reaches to `xmax * 1.05` on both sides) and the static moments
of the pieces are added. -/
def plasticModulus (sh : Shapely) (p : Polygon) (xmax : ℝ) : Except PyErr ℝ := do
  let z ← findPna sh p
  let q := p.map (translatePt 0 (-z))
  return (sh.split q (-xmax * 1.05, 0) (xmax * 1.05, 0)).foldl (fun w r => w + |marin r.ext 0 1|) 0

/-- geometry/profiles/_base_profile.py:21-35: the polygon and the cached values.  `theta = none` means that the
attribute `_theta` does not exist (`__init__` does not create it). -/
structure Profile where
  polygon : Option Polygon
  A : Option ℝ
  Iy : Option ℝ
  Iz : Option ℝ
  Icsi : Option ℝ
  Ieta : Option ℝ
  Iyz : Option ℝ
  Wely : Option ℝ
  Welz : Option ℝ
  iy : Option ℝ
  iz : Option ℝ
  Wply : Option ℝ
  Wplz : Option ℝ
  theta : Option ℝ

/-- The object after the constructor of a profile class: all caches empty, e.g.
geometry/profiles/_ipe.py:59-76. -/
def Profile.fresh (p : Polygon) : Profile :=
  ⟨some p, none, none, none, none, none, none, none, none, none, none, none, none, none⟩

/-- A property read: new state and value or exception. -/
def ProfM (α : Type) := Profile → Profile × Except PyErr α

instance : Monad ProfM where
  pure a := fun s => (s, .ok a)
  bind m f := fun s =>
    match m s with
    | (s', .error e) => (s', .error e)
    | (s', .ok a) => f a s'

/-- geometry/profiles/_base_profile.py:37-47 `_check_polygon_defined`; returns the polygon. -/
def getPolygon : ProfM Polygon := fun s =>
  match s.polygon with
  | none => (s, .error .runtimeError)
  | some p => (s, .ok p)

/-- `self.x = v`. -/
def modify' (f : Profile → Profile) : ProfM Unit := fun s => (f s, .ok ())

/-- A computation that may raise. -/
def ofExcept {α : Type} (r : Except PyErr α) : ProfM α := fun s => (s, r)

/-- `if self._x is None: compute` and then `return self._x`. -/
def cached (get : Profile → Option ℝ) (compute : ProfM ℝ) : ProfM ℝ := fun s =>
  match get s with
  | some v => (s, .ok v)
  | none => compute s

/-- geometry/profiles/_base_profile.py:131-141 `A`. -/
def readA : ProfM ℝ := cached Profile.A do
  let p ← getPolygon
  let v := marin p.ext 0 0
  modify' fun s => { s with A := some v }
  return v

/-- geometry/profiles/_base_profile.py:143-153 `Iy`. -/
def readIy : ProfM ℝ := cached Profile.Iy do
  let p ← getPolygon
  let v := marin p.ext 0 2
  modify' fun s => { s with Iy := some v }
  return v

/-- geometry/profiles/_base_profile.py:155-165 `Iz`. -/
def readIz : ProfM ℝ := cached Profile.Iz do
  let p ← getPolygon
  let v := marin p.ext 2 0
  modify' fun s => { s with Iz := some v }
  return v

/-- geometry/profiles/_base_profile.py:167-177 `Iyz`. -/
def readIyz : ProfM ℝ := cached Profile.Iyz do
  let p ← getPolygon
  let v := marin p.ext 1 1
  modify' fun s => { s with Iyz := some v }
  return v

/-- geometry/profiles/_base_profile.py:118-129 `_find_principals_direction_and_moments`; the computation is
`findPrincipal`. -/
def principals (eig : ℝ → ℝ → ℝ → Eig) : ProfM (ℝ × ℝ × ℝ) := do
  let iy ← readIy
  let iyz ← readIyz
  let iz ← readIz
  let r := findPrincipal eig iy iz iyz
  modify' fun s => { s with Icsi := some r.1, Ieta := some r.2.1, theta := some r.2.2 }
  return r

/-- geometry/profiles/_base_profile.py:179-188 `Icsi`. -/
def readIcsi (eig : ℝ → ℝ → ℝ → Eig) : ProfM ℝ := cached Profile.Icsi do
  let r ← principals eig
  return r.1

/-- geometry/profiles/_base_profile.py:190-199 `Ieta`. -/
def readIeta (eig : ℝ → ℝ → ℝ → Eig) : ProfM ℝ := cached Profile.Ieta do
  let r ← principals eig
  return r.2.1

/-- geometry/profiles/_base_profile.py:201-213 `theta`: reading a missing `self._theta` raises. -/
def readTheta : ProfM ℝ := fun s =>
  match s.theta with
  | none => (s, .error .attributeError)
  | some v => (s, .ok v)

/-- geometry/profiles/_base_profile.py:215-225 `_compute_elastic_moduli`; both are stored. -/
def elasticModuli : ProfM (ℝ × ℝ) := do
  let p ← getPolygon
  let xmax := max |p.bounds.1| p.bounds.2.2.1
  let ymax := max |p.bounds.2.1| p.bounds.2.2.2
  let iy ← readIy
  let wy ← ofExcept (pyDiv iy ymax)
  modify' fun s => { s with Wely := some wy }
  let iz ← readIz
  let wz ← ofExcept (pyDiv iz xmax)
  modify' fun s => { s with Welz := some wz }
  return (wy, wz)

/-- geometry/profiles/_base_profile.py:227-233 `Wely`. -/
def readWely : ProfM ℝ := cached Profile.Wely do
  let r ← elasticModuli
  return r.1

/-- geometry/profiles/_base_profile.py:235-241 `Welz`. -/
def readWelz : ProfM ℝ := cached Profile.Welz do
  let r ← elasticModuli
  return r.2

/-- geometry/profiles/_base_profile.py:243-264 `Wply`; `_Wply` is set to `0` before the search. -/
def readWply (sh : Shapely) : ProfM ℝ := cached Profile.Wply do
  let p ← getPolygon
  let xmax := max |p.bounds.1| p.bounds.2.2.1
  modify' fun s => { s with Wply := some 0 }
  let w ← ofExcept (plasticModulus sh p xmax)
  modify' fun s => { s with Wply := some w }
  return w

/-- geometry/profiles/_base_profile.py:266-291 `Wplz`: the polygon of the object is rotated by 90 degrees,
used, and rotated back. -/
def readWplz (sh : Shapely) : ProfM ℝ := cached Profile.Wplz do
  let p ← getPolygon
  let ymax := max |p.bounds.2.1| p.bounds.2.2.2
  let q := p.rotate (Real.pi / 2)
  modify' fun s => { s with polygon := some q, Wplz := some 0 }
  let w ← ofExcept (plasticModulus sh q ymax)
  modify' fun s => { s with polygon := some (q.rotate (-(Real.pi / 2))), Wplz := some w }
  return w

open Classical in
/-- `x or compute`: a stored value that is neither `None` nor zero is kept. -/
def orCompute (v : Option ℝ) (compute : ProfM ℝ) : ProfM ℝ :=
  match v with
  | some x => if x ≠ 0 then pure x else compute
  | none => compute

/-- geometry/profiles/_base_profile.py:293-298 `iy`.  (A negative quotient would give a complex number; it does
not occur for a polygon with positive moments.) -/
def readSmallIy : ProfM ℝ := fun s => (do
  let v ← orCompute s.iy do
    let a ← readIy
    let b ← readA
    let q ← ofExcept (pyDiv a b)
    return q ^ (0.5 : ℝ)
  modify' fun s => { s with iy := some v }
  return v : ProfM ℝ) s

/-- geometry/profiles/_base_profile.py:300-305 `iz`. -/
def readSmallIz : ProfM ℝ := fun s => (do
  let v ← orCompute s.iz do
    let a ← readIz
    let b ← readA
    let q ← ofExcept (pyDiv a b)
    return q ^ (0.5 : ℝ)
  modify' fun s => { s with iz := some v }
  return v : ProfM ℝ) s

/-- The public properties of a profile. -/
inductive Attr
  | A | Iy | Iz | Iyz | Icsi | Ieta | theta | Wely | Welz | Wply | Wplz | iy | iz
  deriving DecidableEq

/-- Reading a property. -/
def Profile.read (sh : Shapely) (eig : ℝ → ℝ → ℝ → Eig) : Attr → ProfM ℝ
  | .A => readA
  | .Iy => readIy
  | .Iz => readIz
  | .Iyz => readIyz
  | .Icsi => readIcsi eig
  | .Ieta => readIeta eig
  | .theta => readTheta
  | .Wely => readWely
  | .Welz => readWelz
  | .Wply => readWply sh
  | .Wplz => readWplz sh
  | .iy => readSmallIy
  | .iz => readSmallIz

/-- A program that reads properties one after the other, catching exceptions. -/
def readAll (sh : Shapely) (eig : ℝ → ℝ → ℝ → Eig) : List Attr → Profile → Profile × List (Except PyErr ℝ)
  | [], s => (s, [])
  | a :: l, s =>
    let r := Profile.read sh eig a s
    let t := readAll sh eig l r.1
    (t.1, r.2 :: t.2)

end

end SC
