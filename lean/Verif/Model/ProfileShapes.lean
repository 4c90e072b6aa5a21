import Verif.Model.ProfileTables
import Verif.Model.Geometry
import Verif.Spec.Area

/-! # Profile classes: lookup of the tables and shape of the I and U sections

`geometry/profiles/_ipe.py`, `_he.py`, ..., `_common_functions.py`.  The tables are class attributes and
`get_polygon` of some classes writes into them, so lookups are state transitions on the tables.  The
`_create_...` functions are represented by their arguments (`ShapeArgs`); for the I section and the parallel flange U
section the region they describe is modelled as a set. -/

set_option autoImplicit false

namespace SC

noncomputable section

/-- A Python dictionary with string keys and float values, in insertion order. -/
abbrev Dict := List (String × ℝ)

/-- `d.get(key)`. -/
def Dict.lookup (d : Dict) (k : String) : Option ℝ := (d.find? fun e => e.1 == k).map Prod.snd

/-- `d[key] = v`: replaces the value in place or appends. -/
def Dict.set (d : Dict) (k : String) (v : ℝ) : Dict :=
  if d.any fun e => e.1 == k then d.map fun e => if e.1 == k then (k, v) else e else d ++ [(k, v)]

/-- Tenths of a millimetre. -/
def mm (n : ℕ) : ℝ := n / 10

/-- The dictionary of a row. -/
def ProfRow.dict : ProfRow → Dict
  | .i h b tw tf r => [("h", mm h), ("b", mm b), ("tw", mm tw), ("tf", mm tf), ("r", mm r)]
  | .taper h b tw tf r1 r2 d => [("h", mm h), ("b", mm b), ("tw", mm tw), ("tf", mm tf), ("r1", mm r1), ("r2", mm r2)] ++
      (match d with
        | some d => [("d", mm d)]
        | none => [])
  | .angle h b t r1 r2 => [("h", mm h), ("b", mm b), ("t", mm t), ("r1", mm r1), ("r2", mm r2)]

/-- The profile classes. -/
inductive ProfClass
  | IPE | HE | HD | HP | UB | UBP | UC | W | IPN | UPE | UPN | U | L | LI
  deriving DecidableEq

/-- Which table a class has. -/
def ProfClass.table : ProfClass → List (String × ProfRow)
  | .IPE => tableIPE
  | .HE => tableHE
  | .HD => tableHD
  | .HP => tableHP
  | .UB => tableUB
  | .UBP => tableUBP
  | .UC => tableUC
  | .W => tableW
  | .IPN => tableIPN
  | .UPE => tableUPE
  | .UPN => tableUPN
  | .U => tableU
  | .L => tableL
  | .LI => tableLI

/-- The `name` argument: a string or a number. -/
inductive NameArg
  | str (s : String)
  | num (x : ℝ)

/-- `int(x)` of a finite float. -/
def truncInt (x : ℝ) : ℤ := if 0 ≤ x then ⌊x⌋ else ⌈x⌉

/-- Classes that accept numbers, with the prefix they put in front:
geometry/profiles/_ipe.py:43-44 and 61-62, _ipn.py:216-217 and 241-242, _upe.py:39-40 and 57-58,
_upn.py:191-192 and 221-222. -/
def ProfClass.numPrefix : ProfClass → Option String
  | .IPE => some "IPE"
  | .IPN => some "IPN"
  | .UPE => some "UPE"
  | .UPN => some "UPN"
  | _ => none

/-- The key looked up; a number is no key of the other classes' tables (`none`). -/
def ProfClass.key (c : ProfClass) : NameArg → Option String
  | .str s => some s
  | .num x => c.numPrefix.map fun pre => pre ++ toString (truncInt x)

/-- Arguments of the functions that build a polygon, geometry/profiles/_common_functions.py:19, 80-88, 147-156,
207-213, 267-269. -/
inductive ShapeArgs
  | I (h b tw tf r : ℝ)
  | taperI (h b tw tf r1 r2 slope : ℝ)
  | taperU (h b tw tf r1 r2 slope u : ℝ)
  | parallelU (h b tw tf r : ℝ)
  | L (h b t1 t2 r1 r2 : ℝ)

/-- A call `f(**kwargs)` to a function whose parameters are `names` (no defaults): a missing or an unexpected key
is a `TypeError`; the values are returned in the order of `names`. -/
def bindArgs (names : List String) (kw : Dict) : Except PyErr (List ℝ) :=
  if kw.all fun e => names.contains e.1 then
    names.mapM fun n => match kw.lookup n with
      | some v => .ok v
      | none => .error .typeError
  else .error .typeError

/-- `{key: parameters[key] for key in parameters if key in names}`. -/
def Dict.only (d : Dict) (names : List String) : Dict := d.filter fun e => names.contains e.1

/-- `parameters['key']`. -/
def Dict.item (d : Dict) (k : String) : Except PyErr ℝ :=
  match d.lookup k with
  | some v => .ok v
  | none => .error .keyError

open Classical in
/-- What `get_polygon` writes into the row before the call, geometry/profiles/_ipn.py:225, _upn.py:200-205,
_u.py:68-69, _l.py:438-439, _li.py:127-128; the other classes write nothing. -/
def prepareRow (c : ProfClass) (d : Dict) : Except PyErr Dict :=
  match c with
  | .IPN => .ok (d.set "slope" 0.14)
  | .UPN => do
    let h ← d.item "h"
    let b ← d.item "b"
    let tw ← d.item "tw"
    if h ≤ 300 then return (d.set "slope" 0.08).set "u" (b / 2)
    else return (d.set "slope" 0.05).set "u" ((b - tw) / 2)
  | .U => do
    let b ← d.item "b"
    return (d.set "slope" 0.08).set "u" (b / 2)
  | .L | .LI => do
    let t ← d.item "t"
    return (d.set "t1" t).set "t2" t
  | _ => .ok d

/-- The call that `get_polygon` makes with the row. -/
def polygonCall (c : ProfClass) (d : Dict) : Except PyErr ShapeArgs :=
  match c with
  | .IPN => do
    let v ← bindArgs ["h", "b", "tw", "tf", "r1", "r2", "slope"]
      (d.only ["h", "b", "tw", "tf", "r1", "r2", "slope"])
    match v with
    | [h, b, tw, tf, r1, r2, s] => return .taperI h b tw tf r1 r2 s
    | _ => .error .typeError
  | .UPN | .U => do
    let v ← bindArgs ["h", "b", "tw", "tf", "r1", "r2", "slope", "u"]
      (d.only ["h", "b", "tw", "tf", "r1", "r2", "slope", "u"])
    match v with
    | [h, b, tw, tf, r1, r2, s, u] => return .taperU h b tw tf r1 r2 s u
    | _ => .error .typeError
  | .L | .LI => do
    let v ← bindArgs ["h", "b", "t1", "t2", "r1", "r2"] (d.only ["h", "b", "t1", "t2", "r1", "r2"])
    match v with
    | [h, b, t1, t2, r1, r2] => return .L h b t1 t2 r1 r2
    | _ => .error .typeError
  | .UPE => do
    let v ← bindArgs ["h", "b", "tw", "tf", "r"] d
    match v with
    | [h, b, tw, tf, r] => return .parallelU h b tw tf r
    | _ => .error .typeError
  | _ => do
    let v ← bindArgs ["h", "b", "tw", "tf", "r"] d
    match v with
    | [h, b, tw, tf, r] => return .I h b tw tf r
    | _ => .error .typeError

open Classical in
/-- The call that the constructor makes, e.g. geometry/profiles/_ipe.py:59-76 (`**parameters`), _ipn.py:250-266,
_upn.py:230-252, _u.py:92-110, _l.py:461-474, _upe.py:66-79 (values read with `parameters.get`, where a missing
key would give `None`; here `KeyError`). -/
def constructorCall (c : ProfClass) (d : Dict) : Except PyErr ShapeArgs :=
  match c with
  | .IPN => do
    return .taperI (← d.item "h") (← d.item "b") (← d.item "tw") (← d.item "tf") (← d.item "r1") (← d.item "r2") 0.14
  | .UPN => do
    let h ← d.item "h"
    let b ← d.item "b"
    let tw ← d.item "tw"
    if h ≤ 300 then
      return .taperU h b tw (← d.item "tf") (← d.item "r1") (← d.item "r2") 0.08 (b / 2)
    else return .taperU h b tw (← d.item "tf") (← d.item "r1") (← d.item "r2") 0.05 ((b - tw) / 2)
  | .U => do
    let b ← d.item "b"
    return .taperU (← d.item "h") b (← d.item "tw") (← d.item "tf") (← d.item "r1") (← d.item "r2") 0.08 (b / 2)
  | .L | .LI => do
    let t ← d.item "t"
    return .L (← d.item "h") (← d.item "b") t t (← d.item "r1") (← d.item "r2")
  | .UPE => do
    return .parallelU (← d.item "h") (← d.item "b") (← d.item "tw") (← d.item "tf") (← d.item "r")
  | _ => polygonCall c d

/-- The class attribute `parameters` of every class. -/
abbrev Tables := ProfClass → List (String × Dict)

/-- The tables as written in the source. -/
def Tables.initial : Tables := fun c => c.table.map fun e => (e.1, e.2.dict)

/-- `cls.parameters.get(name)`. -/
def Tables.get (t : Tables) (c : ProfClass) (k : Option String) : Option Dict :=
  k.bind fun k => ((t c).find? fun e => e.1 == k).map Prod.snd

/-- The row `k` of class `c` is changed in place. -/
def Tables.put (t : Tables) (c : ProfClass) (k : String) (d : Dict) : Tables := fun c' =>
  if c' = c then (t c').map fun e => if e.1 == k then (e.1, d) else e else t c'

/-- A use of a profile class. -/
inductive ProfOp
  /-- `Class.get_polygon(name)` -/
  | getPolygon (c : ProfClass) (name : NameArg)
  /-- `Class(name)` (its polygon) -/
  | new (c : ProfClass) (name : NameArg)
  /-- `Class.profiles()` -/
  | profiles (c : ProfClass)

/-- Result of a use. -/
inductive ProfOut
  | shape (a : ShapeArgs)
  | names (l : List String)

/-- geometry/profiles/_ipe.py:41-57 and 59-76 and the same methods of the other classes. -/
def ProfOp.run (t : Tables) : ProfOp → Tables × Except PyErr ProfOut
  | .getPolygon c name =>
    match t.get c (c.key name), c.key name with
    | some d, some k =>
      match prepareRow c d with
      | .error e => (t, .error e)
      | .ok d' => (t.put c k d', (polygonCall c d').map ProfOut.shape)
    | _, _ => (t, .error .valueError)
  | .new c name =>
    match t.get c (c.key name) with
    | some d => (t, (constructorCall c d).map ProfOut.shape)
    | none => (t, .error .valueError)
  | .profiles c => (t, .ok (.names ((t c).map Prod.fst)))

/-- A program using the classes, catching exceptions. -/
def ProfOp.runAll : List ProfOp → Tables → Tables × List (Except PyErr ProfOut)
  | [], t => (t, [])
  | o :: l, t =>
    let r := o.run t
    let q := ProfOp.runAll l r.1
    (q.1, r.2 :: q.2)

/-! ### Regions -/

/-- `Polygon([(a, c), (b, c), (b, d), (a, d)])` as a region. -/
def rectSet (a b c d : ℝ) : Set (ℝ × ℝ) := Set.Icc a b ×ˢ Set.Icc c d

/-- Reflection `z -> s - z`: `scale(geom, 1, -1)` about the centre of the bounding box followed by a translation. -/
def flipZ (s : ℝ) (p : ℝ × ℝ) : ℝ × ℝ := (p.1, s - p.2)

/-- geometry/profiles/_common_functions.py:40-63: the four fillets.  `disc c r` is the (open) region of
`Point(c).buffer(r)`, a parameter.  The bounding box of the two lower fillets reaches from `-h/2 + tf` to
`-h/2 + tf + r`, so `scale(fillet, 1, -1)` maps `z` to `2 (-h/2 + tf) + r - z`; boundaries of differences are not
modelled (they have no area). -/
def filletsI (disc : ℝ × ℝ → ℝ → Set (ℝ × ℝ)) (h tw tf r : ℝ) : Set (ℝ × ℝ) :=
  let right := rectSet (tw / 2) (tw / 2 + r) (-h / 2 + tf) (-h / 2 + tf + r) \ disc (tw / 2 + r, -h / 2 + tf + r) r
  let left := rectSet (-tw / 2 - r) (-tw / 2) (-h / 2 + tf) (-h / 2 + tf + r) \
    disc (-tw / 2 - r, -h / 2 + tf + r) r
  let fillet := left ∪ right
  (fun p => translatePt 0 (h - 2 * tf - r) (flipZ (2 * (-h / 2 + tf) + r) p)) '' fillet ∪ fillet

/-- geometry/profiles/_common_functions.py:19-77 `_create_I_section` as a region; rounding to the grid
(`set_precision`, relative size 1e-12) is not modelled. -/
def sectionI (disc : ℝ × ℝ → ℝ → Set (ℝ × ℝ)) (h b tw tf r : ℝ) : Set (ℝ × ℝ) :=
  let top := rectSet (-b / 2) (b / 2) (-h / 2) (-h / 2 + tf)
  let bottom := translatePt 0 (h - tf) '' top
  let web := rectSet (-tw / 2) (tw / 2) (-h / 2 + tf) (h / 2 - tf)
  filletsI disc h tw tf r ∪ top ∪ bottom ∪ web

/-- geometry/profiles/_common_functions.py:207-260 `_create_parallel_U_section` as a region, before the last
translation; rounding to the grid is not modelled. -/
def sectionURaw (disc : ℝ × ℝ → ℝ → Set (ℝ × ℝ)) (h b tw tf r : ℝ) : Set (ℝ × ℝ) :=
  let top := rectSet 0 b (h / 2 - tf) (h / 2)
  let bottom := translatePt 0 (-h + tf) '' top
  let web := rectSet 0 tw (-h / 2 + tf) (h / 2 - tf)
  let fillet := rectSet tw (tw + r) (-h / 2 + tf) (-h / 2 + tf + r) \ disc (tw + r, -h / 2 + tf + r) r
  let fillets := (fun p => translatePt 0 (h - 2 * tf - r) (flipZ (2 * (-h / 2 + tf) + r) p)) '' fillet ∪ fillet
  fillets ∪ top ∪ bottom ∪ web

/-- geometry/profiles/_common_functions.py:261-264: the U section moved to its centroid; the centroid is
that of the region. -/
def sectionU (disc : ℝ × ℝ → ℝ → Set (ℝ × ℝ)) (h b tw tf r : ℝ) : Set (ℝ × ℝ) :=
  let R := sectionURaw disc h b tw tf r
  translatePt (-(Spec.areaMoment 1 0 R / Spec.areaMoment 0 0 R)) (-(Spec.areaMoment 0 1 R / Spec.areaMoment 0 0 R)) '' R

end

end SC
