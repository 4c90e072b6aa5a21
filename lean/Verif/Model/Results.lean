import Verif.Model.Gross

/-! # Results objects

`core/_section_results.py`: comparing section properties. -/

set_option autoImplicit false

namespace SC

noncomputable section

/-- core/_section_results.py:16-104 and `list(vars(self).values())` (lines 143-144): the fields in the order of their declaration. -/
def GrossProps.values (p : GrossProps) : List ℝ :=
  [p.area, p.areaReinf, p.ea, p.mass, p.perimeter, p.m.sy, p.m.sz, p.em.sy, p.em.sz, p.cy, p.cz, p.m.iyy, p.m.izz, p.m.iyz,
   p.mc.iyy, p.mc.izz, p.mc.iyz, p.i11, p.i22, p.theta, p.em.iyy, p.em.izz, p.em.iyz, p.emc.iyy, p.emc.izz, p.emc.iyz,
   p.e_i11, p.e_i22, p.e_theta]

open Classical in
/-- `np.allclose(a, b, rtol, atol)` for arrays of one length and finite values (numpy): `abs(a - b) <= atol + rtol * abs(b)` everywhere. -/
def npAllclose (a b : List ℝ) (rtol atol : ℝ) : Bool :=
  (List.zipWith (fun x y => decide (|x - y| ≤ atol + rtol * |y|)) a b).all id

/-- The value of `isclose`: a boolean, or the object `NotImplemented`. -/
inductive CloseResult where
  | bool (b : Bool)
  | notImplemented
  deriving DecidableEq

/-- What the caller passes as `other`: an instance of the class, or anything else. -/
inductive CloseArg where
  | props (p : GrossProps)
  | other

/-- core/_section_results.py:129-145 `SectionProperties.isclose`. -/
def GrossProps.isclose (p : GrossProps) (other : CloseArg) (rtol : ℝ := 1e-5) (atol : ℝ := 1e-8) : CloseResult :=
  match other with
  | .other => .notImplemented
  | .props q => .bool (npAllclose p.values q.values rtol atol)

/-- Truth value of the result (Python: an object is true unless it says otherwise; up to 3.13 `NotImplemented` is true). -/
def CloseResult.truthy : CloseResult → Bool
  | .bool b => b
  | .notImplemented => true

end

end SC
