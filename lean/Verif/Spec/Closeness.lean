import Verif.Model.Gross

/-! # Specification vocabulary: quantities of a section that agree

The list of quantities is written out here, independently of the model of `isclose`. -/

set_option autoImplicit false

namespace SC.Spec

/-- Two numbers agree within the tolerances, measured by the second. -/
def Near (rtol atol x y : ℝ) : Prop := |x - y| ≤ atol + rtol * |y|

/-- Every reported quantity agrees. -/
structure AllNear (rtol atol : ℝ) (p q : GrossProps) : Prop where
  area : Near rtol atol p.area q.area
  areaReinf : Near rtol atol p.areaReinf q.areaReinf
  ea : Near rtol atol p.ea q.ea
  mass : Near rtol atol p.mass q.mass
  perimeter : Near rtol atol p.perimeter q.perimeter
  first : Near rtol atol p.m.sy q.m.sy ∧ Near rtol atol p.m.sz q.m.sz
  second : Near rtol atol p.m.iyy q.m.iyy ∧ Near rtol atol p.m.izz q.m.izz ∧ Near rtol atol p.m.iyz q.m.iyz
  centroid : Near rtol atol p.cy q.cy ∧ Near rtol atol p.cz q.cz
  central : Near rtol atol p.mc.iyy q.mc.iyy ∧ Near rtol atol p.mc.izz q.mc.izz ∧ Near rtol atol p.mc.iyz q.mc.iyz
  principal : Near rtol atol p.i11 q.i11 ∧ Near rtol atol p.i22 q.i22 ∧ Near rtol atol p.theta q.theta
  stiff_first : Near rtol atol p.em.sy q.em.sy ∧ Near rtol atol p.em.sz q.em.sz
  stiff_second : Near rtol atol p.em.iyy q.em.iyy ∧ Near rtol atol p.em.izz q.em.izz ∧ Near rtol atol p.em.iyz q.em.iyz
  stiff_central : Near rtol atol p.emc.iyy q.emc.iyy ∧ Near rtol atol p.emc.izz q.emc.izz ∧ Near rtol atol p.emc.iyz q.emc.iyz
  stiff_principal : Near rtol atol p.e_i11 q.e_i11 ∧ Near rtol atol p.e_i22 q.e_i22 ∧ Near rtol atol p.e_theta q.e_theta

end SC.Spec
