import Verif.Model.Laws
import Verif.Model.Loop

/-! # The `Material` base class -/

set_option autoImplicit false

namespace SC

noncomputable section

/-- Attributes of a material, core/base.py:17-20, 48-56 (name omitted). -/
structure Material where
  density : ℝ
  initialStrain : Option ℝ
  initialStress : Option ℝ
  compat : Option Bool
  law : Law

/-- core/base.py:22-56 `Material.__init__`.  The constitutive law is attached by the subclass
before `_apply_initial_strain` is called; here it is an argument. -/
def Material.init (density : ℝ) (initialStrain initialStress : Option ℝ) (compat : Option Bool)
    (law : Law) : Except PyErr Material :=
  if initialStrain.isSome ∧ initialStress.isSome then .error .valueError
  else .ok ⟨|density|, initialStrain, initialStress, compat, law⟩

/-- Local variables of the Newton loop, core/base.py:131-137. -/
structure NewtonState where
  strain : ℝ
  dStress : ℝ
  numIter : ℕ

/-- core/base.py:138 loop condition. -/
def newtonCond (s : NewtonState) : Prop := |s.dStress| > 1e-12 ∧ s.numIter < 100

open Classical in
/-- core/base.py:139-148 loop body. -/
def newtonBody (law : Law) (target : ℝ) (s : NewtonState) : Except PyErr NewtonState :=
  let tangent := law.tangent s.strain
  if tangent = 0 then .error .valueError
  else
    let strain := s.strain + s.dStress / tangent
    .ok ⟨strain, target - law.stress strain, s.numIter + 1⟩

/-- core/base.py:131-137 initial values. -/
def newtonStart (law : Law) (target : ℝ) : NewtonState := ⟨0, target - law.stress 0, 0⟩

open Classical in
/-- core/base.py:123-153 `_initial_strain_from_stress`; `none` = does not stop. -/
def initialStrainFromStress (law : Law) (target : ℝ) : Option (Except PyErr ℝ) :=
  (pyWhile newtonCond (newtonBody law target) (newtonStart law target)).map fun r =>
    match r.1 with
    | .error e => .error e
    | .ok s => if |s.dStress| > 1e-12 then .error .runtimeError else .ok s.strain

/-- core/base.py:105-121: the part of `_apply_initial_strain` after the initial strain is known. -/
def Material.wrap (m : Material) : Material :=
  match m.initialStrain with
  | none => m
  | some e0 =>
    { m with
      initialStress := some (m.initialStress.getD (m.law.stress e0))
      law := InitialStrain.law ⟨m.law, e0, m.compat.getD true⟩ }

/-- core/base.py:95-121 `_apply_initial_strain`; `none` = does not stop. -/
def Material.applyInitialStrain (m : Material) : Option (Except PyErr Material) :=
  match m.initialStress with
  | none => some (.ok m.wrap)
  | some s0 =>
    (initialStrainFromStress m.law s0).map fun r =>
      match r with
      | .error e => .error e
      | .ok e0 => .ok { m with initialStrain := some e0 }.wrap

/-- Construction of a material: `__init__` followed by `_apply_initial_strain`, as every concrete
material class does (e.g. materials/basic/_elastic.py:16-56). -/
def Material.create (density : ℝ) (initialStrain initialStress : Option ℝ) (compat : Option Bool)
    (law : Law) : Option (Except PyErr Material) :=
  match Material.init density initialStrain initialStress compat law with
  | .error e => some (.error e)
  | .ok m => m.applyInitialStrain

end

end SC
