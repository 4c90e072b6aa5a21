import Verif.Model.Material
import Verif.Model.Factories
import Verif.Model.EC2_2004
import Verif.Model.EC2_2023
import Verif.Model.MC2010

/-! # The material classes: concretes, reinforcements and basic materials

Names of materials and the warnings for suspect values are not modelled (they have no effect on the
object).  Keyword arguments a class does not name are collected in `**kwargs` and dropped
(`del kwargs`), among them `existing`. -/

set_option autoImplicit false

namespace SC

noncomputable section

/-! ### Constitutive laws as objects -/

/-- A constitutive law created by `create_constitutive_law`. -/
inductive AnyLaw
  | elastic (l : Elastic)
  | elasticPlastic (l : ElasticPlastic)
  | bilinear (l : Bilinear)
  | parabolaRectangle (l : ParabolaRectangle)
  | popovics (l : Popovics)
  | sargin (l : Sargin)

/-- The methods of the object. -/
def AnyLaw.law : AnyLaw → Law
  | .elastic l => l.law
  | .elasticPlastic l => l.law
  | .bilinear l => l.law
  | .parabolaRectangle l => l.law
  | .popovics l => l.law
  | .sargin l => l.law

/-- The attribute `__materials__`: constitutive_laws/_elastic.py:16-20, _elasticplastic.py:16-19,
_bilinearcompression.py:18, _parabolarectangle.py:20, _popovics.py:31, _sargin.py:25. -/
def AnyLaw.materials : AnyLaw → List String
  | .elastic _ => ["concrete", "steel", "rebars"]
  | .elasticPlastic _ => ["steel", "rebars"]
  | _ => ["concrete"]

/-- Keyword arguments returned by the special methods of the materials. -/
inductive LawKw
  | elastic (E : ℝ) (eps_u : Option EpsUArg)
  | plastic (E fy Eh : ℝ) (eps_su : Option ℝ)
  | bilinear (fc eps_c eps_cu : ℝ)
  | parabola (fc eps_0 eps_u n : ℝ)
  | popovics (fc eps_c eps_cu Ec : ℝ)
  | sargin (fc eps_c1 eps_cu1 k : ℝ)

/-- materials/constitutive_laws/__init__.py:85 `const_law(**kwargs)`; unknown keywords would be a
`TypeError`. -/
def mkLaw : LawClass → LawKw → Except PyErr AnyLaw
  | .elastic, .elastic E u => (Elastic.mk? E u).map .elastic
  | .elasticPlastic, .plastic E fy Eh u => (ElasticPlastic.mk? E fy Eh u).map .elasticPlastic
  | .bilinearCompression, .bilinear fc e u => (Bilinear.new? fc e (some u)).map .bilinear
  | .parabolaRectangle, .parabola fc e u n => .ok (.parabolaRectangle (ParabolaRectangle.new fc e u n))
  | .popovics, .popovics fc e u Ec => (Popovics.new? fc e u (some Ec)).map .popovics
  | .sargin, .sargin fc e u k => .ok (.sargin (Sargin.new fc e u k))
  | _, _ => .error .typeError

/-- The `constitutive_law` argument of a material: a name, or a law object with its
`__materials__`. -/
inductive LawSel
  | name (s : String)
  | obj (l : Law) (materials : List String)

/-- materials/concrete/_concreteEC2_2004.py:170-180, _concreteEC2_2023.py:163-173,
_concreteMC2010.py:172-182 (`kind` = 'concrete') and materials/reinforcement/_reinforcementEC2_2004.py:89-99,
_reinforcementEC2_2023.py:84-94, _reinforcementMC2010.py:89-99 (`kind` = 'steel'): the law of the material. -/
def selectLaw (lower : String → String) (kind : String) (sel : LawSel)
    (methods : String → Option (Except PyErr LawKw)) : Except PyErr Law :=
  match sel with
  | .obj l ms => if kind ∈ ms then .ok l else .error .valueError
  | .name s =>
    match createLaw lower mkLaw s methods with
    | .error e => .error e
    | .ok l => if kind ∈ l.materials then .ok l.law else .error .valueError

/-! ### Concretes -/

/-- Arguments of the concrete constructors: materials/concrete/_concreteEC2_2004.py:30-66,
_concreteEC2_2023.py:29-66, _concreteMC2010.py:32-69.  `f05`, `f95` are `fctk_5`, `fctk_95` (`fctkmin`, `fctkmax` of
MC2010), `E` is `Ecm` (`Eci` of MC2010).  `Gf` is an argument of MC2010 only, `kE` and `dev` of EC2 2023 only, `alpha_cc`,
`eps_c3`, `eps_cu3` not of EC2 2023; the other classes drop them. -/
structure ConcArgs where
  fck : ℝ
  density : ℝ
  gamma_c : Option ℝ
  existing : Bool
  alpha_cc : Option ℝ
  law : LawSel
  initialStrain : Option ℝ
  initialStress : Option ℝ
  compat : Option Bool
  fcm : Option ℝ
  fctm : Option ℝ
  f05 : Option ℝ
  f95 : Option ℝ
  E : Option ℝ
  Gf : Option ℝ
  eps_c1 : Option ℝ
  eps_cu1 : Option ℝ
  k : Option ℝ
  eps_c2 : Option ℝ
  eps_cu2 : Option ℝ
  n : Option ℝ
  eps_c3 : Option ℝ
  eps_cu3 : Option ℝ
  kE : ℝ
  dev : List Char

/-- The private attributes of a concrete object. -/
structure Conc where
  fck : ℝ
  gamma_c : Option ℝ
  alpha_cc : Option ℝ
  fcm : Option ℝ
  fctm : Option ℝ
  f05 : Option ℝ
  f95 : Option ℝ
  E : Option ℝ
  Gf : Option ℝ
  eps_c1 : Option ℝ
  eps_cu1 : Option ℝ
  k : Option ℝ
  eps_c2 : Option ℝ
  eps_cu2 : Option ℝ
  n : Option ℝ
  eps_c3 : Option ℝ
  eps_cu3 : Option ℝ
  kE : ℝ
  dev : List Char

/-- materials/concrete/_concreteEC2_2004.py:147-164 (`abs(x) if x is not None else None`), _concreteEC2_2023.py:141-157,
_concreteMC2010.py:148-166 and _concrete.py:38, 44: the assignments of the constructors. -/
def ConcArgs.store (a : ConcArgs) : Conc where
  fck := |a.fck|
  gamma_c := a.gamma_c
  alpha_cc := a.alpha_cc
  fcm := a.fcm.map abs
  fctm := a.fctm.map abs
  f05 := a.f05.map abs
  f95 := a.f95.map abs
  E := a.E.map abs
  Gf := a.Gf.map abs
  eps_c1 := a.eps_c1.map abs
  eps_cu1 := a.eps_cu1.map abs
  k := a.k
  eps_c2 := a.eps_c2.map abs
  eps_cu2 := a.eps_cu2.map abs
  n := a.n
  eps_c3 := a.eps_c3.map abs
  eps_cu3 := a.eps_cu3.map abs
  kE := a.kE
  dev := pyLower (pyStrip a.dev)

/-- `if self._x is None: return default` / `return self._x`. -/
def orElse (x : Option ℝ) (default : Except PyErr ℝ) : Except PyErr ℝ :=
  match x with
  | some v => .ok v
  | none => default

open Classical in
/-- `if self._x is not None and self._x <condition>: raise ValueError`. -/
def raiseIfSome (x : Option ℝ) (bad : ℝ → Prop) : Except PyErr Unit :=
  match x with
  | some v => raiseIf (bad v)
  | none => .ok ()

namespace Conc

/-- materials/concrete/_concreteEC2_2004.py:183-268 and _concreteMC2010.py:185-277 `__post_init__`: the checks that
raise. -/
def check (c : Conc) : Except PyErr Unit := do
  raiseIfSome c.fcm (· ≤ c.fck)
  raiseIfSome c.k (· < 0)
  raiseIfSome c.n (· < 0)

open Classical in
/-- materials/concrete/_concreteEC2_2023.py:176-255 `__post_init__`: the checks that raise. -/
def check2023 (c : Conc) : Except PyErr Unit := do
  raiseIf (c.dev ∉ ["cs".toList, "cn".toList, "cr".toList, "slow".toList, "normal".toList, "rapid".toList])
  raiseIfSome c.gamma_c (· ≤ 0)
  raiseIfSome c.fcm (· ≤ c.fck)
  raiseIfSome c.k (· < 0)
  raiseIfSome c.n (· < 0)

/-- `self._gamma_c or 1.5`: materials/concrete/_concreteEC2_2004.py:357-362, _concreteEC2_2023.py:471-476,
_concreteMC2010.py:372-375. -/
def gammaC (c : Conc) : ℝ := orDefault c.gamma_c 1.5
/-- `self._alpha_cc or 1.0`: materials/concrete/_concreteEC2_2004.py:364-369, _concreteMC2010.py:389-394. -/
def alphaCC (c : Conc) : ℝ := orDefault c.alpha_cc 1

end Conc


namespace ConcreteEC2_2004

/-- materials/concrete/_concreteEC2_2004.py:270-283. -/
def fcm (c : Conc) : Except PyErr ℝ := orElse c.fcm (.ok (EC2_2004.fcm c.fck))
/-- materials/concrete/_concreteEC2_2004.py:285-298. -/
def fctm (c : Conc) : Except PyErr ℝ := orElse c.fctm (.ok (EC2_2004.fctm c.fck))
/-- materials/concrete/_concreteEC2_2004.py:300-313. -/
def fctk_5 (c : Conc) : Except PyErr ℝ := orElse c.f05 ((fctm c).map EC2_2004.fctk_5)
/-- materials/concrete/_concreteEC2_2004.py:315-328. -/
def fctk_95 (c : Conc) : Except PyErr ℝ := orElse c.f95 ((fctm c).map EC2_2004.fctk_95)
/-- materials/concrete/_concreteEC2_2004.py:330-343. -/
def Ecm (c : Conc) : Except PyErr ℝ := orElse c.E ((fcm c).map EC2_2004.Ecm)
/-- materials/concrete/_concreteEC2_2004.py:345-355. -/
def fcd (c : Conc) : Except PyErr ℝ := EC2_2004.fcd c.fck c.alphaCC c.gammaC
/-- materials/concrete/_concreteEC2_2004.py:371-385. -/
def eps_c1 (c : Conc) : Except PyErr ℝ := orElse c.eps_c1 ((fcm c).map EC2_2004.eps_c1)
/-- materials/concrete/_concreteEC2_2004.py:387-400. -/
def eps_cu1 (c : Conc) : Except PyErr ℝ := orElse c.eps_cu1 (.ok (EC2_2004.eps_cu1 c.fck))
/-- materials/concrete/_concreteEC2_2004.py:402-419. -/
def k_sargin (c : Conc) : Except PyErr ℝ :=
  orElse c.k (do
    let E ← Ecm c
    let f ← fcm c
    let e ← eps_c1 c
    EC2_2004.k_sargin E f e)
/-- materials/concrete/_concreteEC2_2004.py:421-435. -/
def eps_c2 (c : Conc) : Except PyErr ℝ := orElse c.eps_c2 (.ok (EC2_2004.eps_c2 c.fck))
/-- materials/concrete/_concreteEC2_2004.py:437-451. -/
def eps_cu2 (c : Conc) : Except PyErr ℝ := orElse c.eps_cu2 (.ok (EC2_2004.eps_cu2 c.fck))
/-- materials/concrete/_concreteEC2_2004.py:453-466. -/
def n_parabolic_rectangular (c : Conc) : Except PyErr ℝ :=
  orElse c.n (.ok (EC2_2004.n_parabolic_rectangular c.fck))
/-- materials/concrete/_concreteEC2_2004.py:468-482. -/
def eps_c3 (c : Conc) : Except PyErr ℝ := orElse c.eps_c3 (.ok (EC2_2004.eps_c3 c.fck))
/-- materials/concrete/_concreteEC2_2004.py:484-498. -/
def eps_cu3 (c : Conc) : Except PyErr ℝ := orElse c.eps_cu3 (.ok (EC2_2004.eps_cu3 c.fck))

/-- materials/concrete/_concreteEC2_2004.py:500-537: the special methods. -/
def methods (c : Conc) (name : String) : Option (Except PyErr LawKw) :=
  if name = "__elastic__" then some (do return .elastic (← Ecm c) none)
  else if name = "__bilinearcompression__" then some (do return .bilinear (← fcd c) (← eps_c3 c) (← eps_cu3 c))
  else if name = "__parabolarectangle__" then
    some (do return .parabola (← fcd c) (← eps_c2 c) (← eps_cu2 c) (← n_parabolic_rectangular c))
  else if name = "__sargin__" then some (do return .sargin (← fcm c) (← eps_c1 c) (← eps_cu1 c) (← k_sargin c))
  else if name = "__popovics__" then some (do return .popovics (← fcd c) (← eps_c1 c) (← eps_cu1 c) (← Ecm c))
  else none

end ConcreteEC2_2004

namespace ConcreteMC2010

/-- materials/concrete/_concreteMC2010.py:279-292. -/
def fcm (c : Conc) : Except PyErr ℝ := orElse c.fcm (.ok (MC2010.fcm c.fck))
/-- materials/concrete/_concreteMC2010.py:294-310 (the default aggregate is quartzite). -/
def Eci (c : Conc) : Except PyErr ℝ :=
  orElse c.E (do MC2010.Eci (← fcm c) ['q', 'u', 'a', 'r', 't', 'z', 'i', 't', 'e'])
/-- materials/concrete/_concreteMC2010.py:312-325. -/
def fctm (c : Conc) : Except PyErr ℝ := orElse c.fctm (.ok (MC2010.fctm c.fck))
/-- materials/concrete/_concreteMC2010.py:327-340. -/
def fctkmin (c : Conc) : Except PyErr ℝ := orElse c.f05 ((fctm c).map MC2010.fctkmin)
/-- materials/concrete/_concreteMC2010.py:342-355. -/
def fctkmax (c : Conc) : Except PyErr ℝ := orElse c.f95 ((fctm c).map MC2010.fctkmax)
/-- materials/concrete/_concreteMC2010.py:357-370. -/
def Gf (c : Conc) : Except PyErr ℝ := orElse c.Gf (.ok (MC2010.Gf c.fck))
/-- materials/concrete/_concreteMC2010.py:377-387. -/
def fcd (c : Conc) : Except PyErr ℝ := MC2010.fcd c.fck c.alphaCC c.gammaC
/-- materials/concrete/_concreteMC2010.py:396-410. -/
def eps_c1 (c : Conc) : Except PyErr ℝ := orElse c.eps_c1 (MC2010.eps_c1 c.fck)
/-- materials/concrete/_concreteMC2010.py:412-425. -/
def eps_cu1 (c : Conc) : Except PyErr ℝ := orElse c.eps_cu1 (MC2010.eps_cu1 c.fck)
/-- materials/concrete/_concreteMC2010.py:427-440. -/
def k_sargin (c : Conc) : Except PyErr ℝ := orElse c.k (MC2010.k_sargin c.fck)
/-- materials/concrete/_concreteMC2010.py:442-456. -/
def eps_c2 (c : Conc) : Except PyErr ℝ := orElse c.eps_c2 (.ok (MC2010.eps_c2 c.fck))
/-- materials/concrete/_concreteMC2010.py:458-472. -/
def eps_cu2 (c : Conc) : Except PyErr ℝ := orElse c.eps_cu2 (.ok (MC2010.eps_cu2 c.fck))
/-- materials/concrete/_concreteMC2010.py:474-487. -/
def n_parabolic_rectangular (c : Conc) : Except PyErr ℝ := orElse c.n (.ok (MC2010.n_parabolic_rectangular c.fck))
/-- materials/concrete/_concreteMC2010.py:489-503. -/
def eps_c3 (c : Conc) : Except PyErr ℝ := orElse c.eps_c3 (.ok (MC2010.eps_c3 c.fck))
/-- materials/concrete/_concreteMC2010.py:505-519. -/
def eps_cu3 (c : Conc) : Except PyErr ℝ := orElse c.eps_cu3 (.ok (MC2010.eps_cu3 c.fck))

/-- materials/concrete/_concreteMC2010.py:521-558: the special methods. -/
def methods (c : Conc) (name : String) : Option (Except PyErr LawKw) :=
  if name = "__elastic__" then some (do return .elastic (← Eci c) none)
  else if name = "__bilinearcompression__" then some (do return .bilinear (← fcd c) (← eps_c3 c) (← eps_cu3 c))
  else if name = "__parabolarectangle__" then
    some (do return .parabola (← fcd c) (← eps_c2 c) (← eps_cu2 c) (← n_parabolic_rectangular c))
  else if name = "__sargin__" then some (do return .sargin (← fcm c) (← eps_c1 c) (← eps_cu1 c) (← k_sargin c))
  else if name = "__popovics__" then some (do return .popovics (← fcd c) (← eps_c1 c) (← eps_cu1 c) (← Eci c))
  else none

end ConcreteMC2010

namespace ConcreteEC2_2023

/-- materials/concrete/_concreteEC2_2023.py:257-270. -/
def fcm (c : Conc) : Except PyErr ℝ := orElse c.fcm (.ok (EC2_2023.fcm c.fck))
/-- materials/concrete/_concreteEC2_2023.py:272-285. -/
def fctm (c : Conc) : Except PyErr ℝ := orElse c.fctm (.ok (EC2_2023.fctm c.fck))
/-- materials/concrete/_concreteEC2_2023.py:287-300. -/
def fctk_5 (c : Conc) : Except PyErr ℝ := orElse c.f05 ((fctm c).map EC2_2023.fctk_5)
/-- materials/concrete/_concreteEC2_2023.py:302-315. -/
def fctk_95 (c : Conc) : Except PyErr ℝ := orElse c.f95 ((fctm c).map EC2_2023.fctk_95)
/-- materials/concrete/_concreteEC2_2023.py:317-330. -/
def Ecm (c : Conc) : Except PyErr ℝ := orElse c.E (do EC2_2023.Ecm (← fcm c) c.kE)
/-- materials/concrete/_concreteEC2_2023.py:332-354, default reference ages and strength. -/
def fcd (c : Conc) (t_ref : ℝ := 28) (t0 : ℝ := 91) (fck_ref : ℝ := 40) : Except PyErr ℝ := do
  let eta ← EC2_2023.eta_cc c.fck fck_ref
  let k ← EC2_2023.k_tc t_ref t0 c.dev
  EC2_2023.fcd c.fck eta k c.gammaC
/-- materials/concrete/_concreteEC2_2023.py:356-372. -/
def fctd (c : Conc) (t_ref : ℝ := 28) : Except PyErr ℝ := do
  let k ← EC2_2023.k_tt t_ref c.dev
  let f ← fctk_5 c
  EC2_2023.fctd f k c.gammaC
/-- materials/concrete/_concreteEC2_2023.py:374-388. -/
def eps_c1 (c : Conc) : Except PyErr ℝ := orElse c.eps_c1 (do EC2_2023.eps_c1 (← fcm c))
/-- materials/concrete/_concreteEC2_2023.py:390-403. -/
def eps_cu1 (c : Conc) : Except PyErr ℝ := orElse c.eps_cu1 (do EC2_2023.eps_cu1 (← fcm c))
/-- materials/concrete/_concreteEC2_2023.py:405-422. -/
def k_sargin (c : Conc) : Except PyErr ℝ :=
  orElse c.k (do
    let E ← Ecm c
    let f ← fcm c
    let e ← eps_c1 c
    EC2_2023.k_sargin E f e)
/-- materials/concrete/_concreteEC2_2023.py:424-438. -/
def eps_c2 (c : Conc) : Except PyErr ℝ := orElse c.eps_c2 (.ok EC2_2023.eps_c2)
/-- materials/concrete/_concreteEC2_2023.py:440-454. -/
def eps_cu2 (c : Conc) : Except PyErr ℝ := orElse c.eps_cu2 (.ok EC2_2023.eps_cu2)
/-- materials/concrete/_concreteEC2_2023.py:456-469. -/
def n_parabolic_rectangular (c : Conc) : Except PyErr ℝ := orElse c.n (.ok EC2_2023.n_parabolic_rectangular)

/-- materials/concrete/_concreteEC2_2023.py:478-507: the special methods (there is no bilinear one). -/
def methods (c : Conc) (name : String) : Option (Except PyErr LawKw) :=
  if name = "__elastic__" then some (do return .elastic (← Ecm c) none)
  else if name = "__parabolarectangle__" then
    some (do return .parabola (← fcd c) (← eps_c2 c) (← eps_cu2 c) (← n_parabolic_rectangular c))
  else if name = "__sargin__" then some (do return .sargin (← fcm c) (← eps_c1 c) (← eps_cu1 c) (← k_sargin c))
  else if name = "__popovics__" then some (do return .popovics (← fcd c) (← eps_c1 c) (← eps_cu1 c) (← Ecm c))
  else none

end ConcreteEC2_2023

/-- A material object: its own attributes and what it inherits from `Material`. -/
structure Built (α : Type) where
  own : α
  mat : Material

/-- The three concrete classes. -/
inductive ConcClass
  | ec2_2004 | mc2010 | ec2_2023
  deriving DecidableEq

/-- The special methods of the class. -/
def ConcClass.methods : ConcClass → Conc → String → Option (Except PyErr LawKw)
  | .ec2_2004 => ConcreteEC2_2004.methods
  | .mc2010 => ConcreteMC2010.methods
  | .ec2_2023 => ConcreteEC2_2023.methods

/-- `__post_init__` of the class. -/
def ConcClass.check : ConcClass → Conc → Except PyErr Unit
  | .ec2_2023 => Conc.check2023
  | _ => Conc.check

/-- The constructors materials/concrete/_concreteEC2_2004.py:134-181, _concreteEC2_2023.py:127-174,
_concreteMC2010.py:136-183, with `Concrete.__init__` (_concrete.py:17-44): `existing` is dropped with the other unnamed keyword
arguments and `Concrete.__init__` gets `False`.  `none` = the search of the initial strain does not stop (it always does, C15). -/
def newConcrete (lower : String → String) (cls : ConcClass) (a : ConcArgs) :
    Option (Except PyErr (Built Conc)) :=
  match (do
      raiseIf (a.initialStrain.isSome ∧ a.initialStress.isSome)
      cls.check a.store
      selectLaw lower "concrete" a.law (cls.methods a.store) : Except PyErr Law) with
  | .error e => some (.error e)
  | .ok law =>
    (Material.create a.density a.initialStrain a.initialStress a.compat law).map fun r =>
      match r with
      | .error e => .error e
      | .ok m => .ok ⟨a.store, m⟩

/-! ### Reinforcements -/

/-- Arguments of the reinforcement constructors: materials/reinforcement/_reinforcementEC2_2004.py:14-37,
_reinforcementEC2_2023.py:14-36 (without `gamma_eps`), _reinforcementMC2010.py:14-37. -/
structure SteelArgs where
  fyk : ℝ
  Es : ℝ
  ftk : ℝ
  epsuk : ℝ
  density : ℝ
  gamma_s : Option ℝ
  gamma_eps : Option ℝ
  law : LawSel
  initialStrain : Option ℝ
  initialStress : Option ℝ
  compat : Option Bool

/-- Attributes of a reinforcement object, materials/reinforcement/_reinforcement.py:41-45. -/
structure Steel where
  fyk : ℝ
  Es : ℝ
  ftk : ℝ
  epsuk : ℝ
  gamma_s : Option ℝ
  gamma_eps : Option ℝ

/-- materials/reinforcement/_reinforcement.py:41-45 and _reinforcementEC2_2004.py:88. -/
def SteelArgs.store (a : SteelArgs) : Steel := ⟨|a.fyk|, |a.Es|, |a.ftk|, |a.epsuk|, a.gamma_s, a.gamma_eps⟩

/-- The three reinforcement classes. -/
inductive SteelClass
  | ec2_2004 | mc2010 | ec2_2023
  deriving DecidableEq

namespace Steel

/-- `self._gamma_s or 1.15`: materials/reinforcement/_reinforcementEC2_2004.py:106-111, _reinforcementMC2010.py:106-109,
_reinforcementEC2_2023.py:109-114. -/
def gammaS (s : Steel) : ℝ := orDefault s.gamma_s 1.15
/-- `self._gamma_eps or 0.9`: materials/reinforcement/_reinforcementEC2_2004.py:121-126, _reinforcementMC2010.py:119-122. -/
def gammaEps (s : Steel) : ℝ := orDefault s.gamma_eps 0.9

/-- materials/reinforcement/_reinforcementEC2_2004.py:102-104, 113-115 (`f` = `fyk` or `ftk`), _reinforcementMC2010.py:102-104,
111-113, _reinforcementEC2_2023.py:97-103. -/
def design (cls : SteelClass) (s : Steel) (f : ℝ) : Except PyErr ℝ :=
  match cls with
  | .ec2_2004 => EC2_2004.fyd f s.gammaS
  | .mc2010 => MC2010.fyd f s.gammaS
  | .ec2_2023 => EC2_2023.fyd f s.gammaS

/-- `fyd()`. -/
def fyd (cls : SteelClass) (s : Steel) : Except PyErr ℝ := design cls s s.fyk
/-- `ftd()`. -/
def ftd (cls : SteelClass) (s : Steel) : Except PyErr ℝ := design cls s s.ftk

/-- materials/reinforcement/_reinforcementEC2_2004.py:117-119, _reinforcementMC2010.py:115-117,
_reinforcementEC2_2023.py:105-107. -/
def epsud (cls : SteelClass) (s : Steel) : Except PyErr ℝ :=
  match cls with
  | .ec2_2004 => EC2_2004.epsud s.epsuk s.gammaEps
  | .mc2010 => MC2010.epsud s.epsuk s.gammaEps
  | .ec2_2023 => EC2_2023.eps_ud s.epsuk s.gammaS

/-- materials/reinforcement/_reinforcement.py:72-75. -/
def epsyk (s : Steel) : Except PyErr ℝ := pyDiv s.fyk s.Es
/-- materials/reinforcement/_reinforcement.py:107-110. -/
def epsyd (cls : SteelClass) (s : Steel) : Except PyErr ℝ := do pyDiv (← fyd cls s) s.Es

/-- materials/reinforcement/_reinforcement.py:67-70, the setter of `epsuk`. -/
def setEpsuk (s : Steel) (v : ℝ) : Steel := { s with epsuk := |v| }

/-- materials/reinforcement/_reinforcementEC2_2004.py:142-152, _reinforcementMC2010.py:138-148,
_reinforcementEC2_2023.py:130-140 `__elasticplastic__`. -/
def plasticKw (cls : SteelClass) (s : Steel) : Except PyErr LawKw := do
  let ft ← ftd cls s
  let fy ← fyd cls s
  let eu ← epsud cls s
  let ey ← epsyd cls s
  let Eh ← pyDiv (ft - fy) (eu - ey)
  return .plastic s.Es fy Eh (some eu)

/-- materials/reinforcement/_reinforcementEC2_2004.py:128-152, _reinforcementMC2010.py:124-148,
_reinforcementEC2_2023.py:116-140: the special methods. -/
def methods (cls : SteelClass) (s : Steel) (name : String) : Option (Except PyErr LawKw) :=
  if name = "__elastic__" then some (.ok (.elastic s.Es none))
  else if name = "__elasticperfectlyplastic__" then
    some (do return .plastic s.Es (← fyd cls s) 0 (some (← epsud cls s)))
  else if name = "__elasticplastic__" then some (plasticKw cls s)
  else none

end Steel

/-- The constructors materials/reinforcement/_reinforcementEC2_2004.py:73-100, _reinforcementEC2_2023.py:70-95,
_reinforcementMC2010.py:73-100, with _reinforcement.py:18-45. -/
def newSteel (lower : String → String) (cls : SteelClass) (a : SteelArgs) : Option (Except PyErr (Built Steel)) :=
  match (do
      raiseIf (a.initialStrain.isSome ∧ a.initialStress.isSome)
      selectLaw lower "steel" a.law (a.store.methods cls) : Except PyErr Law) with
  | .error e => some (.error e)
  | .ok law =>
    (Material.create a.density a.initialStrain a.initialStress a.compat law).map fun r =>
      match r with
      | .error e => .error e
      | .ok m => .ok ⟨a.store, m⟩

/-- materials/reinforcement/_reinforcement.py:67-70: `reinforcement.epsuk = v` on a material object; the law built by the
constructor stays. -/
def Built.setEpsuk (b : Built Steel) (v : ℝ) : Built Steel := { b with own := b.own.setEpsuk v }

/-! ### Basic materials -/

/-- materials/basic/_elastic.py:14-57 `ElasticMaterial`. -/
def newElastic (lower : String → String) (E density : ℝ) (ultimate : Option EpsUArg)
    (initialStrain initialStress : Option ℝ) (compat : Option Bool) : Option (Except PyErr Material) :=
  match (do
      raiseIf (initialStrain.isSome ∧ initialStress.isSome)
      createLaw lower mkLaw "elastic" fun n => if n = "__elastic__" then some (.ok (.elastic E ultimate)) else none :
      Except PyErr AnyLaw) with
  | .error e => some (.error e)
  | .ok l => Material.create density initialStrain initialStress compat l.law

/-- materials/basic/_elastic.py:68-80 `ElasticMaterial.from_material`. -/
def elasticFrom (lower : String → String) (m : Material) : Option (Except PyErr Material) :=
  newElastic lower (m.law.tangent 0) m.density none none none none

/-- materials/basic/_elasticplastic.py:17-61 `ElasticPlasticMaterial`. -/
def newElasticPlastic (lower : String → String) (E fy density Eh : ℝ) (eps_su : Option ℝ)
    (initialStrain initialStress : Option ℝ) (compat : Option Bool) : Option (Except PyErr Material) :=
  match (do
      raiseIf (initialStrain.isSome ∧ initialStress.isSome)
      createLaw lower mkLaw "elasticplastic" fun n =>
        if n = "__elasticplastic__" then some (.ok (.plastic E fy Eh eps_su)) else none : Except PyErr AnyLaw) with
  | .error e => some (.error e)
  | .ok l => Material.create density initialStrain initialStress compat l.law

/-- materials/basic/_generic.py:11-43 `GenericMaterial`. -/
def newGeneric (density : ℝ) (law : Law) (initialStrain initialStress : Option ℝ) (compat : Option Bool) :
    Option (Except PyErr Material) :=
  Material.create density initialStrain initialStress compat law

end

end SC
