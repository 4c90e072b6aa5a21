import Verif.Model.Py

/-!
# Constitutive laws

Model of `structuralcodes/materials/constitutive_laws/*` and of the base class
`ConstitutiveLaw` in `structuralcodes/core/base.py`.

For each law there is a scalar branch and an array branch (the Python methods test
`np.isscalar(eps)`).  Arrays have an arbitrary index type `ι`.  Real arithmetic; integer
dtypes (for which numpy would truncate on assignment) are not modelled.
-/

namespace SC

noncomputable section

open Classical

/-- What the library uses of a constitutive law object: `get_stress`, `get_tangent` on scalars
and `get_ultimate_strain(yielding)`.  Models the abstract base class,
core/base.py:156-197 (names and ids omitted). -/
structure Law where
  stress : ℝ → ℝ
  tangent : ℝ → ℝ
  ult : Bool → ℝ × ℝ

/-! ## core/base.py: strain preprocessing and secant -/

/-- core/base.py:208-213, scalar branch of `preprocess_strains_with_limits`. -/
def snap (lim : ℝ × ℝ) (eps : ℝ) : ℝ :=
  if isclose eps lim.2 then lim.2
  else if isclose eps lim.1 then lim.1
  else eps

/-- core/base.py:214-219, array branch of `preprocess_strains_with_limits`.  The returned array
is also the new content of the caller's array: `np.atleast_1d` (line 208) does not copy an
ndarray and lines 218, 220 assign in place. -/
def snapArr {ι : Type*} (lim : ℝ × ℝ) (eps : ι → ℝ) : ι → ℝ :=
  let eps1 := maskSet (fun i => isclose (eps i) lim.2) (fun _ => lim.2) eps
  maskSet (fun i => isclose (eps1 i) lim.1) (fun _ => lim.1) eps1

/-- core/base.py:290-302 `get_secant`, scalar branch. -/
def secant (l : Law) (eps : ℝ) : ℝ :=
  if eps ≠ 0 then l.stress eps / eps else l.tangent eps

/-- core/base.py:304-312 `get_secant`, array branch, for a law whose array methods are
`stressA`, `tangentA`; they are called on the sub-arrays selected by the masks, modelled as
arrays over the subtype of selected indices. -/
def secantArr {ι : Type} (stressA tangentA : ∀ (κ : Type), (κ → ℝ) → κ → ℝ)
    (eps : ι → ℝ) : ι → ℝ :=
  fun i =>
    if h : eps i = 0 then
      tangentA {j // eps j = 0} (fun j => eps j.1) ⟨i, h⟩
    else
      stressA {j // eps j ≠ 0} (fun j => eps j.1) ⟨i, h⟩ / eps i

/-! ## Elastic -/

/-- State of an `Elastic` law: constitutive_laws/_elastic.py:41-48. -/
structure Elastic where
  E : ℝ
  eps_u : Option (ℝ × ℝ)

/-- The `eps_u` argument: a float, a tuple of two numbers, a shorter tuple, or something else
(note `isinstance(eps_u, float)` is False for a Python int). -/
inductive EpsUArg
  | float (v : ℝ)
  | pair (n p : ℝ)
  | shortTuple
  | other

/-- constitutive_laws/_elastic.py:112-147 `_set_ultimate_strain`. -/
def setUltimate : EpsUArg → Except PyErr (ℝ × ℝ)
  | .float v => .ok (-|v|, |v|)
  | .pair a b =>
      let n := if b < a then b else a
      let p := if b < a then a else b
      if p < 0 then .error .valueError
      else if n > 0 then .error .valueError
      else .ok (n, p)
  | .shortTuple => .error .valueError
  | .other => .error .valueError

/-- constitutive_laws/_elastic.py:22-48 `Elastic.__init__`. -/
def Elastic.mk? (E : ℝ) (eps_u : Option EpsUArg) : Except PyErr Elastic :=
  if E ≤ 0 then .error .valueError
  else match eps_u with
    | none => .ok ⟨E, none⟩
    | some a => match setUltimate a with
      | .error e => .error e
      | .ok u => .ok ⟨E, some u⟩

namespace Elastic
/-- constitutive_laws/_elastic.py:50-55. -/
def stress (l : Elastic) (eps : ℝ) : ℝ := l.E * eps
/-- constitutive_laws/_elastic.py:50-55 on arrays. -/
def stressArr {ι : Type*} (l : Elastic) (eps : ι → ℝ) : ι → ℝ := fun i => l.E * eps i
/-- constitutive_laws/_elastic.py:57-62, scalar. -/
def tangent (l : Elastic) (_eps : ℝ) : ℝ := l.E
/-- constitutive_laws/_elastic.py:63-64, array. -/
def tangentArr {ι : Type*} (l : Elastic) (_eps : ι → ℝ) : ι → ℝ := fun _ => 1 * l.E
/-- constitutive_laws/_elastic.py:105-110; `self._eps_u or (-100, 100)` (a tuple is truthy). -/
def ult (l : Elastic) : ℝ × ℝ := l.eps_u.getD (-100, 100)
/-- Packed. -/
def law (l : Elastic) : Law := ⟨l.stress, l.tangent, fun _ => l.ult⟩
end Elastic

/-! ## ElasticPlastic -/

/-- constitutive_laws/_elasticplastic.py:40-49. -/
structure ElasticPlastic where
  E : ℝ
  fy : ℝ
  Eh : ℝ
  eps_su : Option ℝ

/-- constitutive_laws/_elasticplastic.py:21-49 `__init__`: rejects `E <= 0`. -/
def ElasticPlastic.mk? (E fy Eh : ℝ) (eps_su : Option ℝ) : Except PyErr ElasticPlastic :=
  if E > 0 then .ok ⟨E, fy, Eh, eps_su⟩ else .error .valueError

namespace ElasticPlastic
/-- constitutive_laws/_elasticplastic.py:49. -/
def eps_sy (l : ElasticPlastic) : ℝ := l.fy / l.E

/-- constitutive_laws/_elasticplastic.py:218-227 `get_ultimate_strain`. -/
def ult (l : ElasticPlastic) (yielding : Bool) : ℝ × ℝ :=
  if yielding then (-l.eps_sy, l.eps_sy)
  else match l.eps_su with
    | none => (-l.eps_sy * 2, l.eps_sy * 2)
    | some u => (-u, u)

/-- Whether `eps_su` is set and the strain is beyond it:
constitutive_laws/_elasticplastic.py:66-69 and 86-89. -/
def beyond (l : ElasticPlastic) (eps : ℝ) : Prop :=
  match l.eps_su with
  | none => False
  | some u => eps > u ∨ eps < -u

/-- constitutive_laws/_elasticplastic.py:60 -/
def deltaSig (l : ElasticPlastic) : ℝ := l.fy * (1 - l.Eh / l.E)

/-- constitutive_laws/_elasticplastic.py:59-70, the stress computation on a (snapped)
scalar strain. -/
def core (l : ElasticPlastic) (eps : ℝ) : ℝ :=
  let sig := l.E * eps
  let sig := if sig < -l.fy then eps * l.Eh - l.deltaSig else sig
  let sig := if sig > l.fy then eps * l.Eh + l.deltaSig else sig
  if l.beyond eps then 0 else sig

/-- constitutive_laws/_elasticplastic.py:51-70 `get_stress`, scalar. -/
def stress (l : ElasticPlastic) (eps : ℝ) : ℝ := l.core (snap (l.ult false) eps)

/-- constitutive_laws/_elasticplastic.py:71-76 `get_stress`, array. -/
def stressArr {ι : Type*} (l : ElasticPlastic) (eps : ι → ℝ) : ι → ℝ :=
  let eps := snapArr (l.ult false) eps
  let sig := fun i => l.E * eps i
  let sig := maskSet (fun i => sig i < -l.fy) (fun i => eps i * l.Eh - l.deltaSig) sig
  let sig := maskSet (fun i => sig i > l.fy) (fun i => eps i * l.Eh + l.deltaSig) sig
  match l.eps_su with
  | none => sig
  | some u =>
    let sig := maskSet (fun i => eps i > u) (fun _ => 0) sig
    maskSet (fun i => eps i < -u) (fun _ => 0) sig

/-- constitutive_laws/_elasticplastic.py:78-90 `get_tangent`, scalar (no snapping). -/
def tangent (l : ElasticPlastic) (eps : ℝ) : ℝ :=
  let t := if -l.eps_sy ≤ eps ∧ eps ≤ l.eps_sy then l.E else l.Eh
  if l.beyond eps then 0 else t

/-- constitutive_laws/_elasticplastic.py:91-100 `get_tangent`, array. -/
def tangentArr {ι : Type*} (l : ElasticPlastic) (eps : ι → ℝ) : ι → ℝ :=
  let t := fun _ => 1 * l.E
  let t := maskSet (fun i => eps i > l.eps_sy) (fun _ => l.Eh) t
  let t := maskSet (fun i => eps i < -l.eps_sy) (fun _ => l.Eh) t
  match l.eps_su with
  | none => t
  | some u =>
    let t := maskSet (fun i => eps i > u) (fun _ => 0) t
    maskSet (fun i => eps i < -u) (fun _ => 0) t

/-- constitutive_laws/_elasticplastic.py:51-76 `get_stress(eps)` on an ndarray: the returned array, and the content of
the caller's array afterwards (it is the array snapped in place, core/base.py:214-219). -/
def getStressCall {ι : Type*} (l : ElasticPlastic) (eps : ι → ℝ) : (ι → ℝ) × (ι → ℝ) :=
  (l.stressArr eps, snapArr (l.ult false) eps)

/-- Packed. -/
def law (l : ElasticPlastic) : Law := ⟨l.stress, l.tangent, l.ult⟩
end ElasticPlastic

/-! ## ParabolaRectangle -/

/-- constitutive_laws/_parabolarectangle.py:45-48. -/
structure ParabolaRectangle where
  fc : ℝ
  eps_0 : ℝ
  eps_u : ℝ
  n : ℝ

namespace ParabolaRectangle
/-- constitutive_laws/_parabolarectangle.py:22-48 `__init__` (`x ** n` becomes `Real.rpow`). -/
@[reducible] def new (fc eps_0 eps_u n : ℝ) : ParabolaRectangle := ⟨-|fc|, -|eps_0|, -|eps_u|, n⟩

/-- constitutive_laws/_parabolarectangle.py:249-255. -/
def ult (l : ParabolaRectangle) (yielding : Bool) : ℝ × ℝ :=
  if yielding then (l.eps_0, 100) else (l.eps_u, 100)

/-- constitutive_laws/_parabolarectangle.py:60-65 on a snapped scalar.  (`eps_0 = 0` would raise
ZeroDivisionError on the first branch; the theorems assume `eps_0 ≠ 0`.) -/
def core (l : ParabolaRectangle) (eps : ℝ) : ℝ :=
  let sig := 0
  let sig := if l.eps_0 ≤ eps ∧ eps ≤ 0 then l.fc * (1 - (1 - eps / l.eps_0) ^ l.n) else sig
  if l.eps_u ≤ eps ∧ eps < l.eps_0 then l.fc else sig

/-- constitutive_laws/_parabolarectangle.py:50-65 `get_stress`, scalar. -/
def stress (l : ParabolaRectangle) (eps : ℝ) : ℝ := l.core (snap (l.ult false) eps)

/-- constitutive_laws/_parabolarectangle.py:66-79 `get_stress`, array. -/
def stressArr {ι : Type*} (l : ParabolaRectangle) (eps : ι → ℝ) : ι → ℝ :=
  let eps := snapArr (l.ult false) eps
  let sig : ι → ℝ := fun _ => 0
  let sig := maskSet (fun i => eps i ≤ 0 ∧ eps i ≥ l.eps_0)
    (fun i => l.fc * (1 - (1 - eps i / l.eps_0) ^ l.n)) sig
  let sig := maskSet (fun i => eps i < l.eps_0) (fun _ => l.fc) sig
  let sig := maskSet (fun i => eps i < l.eps_u) (fun _ => 0) sig
  maskSet (fun i => eps i > 0) (fun _ => 0) sig

/-- constitutive_laws/_parabolarectangle.py:81-96 `get_tangent`, scalar. -/
def tangent (l : ParabolaRectangle) (eps : ℝ) : ℝ :=
  if l.eps_0 ≤ eps ∧ eps ≤ 0 then
    l.n * l.fc / l.eps_0 * (1 - eps / l.eps_0) ^ (l.n - 1)
  else 0

/-- constitutive_laws/_parabolarectangle.py:97-110 `get_tangent`, array. -/
def tangentArr {ι : Type*} (l : ParabolaRectangle) (eps : ι → ℝ) : ι → ℝ :=
  let t : ι → ℝ := fun _ => 0
  let t := maskSet (fun i => eps i ≤ 0 ∧ eps i ≥ l.eps_0)
    (fun i => l.n * l.fc / l.eps_0 * (1 - eps i / l.eps_0) ^ (l.n - 1)) t
  let t := maskSet (fun i => eps i < l.eps_0) (fun _ => 0) t
  maskSet (fun i => eps i > 0) (fun _ => 0) t

/-- constitutive_laws/_parabolarectangle.py:50-79 `get_stress(eps)` on an ndarray: the returned array, and the content of
the caller's array afterwards (it is the array snapped in place, core/base.py:214-219). -/
def getStressCall {ι : Type*} (l : ParabolaRectangle) (eps : ι → ℝ) : (ι → ℝ) × (ι → ℝ) :=
  (l.stressArr eps, snapArr (l.ult false) eps)

/-- Packed. -/
def law (l : ParabolaRectangle) : Law := ⟨l.stress, l.tangent, l.ult⟩
end ParabolaRectangle

/-! ## BilinearCompression -/

/-- constitutive_laws/_bilinearcompression.py:39-42. -/
structure Bilinear where
  fc : ℝ
  eps_c : ℝ
  eps_cu : ℝ

namespace Bilinear
/-- constitutive_laws/_bilinearcompression.py:20-42 `__init__`: `abs(None)` raises TypeError when
`eps_cu` is omitted, and `self._fc / self._eps_c` raises ZeroDivisionError when `eps_c = 0`. -/
def new? (fc eps_c : ℝ) (eps_cu : Option ℝ) : Except PyErr Bilinear :=
  match eps_cu with
  | none => .error .typeError
  | some u => if eps_c = 0 then .error .zeroDivision else .ok ⟨-|fc|, -|eps_c|, -|u|⟩

/-- constitutive_laws/_bilinearcompression.py:42. -/
def E (l : Bilinear) : ℝ := l.fc / l.eps_c

/-- constitutive_laws/_bilinearcompression.py:178-184. -/
def ult (l : Bilinear) (yielding : Bool) : ℝ × ℝ :=
  if yielding then (l.eps_c, 100) else (l.eps_cu, 100)

/-- constitutive_laws/_bilinearcompression.py:53-56 on a snapped scalar. -/
def core (l : Bilinear) (eps : ℝ) : ℝ :=
  if eps > 0 ∨ eps < l.eps_cu then 0 else max (l.E * eps) l.fc

/-- constitutive_laws/_bilinearcompression.py:44-56 `get_stress`, scalar. -/
def stress (l : Bilinear) (eps : ℝ) : ℝ := l.core (snap (l.ult false) eps)

/-- constitutive_laws/_bilinearcompression.py:58-63 `get_stress`, array. -/
def stressArr {ι : Type*} (l : Bilinear) (eps : ι → ℝ) : ι → ℝ :=
  let eps := snapArr (l.ult false) eps
  let sig := fun i => l.E * eps i
  let sig := maskSet (fun i => sig i < l.fc) (fun _ => l.fc) sig
  let sig := maskSet (fun i => eps i > 0) (fun _ => 0) sig
  maskSet (fun i => eps i < l.eps_cu) (fun _ => 0) sig

/-- constitutive_laws/_bilinearcompression.py:65-74 `get_tangent`, scalar. -/
def tangent (l : Bilinear) (eps : ℝ) : ℝ :=
  if l.eps_c < eps ∧ eps ≤ 0 then l.E else 0

/-- constitutive_laws/_bilinearcompression.py:76-81 `get_tangent`, array. -/
def tangentArr {ι : Type*} (l : Bilinear) (eps : ι → ℝ) : ι → ℝ :=
  let t : ι → ℝ := fun _ => 1 * l.E
  let t := maskSet (fun i => eps i ≥ 0) (fun _ => 0) t
  maskSet (fun i => eps i < l.eps_c) (fun _ => 0) t

/-- constitutive_laws/_bilinearcompression.py:44-63 `get_stress(eps)` on an ndarray: the returned array, and the content of
the caller's array afterwards (it is the array snapped in place, core/base.py:214-219). -/
def getStressCall {ι : Type*} (l : Bilinear) (eps : ι → ℝ) : (ι → ℝ) × (ι → ℝ) :=
  (l.stressArr eps, snapArr (l.ult false) eps)

/-- Packed. -/
def law (l : Bilinear) : Law := ⟨l.stress, l.tangent, l.ult⟩
end Bilinear

/-! ## Sargin -/

/-- constitutive_laws/_sargin.py:57-60. -/
structure Sargin where
  fc : ℝ
  eps_c1 : ℝ
  eps_cu1 : ℝ
  k : ℝ

namespace Sargin
/-- constitutive_laws/_sargin.py:27-60 `__init__` (the docstring promises a ValueError for
`k <= 0`; the code does not check, so neither does the model). -/
@[reducible] def new (fc eps_c1 eps_cu1 k : ℝ) : Sargin := ⟨-|fc|, -|eps_c1|, -|eps_cu1|, k⟩

/-- constitutive_laws/_sargin.py:109-115. -/
def ult (l : Sargin) (yielding : Bool) : ℝ × ℝ :=
  if yielding then (l.eps_c1, 100) else (l.eps_cu1, 100)

/-- The denominator `1 + (k - 2) * eta`, constitutive_laws/_sargin.py:71. -/
def den (l : Sargin) (eps : ℝ) : ℝ := 1 + (l.k - 2) * (eps / l.eps_c1)

/-- Value computed by constitutive_laws/_sargin.py:71-78 on a snapped scalar, when no division
by zero occurs. -/
def core (l : Sargin) (eps : ℝ) : ℝ :=
  let eta := eps / l.eps_c1
  let sig := l.fc * (l.k * eta - eta ^ 2) / (1 + (l.k - 2) * eta)
  if eps < l.eps_cu1 ∨ eps > 0 then 0 else sig

/-- Stress value (scalar), constitutive_laws/_sargin.py:62-83, ignoring ZeroDivisionError. -/
def stress (l : Sargin) (eps : ℝ) : ℝ := l.core (snap (l.ult false) eps)

/-- constitutive_laws/_sargin.py:62-83 `get_stress`, scalar, with the ZeroDivisionError of
Python float division (the quotient is computed before the range test of line 79). -/
def stress? (l : Sargin) (eps : ℝ) : Except PyErr ℝ :=
  if l.eps_c1 = 0 ∨ l.den (snap (l.ult false) eps) = 0 then .error .zeroDivision
  else .ok (l.stress eps)

/-- constitutive_laws/_sargin.py:71-83 `get_stress`, array (numpy division does not raise; entries
with zero denominator are inf/nan in numpy and arbitrary here). -/
def stressArr {ι : Type*} (l : Sargin) (eps : ι → ℝ) : ι → ℝ :=
  let eps := snapArr (l.ult false) eps
  let eta := fun i => eps i / l.eps_c1
  let sig := fun i => l.fc * (l.k * eta i - eta i ^ 2) / (1 + (l.k - 2) * eta i)
  let sig := maskSet (fun i => eps i < l.eps_cu1) (fun _ => 0) sig
  maskSet (fun i => eps i > 0) (fun _ => 0) sig

/-- constitutive_laws/_sargin.py:85-107 `get_tangent`, scalar, ignoring ZeroDivisionError. -/
def tangent (l : Sargin) (eps : ℝ) : ℝ :=
  let eta := eps / l.eps_c1
  let t := l.fc / l.eps_c1 * ((2 - l.k) * eta ^ 2 - 2 * eta + l.k) / (1 + (l.k - 2) * eta) ^ 2
  if eps < l.eps_cu1 ∨ eps > 0 then 0 else t

/-- constitutive_laws/_sargin.py:85-107 `get_tangent`, array. -/
def tangentArr {ι : Type*} (l : Sargin) (eps : ι → ℝ) : ι → ℝ :=
  let eta := fun i => eps i / l.eps_c1
  let t := fun i => l.fc / l.eps_c1 * ((2 - l.k) * eta i ^ 2 - 2 * eta i + l.k)
    / (1 + (l.k - 2) * eta i) ^ 2
  let t := maskSet (fun i => eps i < l.eps_cu1) (fun _ => 0) t
  maskSet (fun i => eps i > 0) (fun _ => 0) t

/-- constitutive_laws/_sargin.py:62-83 `get_stress(eps)` on an ndarray: the returned array, and the content of
the caller's array afterwards (it is the array snapped in place, core/base.py:214-219). -/
def getStressCall {ι : Type*} (l : Sargin) (eps : ι → ℝ) : (ι → ℝ) × (ι → ℝ) :=
  (l.stressArr eps, snapArr (l.ult false) eps)

/-- Packed. -/
def law (l : Sargin) : Law := ⟨l.stress, l.tangent, l.ult⟩
end Sargin

/-! ## Popovics -/

/-- constitutive_laws/_popovics.py:63-74. -/
structure Popovics where
  fc : ℝ
  eps_c : ℝ
  eps_cu : ℝ
  n : ℝ

namespace Popovics
/-- constitutive_laws/_popovics.py:33-74 `__init__`. -/
def new? (fc eps_c eps_cu : ℝ) (Ec : Option ℝ) : Except PyErr Popovics :=
  let Ec := Ec.getD (5000 * |fc| ^ (0.5 : ℝ))
  if Ec ≤ 0 then .error .valueError
  else if -|eps_c| = 0 then .error .zeroDivision
  else
    let Esec := -|fc| / -|eps_c|
    if Ec - Esec = 0 then .error .zeroDivision
    else .ok ⟨-|fc|, -|eps_c|, -|eps_cu|, Ec / (Ec - Esec)⟩

/-- constitutive_laws/_popovics.py:127-133. -/
def ult (l : Popovics) (yielding : Bool) : ℝ × ℝ :=
  if yielding then (l.eps_c, 100) else (l.eps_cu, 100)

/-- constitutive_laws/_popovics.py:83-92 on a snapped scalar (`eta ** n` for negative `eta` is a
complex number or nan in Python; that value is discarded by the range test `eps > 0`). -/
def core (l : Popovics) (eps : ℝ) : ℝ :=
  let eta := eps / l.eps_c
  let sig := l.fc * eta * l.n / (l.n - 1 + eta ^ l.n)
  if eps < l.eps_cu ∨ eps > 0 then 0 else sig

/-- constitutive_laws/_popovics.py:76-97 `get_stress`, scalar. -/
def stress (l : Popovics) (eps : ℝ) : ℝ := l.core (snap (l.ult false) eps)

/-- constitutive_laws/_popovics.py:76-97 `get_stress`, array. -/
def stressArr {ι : Type*} (l : Popovics) (eps : ι → ℝ) : ι → ℝ :=
  let eps := snapArr (l.ult false) eps
  let eta := fun i => eps i / l.eps_c
  let sig := fun i => l.fc * eta i * l.n / (l.n - 1 + eta i ^ l.n)
  let sig := maskSet (fun i => eps i < l.eps_cu) (fun _ => 0) sig
  maskSet (fun i => eps i > 0) (fun _ => 0) sig

/-- constitutive_laws/_popovics.py:103-125 on a snapped scalar. -/
def tcore (l : Popovics) (eps : ℝ) : ℝ :=
  let eta := eps / l.eps_c
  let t := (1 - eta ^ l.n) / (l.n - 1 + eta ^ l.n) ^ 2 * l.n * (l.n - 1) * l.fc / l.eps_c
  if eps < l.eps_cu ∨ eps > 0 then 0 else t

/-- constitutive_laws/_popovics.py:99-125 `get_tangent`, scalar (this law snaps here too). -/
def tangent (l : Popovics) (eps : ℝ) : ℝ := l.tcore (snap (l.ult false) eps)

/-- constitutive_laws/_popovics.py:99-125 `get_tangent`, array. -/
def tangentArr {ι : Type*} (l : Popovics) (eps : ι → ℝ) : ι → ℝ :=
  let eps := snapArr (l.ult false) eps
  let eta := fun i => eps i / l.eps_c
  let t := fun i =>
    (1 - eta i ^ l.n) / (l.n - 1 + eta i ^ l.n) ^ 2 * l.n * (l.n - 1) * l.fc / l.eps_c
  let t := maskSet (fun i => eps i < l.eps_cu) (fun _ => 0) t
  maskSet (fun i => eps i > 0) (fun _ => 0) t

/-- constitutive_laws/_popovics.py:76-97 `get_stress(eps)` on an ndarray: the returned array, and the content of
the caller's array afterwards (it is the array snapped in place, core/base.py:214-219). -/
def getStressCall {ι : Type*} (l : Popovics) (eps : ι → ℝ) : (ι → ℝ) × (ι → ℝ) :=
  (l.stressArr eps, snapArr (l.ult false) eps)

/-- Packed. -/
def law (l : Popovics) : Law := ⟨l.stress, l.tangent, l.ult⟩
end Popovics

/-! ## InitialStrain -/

/-- constitutive_laws/_initial_strain.py:48-56. -/
structure InitialStrain where
  wrapped : Law
  eps0 : ℝ
  compat : Bool

namespace InitialStrain
/-- constitutive_laws/_initial_strain.py:55 `self._initial_stress`. -/
def initialStress (l : InitialStrain) : ℝ := l.wrapped.stress l.eps0
/-- constitutive_laws/_initial_strain.py:68-76 `get_stress`. -/
def stress (l : InitialStrain) (eps : ℝ) : ℝ :=
  let s := l.wrapped.stress (eps + l.eps0)
  if !l.compat then 1 * l.initialStress else s
/-- constitutive_laws/_initial_strain.py:78-84 `get_tangent`. -/
def tangent (l : InitialStrain) (eps : ℝ) : ℝ :=
  if !l.compat then l.wrapped.tangent 0 * 1e-6 else l.wrapped.tangent (eps + l.eps0)
/-- constitutive_laws/_initial_strain.py:122-130 `get_ultimate_strain`. -/
def ult (l : InitialStrain) (yielding : Bool) : ℝ × ℝ :=
  ((l.wrapped.ult yielding).1 - l.eps0, (l.wrapped.ult yielding).2 - l.eps0)
/-- Packed. -/
def law (l : InitialStrain) : Law := ⟨l.stress, l.tangent, l.ult⟩
end InitialStrain

end

end SC
