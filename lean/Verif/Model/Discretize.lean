import Verif.Model.UserDefined
import Verif.Model.Parallel
import Verif.Model.Geometry

/-!
# Laws without Marin expressions of their own

Model of `ConstitutiveLaw._discretize_law`, `__marin__` and `__marin_tangent__` in
`structuralcodes/core/base.py`, which serve `Sargin`, `Popovics` and `ParabolaRectangle` with
`n != 2` in the Marin integrator, and of the way `Parallel` calls `__marin__`.
-/

set_option autoImplicit false

namespace SC

noncomputable section

open Classical

/-- An array call `law.get_stress(eps)` on a one-dimensional ndarray of any length: the returned array, and
the content of the caller's array afterwards.  core/base.py:177-183 (signature), 199-219 (the
in-place change). -/
abbrev StressCall := ∀ n : ℕ, (Fin n → ℝ) → (Fin n → ℝ) × (Fin n → ℝ)

/-- core/base.py:239, 250, 261: the same call on an array given as a list. -/
def StressCall.onList (c : StressCall) (eps : List ℝ) : List ℝ × List ℝ :=
  let r := c eps.length eps.get
  (List.ofFn r.1, List.ofFn r.2)

/-- core/base.py:240, 251: `sig[sig < np.max(sig) * 1e-6] = 0`. -/
def cutSmall (sig : List ℝ) : List ℝ :=
  let m := listMax sig
  sig.map fun s => if s < m * 1e-6 then 0 else s

/-- core/base.py:225-233 `find_x_lim`: the entry of `x` at the last index with `y != 0`, `None` if
there is no such index. -/
def findXLim (x y : List ℝ) : Option ℝ :=
  ((x.zip y).filter fun p => decide (p.2 ≠ 0)).getLast?.map Prod.fst

/-- core/base.py:238, 249: the number of strains at which the extent of the law is searched. -/
def searchCount : ℕ := 10000

/-- core/base.py:235-247: the strains at which the law is sampled for `eps >= 0`. -/
def gridPos (call : StressCall) (ult : ℝ × ℝ) : List ℝ :=
  let epsMax := min ult.2 1
  let r := call.onList (linspace 0 epsMax searchCount true)
  match findXLim r.2 (cutSmall r.1) with
  | none => linspace 0 (-ult.1) 1 true
  | some lim => linspace 0 lim 10 true

/-- core/base.py:248-258: the strains at which the law is sampled for `eps < 0`. -/
def gridNeg (call : StressCall) (ult : ℝ × ℝ) : List ℝ :=
  let r := call.onList (linspace 0 ult.1 searchCount true)
  match findXLim (r.2.map fun e => -e) (cutSmall (r.1.map fun s => -s)) with
  | none => linspace ult.1 0 1 false
  | some lim => linspace (-lim) 0 10 false

/-- core/base.py:221-266 `_discretize_law`.  The array `eps` of line 260 is changed in place by
`get_stress` before it is handed to `UserDefined`. -/
def discretize (call : StressCall) (ult : ℝ × ℝ) : Except PyErr UserDefined :=
  let r := call.onList (gridNeg call ult ++ gridPos call ult)
  UserDefined.new? r.2 r.1 none 0

/-- core/base.py:268-277 `__marin__` of a law that does not override it.  The discretised law receives
the caller's `strain` list, so the value left in `strain[0]` is returned too. -/
def baseMarin (call : StressCall) (ult : ℝ × ℝ) (e0 e1 : ℝ) : Except PyErr (MarinOut × ℝ) :=
  (discretize call ult).map fun d => d.marin e0 e1

/-- core/base.py:279-288 `__marin_tangent__` of a law that does not override it. -/
def baseMarinT (call : StressCall) (ult : ℝ × ℝ) (e0 e1 : ℝ) : Except PyErr (MarinOut × ℝ) :=
  (discretize call ult).map fun d => d.marinT e0 e1

/-- constitutive_laws/_sargin.py:13-115: no `__marin__`, so core/base.py:221-266 is inherited. -/
def Sargin.discretized (l : Sargin) : Except PyErr UserDefined :=
  discretize (fun n => l.getStressCall (ι := Fin n)) (l.ult false)

/-- constitutive_laws/_popovics.py:13-133: no `__marin__`, so core/base.py:221-266 is inherited. -/
def Popovics.discretized (l : Popovics) : Except PyErr UserDefined :=
  discretize (fun n => l.getStressCall (ι := Fin n)) (l.ult false)

/-- constitutive_laws/_parabolarectangle.py:126-129, 206-209: `super().__marin__` is used when `n != 2`. -/
def ParabolaRectangle.discretized (l : ParabolaRectangle) : Except PyErr UserDefined :=
  discretize (fun n => l.getStressCall (ι := Fin n)) (l.ult false)

/-- constitutive_laws/_parabolarectangle.py:112-190 `__marin__` for every exponent. -/
def ParabolaRectangle.marinAny (l : ParabolaRectangle) (e0 e1 : ℝ) : Except PyErr (MarinOut × ℝ) :=
  if l.n ≠ 2 then l.discretized.map fun d => d.marin e0 e1 else .ok (l.marin e0 e1)

/-- How a call of `__marin__` passes the strain: `law.__marin__(strain)`
(constitutive_laws/_parallel.py:198) or `law.__marin__(strain=strain)`
(section_integrators/_marin_integrator.py:99-101, constitutive_laws/_initial_strain.py:100-102). -/
inductive CallStyle
  | positional
  | keyword

/-- The signature of a law's `__marin__`: `(self, strain)` in the overriding classes (for example
constitutive_laws/_userdefined.py:137-139) or the inherited `(self, **kwargs)` of core/base.py:268, which rejects
positional arguments. -/
inductive MarinMethod
  | own (m : ℝ → ℝ → Except PyErr (MarinOut × ℝ))
  | inherited (m : ℝ → ℝ → Except PyErr (MarinOut × ℝ))

/-- Python's argument binding for the two signatures, core/base.py:268 and
constitutive_laws/_userdefined.py:137-139. -/
def MarinMethod.call (m : MarinMethod) (s : CallStyle) (e0 e1 : ℝ) : Except PyErr (MarinOut × ℝ) :=
  match m, s with
  | .own f, _ => f e0 e1
  | .inherited f, .keyword => f e0 e1
  | .inherited _, .positional => .error .typeError

/-- constitutive_laws/_parallel.py:196-198 (217-219 for the tangent): the loop over the wrapped laws, all
called with the same `strain` list in positional style; an exception ends the loop. -/
def collectCalls (ms : List MarinMethod) (e0 e1 : ℝ) : Except PyErr (List MarinOut × ℝ) :=
  match ms with
  | [] => .ok ([], e0)
  | m :: ms =>
    match m.call .positional e0 e1 with
    | .error e => .error e
    | .ok r =>
      match collectCalls ms r.2 e1 with
      | .error e => .error e
      | .ok rest => .ok (r.1 :: rest.1, rest.2)

/-- constitutive_laws/_parallel.py:181-200 `__marin__` (and 202-221) of a `Parallel` law over laws with the
given methods. -/
def parallelMarin (weights : List ℝ) (ms : List MarinMethod) (e0 e1 : ℝ) : Except PyErr MarinOut :=
  match collectCalls ms e0 e1 with
  | .error e => .error e
  | .ok c => Parallel.splitMarin weights c.1

/-- The `__marin__` methods of the laws, by class: constitutive_laws/_sargin.py:13-115 and
constitutive_laws/_popovics.py:13-133 inherit core/base.py:268-277; constitutive_laws/_parabolarectangle.py:112
overrides it. -/
def Sargin.marinMethod (l : Sargin) : MarinMethod :=
  .inherited (baseMarin (fun n => l.getStressCall (ι := Fin n)) (l.ult false))

/-- constitutive_laws/_popovics.py:13-133, core/base.py:268-277. -/
def Popovics.marinMethod (l : Popovics) : MarinMethod :=
  .inherited (baseMarin (fun n => l.getStressCall (ι := Fin n)) (l.ult false))

/-- constitutive_laws/_parabolarectangle.py:112-190. -/
def ParabolaRectangle.marinMethod (l : ParabolaRectangle) : MarinMethod := .own l.marinAny

end

end SC
