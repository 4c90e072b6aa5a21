import Verif.Model.MarinLaws
import Mathlib.Data.Finset.Sort
import Mathlib.Data.List.Sort

/-!
# Model of structuralcodes/materials/constitutive_laws/_parallel.py
-/

set_option autoImplicit false

namespace SC

noncomputable section

open Classical

/-- What `Parallel` uses of a wrapped law: its scalar methods, what an array call returns and
what it leaves in the caller's array (see `getStressCall` in `Model/Laws`), and its Marin
methods (with the value left in `strain[0]`). -/
structure FullLaw where
  law : Law
  stressCall : ∀ ι : Type, (ι → ℝ) → (ι → ℝ) × (ι → ℝ)
  marin : ℝ → ℝ → MarinOut × ℝ
  marinT : ℝ → ℝ → MarinOut × ℝ

/-- State of a `Parallel` law, constitutive_laws/_parallel.py:24-60. -/
structure Parallel where
  laws : List FullLaw
  weights : List ℝ

/-- An element of the `constitutive_laws` argument: a law, or some other object. -/
inductive LawArg
  | law (l : FullLaw)
  | other

/-- constitutive_laws/_parallel.py:44-49 `isinstance(law, ConstitutiveLaw)`. -/
def LawArg.toLaw? : LawArg → Option FullLaw
  | .law l => some l
  | .other => none

/-- constitutive_laws/_parallel.py:24-60 `__init__`. -/
def Parallel.new? (laws : List LawArg) (weights : Option (List ℝ)) : Except PyErr Parallel :=
  match laws.mapM LawArg.toLaw? with
  | none => .error .typeError
  | some ls =>
    match weights with
    | none => .ok ⟨ls, List.replicate ls.length 1⟩
    | some w => if w.length ≠ ls.length then .error .valueError else .ok ⟨ls, w⟩

namespace Parallel

/-- constitutive_laws/_parallel.py:72-81 `get_stress`, scalar: `stress = 0 * eps` and the loop
`stress += weight * law.get_stress(eps)`. -/
def stress (p : Parallel) (eps : ℝ) : ℝ :=
  (p.weights.zip p.laws).foldl (fun s wl => s + wl.1 * wl.2.law.stress eps) (0 * eps)

/-- constitutive_laws/_parallel.py:83-91 `get_tangent`, scalar. -/
def tangent (p : Parallel) (eps : ℝ) : ℝ :=
  (p.weights.zip p.laws).foldl (fun s wl => s + wl.1 * wl.2.law.tangent eps) (0 * eps)

/-- constitutive_laws/_parallel.py:72-81 `get_stress`, array.  All wrapped laws receive the same
array object, so a law that modifies its argument changes what the next law sees.  Returns the
result and the final content of the caller's array. -/
def stressCall (p : Parallel) (ι : Type) (eps : ι → ℝ) : (ι → ℝ) × (ι → ℝ) :=
  (p.weights.zip p.laws).foldl
    (fun (acc : (ι → ℝ) × (ι → ℝ)) wl =>
      let r := wl.2.stressCall ι acc.2
      (fun i => acc.1 i + wl.1 * r.1 i, r.2))
    (fun i => 0 * eps i, eps)

/-- constitutive_laws/_parallel.py:223-232 `get_ultimate_strain`.  The initial infinities are
modelled by `none`: without laws Python returns `(inf, -inf)`. -/
def ult (p : Parallel) (yielding : Bool) : Option (ℝ × ℝ) :=
  p.laws.foldl
    (fun acc l =>
      let u := l.law.ult yielding
      match acc with
      | none => some u
      | some a => some (min a.1 u.1, max a.2 u.2)) none

/-- constitutive_laws/_parallel.py:98-110: the sorted set of all range ends. -/
def breakpoints (outs : List MarinOut) : List ℝ :=
  ((outs.flatMap fun o => (o.ranges.getD []).flatMap fun r => [r.1, r.2]).toFinset).sort (· ≤ ·)

/-- constitutive_laws/_parallel.py:113-116: consecutive pairs. -/
def consecutive : List ℝ → List (ℝ × ℝ)
  | a :: b :: l => (a, b) :: consecutive (b :: l)
  | _ => []

/-- constitutive_laws/_parallel.py:140-156.  The pointer `j` only moves forward, so it is
modelled by the part of the sorted list from `j` on. -/
def mapCoeffs : List ((ℝ × ℝ) × List ℝ) → List (ℝ × ℝ) → List (List ℝ)
  | _, [] => []
  | rem, r :: rs =>
    let rem' := rem.dropWhile fun rc => decide (r.2 > rc.1.2)
    (match rem' with
      | rc :: _ => if r.1 ≥ rc.1.1 ∧ r.2 ≤ rc.1.2 then rc.2 else []
      | [] => []) :: mapCoeffs rem' rs

/-- constitutive_laws/_parallel.py:121-157: the coefficients of one law on the refined ranges.
`coeffs[0]` on an empty list raises IndexError; `zip(*[])` cannot be unpacked (ValueError). -/
def lawMap (o : MarinOut) (refined : List (ℝ × ℝ)) : Except PyErr (List (List ℝ)) :=
  match o.ranges with
  | none =>
    match o.coeffs with
    | [] => .error .indexError
    | c :: _ => if refined.length = 0 then .ok [c] else .ok (List.replicate refined.length c)
  | some rs =>
    let zipped := (rs.zip o.coeffs).mergeSort fun a b => decide (a.1.1 ≤ b.1.1)
    if zipped = [] then .error .valueError else .ok (mapCoeffs zipped refined)

/-- constitutive_laws/_parallel.py:173-175: `total[k] += c[k]` for all `k < len(c)` (`c` is never
longer than `total`). -/
def addInto : List ℝ → List ℝ → List ℝ
  | t :: ts, c :: cs => (t + c) :: addInto ts cs
  | ts, [] => ts
  | [], _ :: _ => []

/-- constitutive_laws/_parallel.py:165-176: one combined coefficient list.  `(weight, law_map[i])`
for all laws; an empty `law_map[i]` contributes nothing. -/
def combine (wcs : List (ℝ × List ℝ)) : List ℝ :=
  let coeffsLaw := wcs.map fun wc => wc.2.map fun c => wc.1 * c
  let maxLen := (coeffsLaw.map List.length).foldl max 0
  coeffsLaw.foldl addInto (List.replicate maxLen 0)

/-- constitutive_laws/_parallel.py:93-179 `_split_marin`.  `law_map[i]` (line 167) raises
IndexError when a law's map is too short, which happens only if there is no refined range. -/
def splitMarin (weights : List ℝ) (outs : List MarinOut) : Except PyErr MarinOut :=
  let refined := consecutive (breakpoints outs)
  match outs.mapM (fun o => lawMap o refined) with
  | .error e => .error e
  | .ok maps =>
    if maps.any (fun m => decide (m.length < max refined.length 1)) then .error .indexError else
    let coeffs := (List.range (max refined.length 1)).map fun i =>
      combine (weights.zip (maps.map fun m => m.getD i []))
    .ok ⟨if refined.length = 0 then none else some refined, coeffs⟩

/-- constitutive_laws/_parallel.py:196-198 / 217-219: the wrapped laws are called one after the
other with the same `strain` list, so a law that assigns `strain[0]` changes what the following
ones see.  Returns the outputs and the final `strain[0]`. -/
def collect (ms : List (ℝ → ℝ → MarinOut × ℝ)) (e0 e1 : ℝ) : List MarinOut × ℝ :=
  match ms with
  | [] => ([], e0)
  | m :: ms =>
    let r := m e0 e1
    let rest := collect ms r.2 e1
    (r.1 :: rest.1, rest.2)

/-- constitutive_laws/_parallel.py:181-200 `__marin__`. -/
def marin (p : Parallel) (e0 e1 : ℝ) : Except PyErr MarinOut × ℝ :=
  let c := collect (p.laws.map FullLaw.marin) e0 e1
  (splitMarin p.weights c.1, c.2)

/-- constitutive_laws/_parallel.py:202-221 `__marin_tangent__`. -/
def marinT (p : Parallel) (e0 e1 : ℝ) : Except PyErr MarinOut × ℝ :=
  let c := collect (p.laws.map FullLaw.marinT) e0 e1
  (splitMarin p.weights c.1, c.2)

end Parallel

end

end SC
