import Verif.Model.Loop
import Verif.Model.Balanced

/-!
# Equilibrium searches of GenericSectionCalculator

The section enters through `N eps_0 chi`, the axial force returned by
`integrate_strain_response_on_geometry(geom, [eps_0, chi, 0], ...)`; it is an arbitrary function, so
the theorems hold for both integrators and any section.  Simplification: integrations do not raise
here, and the data cache is left to `Model/Calculator.lean`.
-/

set_option autoImplicit false

namespace SC

noncomputable section

/-- Local variables of a bisection loop: the two ends, the residuals at the ends, the last
midpoint (`none` while `eps_0_c`/`chi_c` is unbound) and `it`. -/
structure BisState where
  a : ℝ
  da : ℝ
  b : ℝ
  db : ℝ
  c : Option ℝ
  it : ℕ

/-- sections/_generic.py:436 and 569: loop condition, `ITMAX = 100`. -/
def bisCond (s : BisState) : Prop := |s.da - s.db| > 1e-2 ∧ s.it < 100

open Classical in
/-- sections/_generic.py:437-455 (unknown `chi`) and 570-588 (unknown `eps_0`): loop body, with
`f` the residual `n_int - n` as a function of the unknown. -/
def bisBody (f : ℝ → ℝ) (s : BisState) : Except PyErr BisState :=
  let c := (s.a + s.b) / 2
  let dc := f c
  if dc * s.da < 0 then .ok ⟨s.a, s.da, c, dc, some c, s.it + 1⟩
  else .ok ⟨c, dc, s.b, s.db, some c, s.it + 1⟩

/-- sections/_generic.py:435-462 and 568-595: the whole bisection, from `it = 0` to the returned
midpoint; `none` = does not stop; the second component counts the integrations. -/
def bisection (f : ℝ → ℝ) (a da b db : ℝ) : Option (Except PyErr ℝ × ℕ) :=
  (pyWhile bisCond (bisBody f) ⟨a, da, b, db, none, 0⟩).map fun r =>
    (match r.1 with
      | .error e => .error e
      | .ok s =>
        if s.it ≥ 100 then .error .valueError
        else
          match s.c with
          | none => .error .unboundLocal
          | some c => .ok c,
      r.2)

/-- Local variables of the bracketing search; `b` is `(eps_0_b, dn_b)` once bound (it is bound
before use, the loop body runs at least once). -/
structure PreState where
  found : Bool
  it : ℕ
  restarts : ℕ
  delta : ℝ
  steps : ℕ
  b : ℝ × ℝ

/-- sections/_generic.py:490 loop condition, `ITMAX = MAXRESTATTEMPTS = 20`. -/
def preCond (s : PreState) : Prop := s.found = false ∧ s.it < 20 ∧ s.restarts < 20

open Classical in
/-- sections/_generic.py:481 `sign`. -/
def preSign (dnA : ℝ) : ℝ := if dnA > 0 then -1 else 1

open Classical in
/-- sections/_generic.py:491-520 loop body; `f eps_0 = N eps_0 curv - n`. -/
def preBody (f : ℝ → ℝ) (epsA dnA : ℝ) (s : PreState) : Except PyErr PreState :=
  let epsB := epsA + preSign dnA * s.delta * 2 ^ s.it
  let dnB := f epsB
  if dnA * dnB < 0 then .ok ⟨true, s.it + 1, s.restarts, s.delta, s.steps, (epsB, dnB)⟩
  else if |dnB| > |dnA| then
    if s.steps + 1 > 10 then .ok ⟨false, 0 + 1, s.restarts + 1, s.delta / 2, 0, (epsB, dnB)⟩
    else .ok ⟨false, s.it + 1, s.restarts, s.delta, s.steps + 1, (epsB, dnB)⟩
  else .ok ⟨false, s.it + 1, s.restarts, s.delta, s.steps, (epsB, dnB)⟩

/-- sections/_generic.py:479-489 initial values. -/
def preStart : PreState := ⟨false, 0, 0, 1e-3, 0, (0, 0)⟩

/-- sections/_generic.py:465-525 `_prefind_range_curvature_equilibrium`. -/
def prefind (f : ℝ → ℝ) (epsA dnA : ℝ) : Option (Except PyErr (ℝ × ℝ) × ℕ) :=
  (pyWhile preCond (preBody f epsA dnA) preStart).map fun r =>
    (match r.1 with
      | .error e => .error e
      | .ok s => if s.it ≥ 20 ∧ s.found = false then .error .valueError else .ok s.b,
      r.2)

open Classical in
/-- sections/_generic.py:527-595 `find_equilibrium_fixed_curvature`; the second component counts
the calls of the integrator. -/
def fixedCurvature (N : ℝ → ℝ → ℝ) (n curv eps0 : ℝ) :
    Option (Except PyErr (ℝ × ℝ × ℝ) × ℕ) :=
  let f := fun e => N e curv - n
  let dnA := f eps0
  if |dnA| ≤ 1e-2 then some (.ok (eps0, curv, 0), 1)
  else
    match prefind f eps0 dnA with
    | none => none
    | some (.error e, k) => some (.error e, k + 1)
    | some (.ok (epsB, dnB), k) =>
      (bisection f eps0 dnA epsB dnB).map fun r =>
        (match r.1 with
          | .error e => .error e
          | .ok c => .ok (c, curv, 0), r.2 + k + 1)

open Classical in
/-- sections/_generic.py:374-463 `find_equilibrium_fixed_pivot`, after the call of
`get_balanced_failure_strain`, whose result `(y_n, y_p, strain)` is an argument. -/
def fixedPivotFrom (N : ℝ → ℝ → ℝ) (n yn yp : ℝ) (strain : Fin 3 → ℝ) :
    Option (Except PyErr (ℝ × ℝ × ℝ) × ℕ) :=
  let eps_p := strain 0 + strain 1 * yp
  let eps_n := strain 0 + strain 1 * yn
  let nInt := N (strain 0) (strain 1)
  let chiA := strain 1
  let dnA := nInt - n
  if |dnA| ≤ 1e-2 then some (.ok (strain 0, chiA, 0), 1)
  else
    let chiB := -1e-13
    let pivot := if nInt < n then yp else yn
    let strainPivot := if nInt < n then eps_p else eps_n
    let eps0 := fun chi => strainPivot - chi * pivot
    let f := fun chi => N (eps0 chi) chi - n
    (bisection f chiA dnA chiB (f chiB)).map fun r =>
      (match r.1 with
        | .error e => .error e
        | .ok c => .ok (eps0 c, c, 0), r.2 + 2)

/-- sections/_generic.py:374-463 `find_equilibrium_fixed_pivot`. -/
def fixedPivot (N : ℝ → ℝ → ℝ) (parts : List Part) (rc yielding : Bool) (n : ℝ) :
    Option (Except PyErr (ℝ × ℝ × ℝ) × ℕ) :=
  match balancedFailure parts rc yielding with
  | .error e => some (.error e, 0)
  | .ok (yn, yp, strain) => fixedPivotFrom N n yn yp strain

end

end SC
