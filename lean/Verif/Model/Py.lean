import Mathlib.Analysis.SpecialFunctions.Pow.Real
import Mathlib.Tactic.Linarith
import Mathlib.Tactic.Positivity
import Mathlib.Tactic.FieldSimp
import Mathlib.Tactic.Ring
import Mathlib.Tactic.NormNum

/-!
# Python and numpy primitives used by the modelled code

Python floats are modelled by `ℝ` (no rounding, NaN or infinities; see DESIGN.md).
-/

namespace SC

/-- Python exception classes raised by the modelled code. -/
inductive PyErr
  | valueError | typeError | zeroDivision | runtimeError | unboundLocal
  | attributeError | stopIteration | notImplemented | indexError | keyError
  deriving DecidableEq, Repr

noncomputable section

/-- `np.isclose(a, b, atol=1e-6)` (numpy default `rtol = 1e-5`):
`|a - b| <= atol + rtol * |b|`.  Used in structuralcodes/core/base.py:209-217. -/
def isclose (a b : ℝ) : Prop := |a - b| ≤ 1e-6 + 1e-5 * |b|

/-- numpy arrays of any shape are functions from an index type.
`maskSet m v a` is the array after `a[m] = v[m]` (numpy boolean-mask assignment). -/
def maskSet {ι : Type*} (m : ι → Prop) (v a : ι → ℝ) : ι → ℝ :=
  open Classical in
  fun i => if m i then v i else a i

/-- `np.linspace(a, b, n, endpoint)` as a list of `n` reals (numpy: `a + i*step`,
`step = (b-a)/(n-1)` with endpoint and `n > 1`, `(b-a)/n` without endpoint; the last
sample is set to `b` exactly when `endpoint` and `n > 1`, which is the same real number). -/
def linspace (a b : ℝ) (n : ℕ) (endpoint : Bool) : List ℝ :=
  let step := if endpoint then (b - a) / ((n : ℝ) - 1) else (b - a) / n
  (List.range n).map fun i : ℕ => if endpoint && n == 1 then a else a + (i : ℝ) * step

/-- Inner search of `np.interp`, for `x` not left of the first node: find the segment
`xp[j] <= x < xp[j+1]`; value `slope*(x - xp[j]) + fp[j]`; `x` equal to the last node gives
the last ordinate; beyond it, `right`. -/
def interpGo (x right : ℝ) : List (ℝ × ℝ) → ℝ
  | [] => right
  | [(a, b)] => if x = a then b else right
  | (a, b) :: (c, d) :: rest =>
      if x < c then (d - b) / (c - a) * (x - a) + b else interpGo x right ((c, d) :: rest)

/-- `np.interp(x, xp, fp, left, right)` for increasing nodes, nodes given as pairs. -/
def interp (x : ℝ) (pts : List (ℝ × ℝ)) (left right : ℝ) : ℝ :=
  match pts with
  | [] => right
  | (a, b) :: rest => if x < a then left else interpGo x right ((a, b) :: rest)

/-- `np.searchsorted(xs, x)` (side = 'left'): the number of entries strictly below `x`
for a sorted list. -/
def searchsorted (xs : List ℝ) (x : ℝ) : ℕ :=
  match xs with
  | [] => 0
  | a :: rest => if a < x then searchsorted rest x + 1 else 0

/-- Python `a or b` for floats: `a` unless it is `None` or `0`. -/
def orDefault (a : Option ℝ) (b : ℝ) : ℝ :=
  match a with
  | none => b
  | some v => if v = 0 then b else v

end

end SC
