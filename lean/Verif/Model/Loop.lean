import Verif.Model.Py

/-!
# Semantics of `while` loops

`pyWhile cond body s` is the outcome of `while cond: body` started in state `s`:
`none` when the loop never stops, otherwise the final result together with the number of
executions of the body.  No fuel appears in the models that use it; whether a loop stops is a
theorem, not an assumption.
-/

set_option autoImplicit false

namespace SC

noncomputable section

open Classical in
/-- At most `fuel` executions of the body; `none` when the loop has not stopped by then. -/
def whileFuel {σ : Type} (cond : σ → Prop) (body : σ → Except PyErr σ) :
    ℕ → σ → Option (Except PyErr σ × ℕ)
  | 0, s => if cond s then none else some (.ok s, 0)
  | f + 1, s =>
    if cond s then
      match body s with
      | .error e => some (.error e, 1)
      | .ok s' => (whileFuel cond body f s').map fun r => (r.1, r.2 + 1)
    else some (.ok s, 0)

open Classical in
/-- The Python statement `while cond: body`. -/
def pyWhile {σ : Type} (cond : σ → Prop) (body : σ → Except PyErr σ) (s : σ) :
    Option (Except PyErr σ × ℕ) :=
  if h : ∃ f, (whileFuel cond body f s).isSome then whileFuel cond body (Nat.find h) s else none

end

end SC
