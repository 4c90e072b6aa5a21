import Verif.Model.Py

/-! # Strings given by the user, as lists of characters

`upper()`, `lower()` and `strip()` on ASCII text. -/

set_option autoImplicit false

namespace SC

/-- `s.upper()` (ASCII). -/
def pyUpper (s : List Char) : List Char := s.map Char.toUpper
/-- `s.lower()` (ASCII). -/
def pyLower (s : List Char) : List Char := s.map Char.toLower
/-- `s.strip()`. -/
def pyStrip (s : List Char) : List Char :=
  ((s.dropWhile Char.isWhitespace).reverse.dropWhile Char.isWhitespace).reverse

/-- Python division of floats: `ZeroDivisionError` for a zero divisor. -/
noncomputable def pyDiv (a b : ℝ) : Except PyErr ℝ :=
  open Classical in if b = 0 then .error .zeroDivision else .ok (a / b)

theorem pyDiv_ok {a b : ℝ} (h : b ≠ 0) : pyDiv a b = .ok (a / b) := by simp [pyDiv, h]

theorem pyDiv_eq_ok {a b r : ℝ} : pyDiv a b = .ok r ↔ b ≠ 0 ∧ a / b = r := by
  unfold pyDiv; split_ifs with h <;> simp [h]

theorem pyDiv_eq_error {a b : ℝ} {e : PyErr} : pyDiv a b = .error e ↔ b = 0 ∧ e = .zeroDivision := by
  unfold pyDiv; split_ifs with h <;> simp [h, eq_comm]

/-- Failure of a sequence of two steps. -/
theorem except_bind_error {ε α β : Type} {x : Except ε α} {f : α → Except ε β} {e : ε} :
    (x >>= f) = .error e ↔ x = .error e ∨ ∃ a, x = .ok a ∧ f a = .error e := by
  cases x <;> simp [bind, Except.bind]

theorem except_pure_error {ε α : Type} {a : α} {e : ε} : (pure a : Except ε α) = .error e ↔ False := by
  simp [pure, Except.pure]

/-- Success of a sequence of two steps. -/
theorem except_bind_ok {ε α β : Type} {x : Except ε α} {f : α → Except ε β} {r : β} :
    (x >>= f) = .ok r ↔ ∃ a, x = .ok a ∧ f a = .ok r := by
  cases x <;> simp [bind, Except.bind]

theorem except_pure_ok {ε α : Type} {a r : α} : (pure a : Except ε α) = .ok r ↔ a = r := by
  simp [pure, Except.pure]

end SC
