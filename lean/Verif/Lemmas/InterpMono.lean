import Verif.Model.Py

/-! # Monotonicity of `np.interp` for monotone tables -/

set_option autoImplicit false

namespace SC

/-- A table with increasing abscissae and non-increasing ordinates, all at least `r`. -/
def Falling (r : ℝ) : List (ℝ × ℝ) → Prop
  | [] => True
  | [(_, b)] => r ≤ b
  | (a, b) :: (c, d) :: rest => a < c ∧ d ≤ b ∧ Falling r ((c, d) :: rest)

/-- A table with increasing abscissae and non-decreasing ordinates, all at most `r`. -/
def Rising (r : ℝ) : List (ℝ × ℝ) → Prop
  | [] => True
  | [(_, b)] => b ≤ r
  | (a, b) :: (c, d) :: rest => a < c ∧ b ≤ d ∧ Rising r ((c, d) :: rest)

theorem Falling.le_head {r : ℝ} (a b : ℝ) (rest : List (ℝ × ℝ)) (h : Falling r ((a, b) :: rest)) : r ≤ b := by
  induction rest generalizing a b with
  | nil => exact h
  | cons p rest ih => obtain ⟨c, d⟩ := p; exact (ih c d h.2.2).trans h.2.1

theorem interpGo_bounds {r x : ℝ} (a b : ℝ) (rest : List (ℝ × ℝ)) (h : Falling r ((a, b) :: rest)) (hx : a ≤ x) :
    r ≤ interpGo x r ((a, b) :: rest) ∧ interpGo x r ((a, b) :: rest) ≤ b := by
  induction rest generalizing a b with
  | nil => simp only [interpGo]; split_ifs <;> exact ⟨by first | exact h | exact le_rfl, by first | exact le_rfl | exact h⟩
  | cons p rest ih =>
    obtain ⟨c, d⟩ := p
    obtain ⟨hac, hdb, hr⟩ := h
    have hd := Falling.le_head c d rest hr
    simp only [interpGo]
    split_ifs with hc
    · have h1 : 0 < c - a := by linarith
      have e : (d - b) / (c - a) * (x - a) + b = b - (b - d) * ((x - a) / (c - a)) := by field_simp; ring
      have h2 : 0 ≤ (x - a) / (c - a) := div_nonneg (by linarith) h1.le
      have h3 : (x - a) / (c - a) ≤ 1 := (div_le_one h1).2 (by linarith)
      rw [e]
      constructor <;> nlinarith
    · obtain ⟨h1, h2⟩ := ih c d hr (not_lt.1 hc)
      exact ⟨h1, h2.trans hdb⟩

theorem interpGo_anti {r x y : ℝ} (a b : ℝ) (rest : List (ℝ × ℝ)) (h : Falling r ((a, b) :: rest)) (hx : a ≤ x)
    (hxy : x ≤ y) : interpGo y r ((a, b) :: rest) ≤ interpGo x r ((a, b) :: rest) := by
  induction rest generalizing a b with
  | nil =>
    have hb : r ≤ b := h
    simp only [interpGo]
    split_ifs with h1 h2
    · exact le_rfl
    · exact absurd (le_antisymm (by linarith) hx) h2
    · exact hb
    · exact le_rfl
  | cons p rest ih =>
    obtain ⟨c, d⟩ := p
    have hf := h
    obtain ⟨hac, hdb, hr⟩ := h
    simp only [interpGo]
    split_ifs with hy hx' hx'
    · have h1 : 0 < c - a := by linarith
      have : (d - b) / (c - a) ≤ 0 := div_nonpos_of_nonpos_of_nonneg (by linarith) h1.le
      nlinarith
    · exact absurd (hxy.trans_lt hy) hx'
    · have h1 : 0 < c - a := by linarith
      have e : (d - b) / (c - a) * (x - a) + b = d + (b - d) * ((c - x) / (c - a)) := by field_simp; ring
      have h2 : 0 ≤ (c - x) / (c - a) := div_nonneg (by linarith) h1.le
      have := (interpGo_bounds c d rest hr (not_lt.1 hy)).2
      rw [e]; nlinarith
    · exact ih c d hr (not_lt.1 hx')

theorem interp_anti {l r x y : ℝ} (a b : ℝ) (rest : List (ℝ × ℝ)) (h : Falling r ((a, b) :: rest)) (hl : b ≤ l)
    (hxy : x ≤ y) : interp y ((a, b) :: rest) l r ≤ interp x ((a, b) :: rest) l r := by
  simp only [interp]
  split_ifs with hy hx hx
  · exact le_rfl
  · exact absurd (hxy.trans_lt hy) hx
  · exact (interpGo_bounds a b rest h (not_lt.1 hy)).2.trans hl
  · exact interpGo_anti a b rest h (not_lt.1 hx) hxy

theorem interp_fall_bounds {l r x : ℝ} (a b : ℝ) (rest : List (ℝ × ℝ)) (h : Falling r ((a, b) :: rest)) (hl : b ≤ l) :
    r ≤ interp x ((a, b) :: rest) l r ∧ interp x ((a, b) :: rest) l r ≤ l := by
  simp only [interp]
  split_ifs with hx
  · exact ⟨(Falling.le_head a b rest h).trans hl, le_rfl⟩
  · obtain ⟨h1, h2⟩ := interpGo_bounds a b rest h (not_lt.1 hx)
    exact ⟨h1, h2.trans hl⟩

/-! Rising tables: change the sign of the ordinates. -/

def negOrd (p : ℝ × ℝ) : ℝ × ℝ := (p.1, -p.2)

theorem interpGo_neg (x r : ℝ) (pts : List (ℝ × ℝ)) : interpGo x (-r) (pts.map negOrd) = -interpGo x r pts := by
  induction pts with
  | nil => rfl
  | cons p rest ih =>
    obtain ⟨a, b⟩ := p
    cases rest with
    | nil => simp only [List.map, negOrd, interpGo]; split_ifs <;> rfl
    | cons q rest =>
      obtain ⟨c, d⟩ := q
      simp only [List.map_cons, negOrd, interpGo] at ih ⊢
      split_ifs
      · ring
      · exact ih

theorem interp_neg (x l r : ℝ) (pts : List (ℝ × ℝ)) : interp x (pts.map negOrd) (-l) (-r) = -interp x pts l r := by
  cases pts with
  | nil => rfl
  | cons p rest =>
    have := interpGo_neg x r (p :: rest)
    simp only [List.map_cons, negOrd, interp] at this ⊢
    split_ifs
    · rfl
    · exact this

theorem Rising.neg {r : ℝ} (pts : List (ℝ × ℝ)) (h : Rising r pts) : Falling (-r) (pts.map negOrd) := by
  induction pts with
  | nil => trivial
  | cons p rest ih =>
    obtain ⟨a, b⟩ := p
    cases rest with
    | nil => simp only [List.map, negOrd, Falling]; have : b ≤ r := h; linarith
    | cons q rest =>
      obtain ⟨c, d⟩ := q
      obtain ⟨h1, h2, h3⟩ := h
      refine ⟨h1, ?_, ih h3⟩
      simp only; linarith

theorem interp_mono {l r x y : ℝ} (a b : ℝ) (rest : List (ℝ × ℝ)) (h : Rising r ((a, b) :: rest)) (hl : l ≤ b)
    (hxy : x ≤ y) : interp x ((a, b) :: rest) l r ≤ interp y ((a, b) :: rest) l r := by
  have := interp_anti (l := -l) a (-b) (rest.map negOrd) (Rising.neg _ h) (by linarith) hxy
  have e1 := interp_neg x l r ((a, b) :: rest)
  have e2 := interp_neg y l r ((a, b) :: rest)
  simp only [List.map_cons, negOrd] at e1 e2
  rw [e1, e2] at this
  linarith

theorem interp_rise_bounds {l r x : ℝ} (a b : ℝ) (rest : List (ℝ × ℝ)) (h : Rising r ((a, b) :: rest)) (hl : l ≤ b) :
    l ≤ interp x ((a, b) :: rest) l r ∧ interp x ((a, b) :: rest) l r ≤ r := by
  have := interp_fall_bounds (l := -l) (x := x) a (-b) (rest.map negOrd) (Rising.neg _ h) (by linarith)
  have e1 := interp_neg x l r ((a, b) :: rest)
  simp only [List.map_cons, negOrd] at e1
  rw [e1] at this
  constructor <;> linarith [this.1, this.2]

end SC
