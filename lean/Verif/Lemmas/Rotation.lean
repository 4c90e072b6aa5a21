import Verif.Model.MarinIntegrator

set_option autoImplicit false

namespace SC

theorem rotPt_neg (a : ℝ) (p : ℝ × ℝ) : rotPt (-a) (rotPt a p) = p := by
  have h := Real.sin_sq_add_cos_sq a
  ext
  · simp only [rotPt, Real.cos_neg, Real.sin_neg]
    linear_combination p.1 * h
  · simp only [rotPt, Real.cos_neg, Real.sin_neg]
    linear_combination p.2 * h

theorem rotPt_zero (p : ℝ × ℝ) : rotPt 0 p = p := by
  simp [rotPt]

theorem rotPt_add (a b : ℝ) (p : ℝ × ℝ) : rotPt a (rotPt b p) = rotPt (a + b) p := by
  ext
  · simp only [rotPt, Real.cos_add, Real.sin_add]; ring
  · simp only [rotPt, Real.cos_add, Real.sin_add]; ring

theorem rotGroup_neg (a : ℝ) (g : Group) : rotGroup (-a) (rotGroup a g) = g := by
  cases g with
  | mk pts law =>
    simp only [rotGroup, List.map_map, Group.mk.injEq, and_true]
    conv_rhs => rw [← List.map_id pts]
    apply List.map_congr_left
    intro p _
    have := rotPt_neg a (p.1, p.2.1)
    simp only [Function.comp_apply, id]
    rw [Prod.mk.eta, this]

theorem rotGroups_neg (a : ℝ) (d : List Group) : (d.map (rotGroup a)).map (rotGroup (-a)) = d := by
  rw [List.map_map]
  conv_rhs => rw [← List.map_id d]
  apply List.map_congr_left
  intro g _
  exact rotGroup_neg a g

/-- The strain along the rotated ordinate is the plane strain. -/
theorem rot_strain (e1 e2 y z : ℝ) :
    Real.sqrt (e2 ^ 2 + e1 ^ 2) * (rotPt (-atan2 e2 e1) (y, z)).2 = e1 * z - e2 * y := by
  have hn : ‖(⟨e1, e2⟩ : ℂ)‖ = Real.sqrt (e2 ^ 2 + e1 ^ 2) := by
    rw [Complex.norm_def, Complex.normSq_mk]
    congr 1
    ring
  have hc := Complex.norm_mul_cos_arg (⟨e1, e2⟩ : ℂ)
  have hs := Complex.norm_mul_sin_arg (⟨e1, e2⟩ : ℂ)
  rw [hn] at hc hs
  simp only at hc hs
  simp only [rotPt, atan2, Real.cos_neg, Real.sin_neg]
  linear_combination z * hc - y * hs

/-- Rotating a bar keeps its law; grouping commutes with rotation. -/
theorem insertBar_rotate (a : ℝ) (d : List Group) (b : Bar) :
    insertBar (d.map (rotGroup a)) (b.rotate a) = (insertBar d b).map (rotGroup a) := by
  induction d with
  | nil => simp [insertBar, rotGroup, Bar.rotate]
  | cons g d ih =>
    simp only [List.map_cons, insertBar]
    have : (rotGroup a g).law.id = g.law.id := rfl
    rw [this]
    have : (b.rotate a).law.id = b.law.id := rfl
    rw [this]
    split_ifs with h
    · simp [rotGroup, Bar.rotate]
    · simp [ih]

theorem groupBars_rotate (a : ℝ) (bars : List Bar) :
    groupBars (bars.map (Bar.rotate a)) = (groupBars bars).map (rotGroup a) := by
  unfold groupBars
  suffices H : ∀ d : List Group, (bars.map (Bar.rotate a)).foldl insertBar (d.map (rotGroup a)) =
      (bars.foldl insertBar d).map (rotGroup a) from H []
  induction bars with
  | nil => intro d; rfl
  | cons b bars ih =>
    intro d
    simp only [List.map_cons, List.foldl_cons, insertBar_rotate, ih]

theorem marinForces_append (a : ℝ) (l l' : List Item) :
    marinForces a (l ++ l') = marinForces a l + marinForces a l' := by
  funext i
  simp only [marinForces, List.map_append, List.sum_append, Pi.add_apply]
  fin_cases i <;> simp <;> ring

theorem marinStiffness_append (a : ℝ) (l l' : List Item) :
    marinStiffness a (l ++ l') = marinStiffness a l + marinStiffness a l' := by
  simp only [marinStiffness, List.map_append, List.sum_append, Pi.add_apply]
  rw [← Matrix.add_mul, ← Matrix.mul_add]
  congr 2
  ext i j
  fin_cases i <;> fin_cases j <;> simp

theorem marinForces_nil (a : ℝ) : marinForces a [] = 0 := by
  funext i
  fin_cases i <;> simp [marinForces]

theorem marinStiffness_nil (a : ℝ) : marinStiffness a [] = 0 := by
  have : (!![(0:ℝ), 0, 0; 0, 0, 0; 0, 0, 0]) = 0 := by
    ext i j
    fin_cases i <;> fin_cases j <;> simp
  simp [marinStiffness, this]

/-- Rotated points carrying forces: the moments rotated back are the original ones. -/
theorem marinForces_points (a : ℝ) (L : List (ℝ × ℝ × ℝ)) :
    marinForces a [.points (L.map fun p =>
      ((rotPt a (p.1, p.2.1)).1, (rotPt a (p.1, p.2.1)).2, p.2.2))] = fiberStress L := by
  have h := Real.sin_sq_add_cos_sq a
  induction L with
  | nil =>
    funext i
    fin_cases i <;> simp [marinForces, itemForces, fiberStress]
  | cons p L ih =>
    funext i
    have i0 := congrFun ih 0
    have i1 := congrFun ih 1
    have i2 := congrFun ih 2
    simp only [marinForces, itemForces, fiberStress, List.map_cons, List.map_nil, List.sum_cons,
      List.sum_nil, add_zero, Matrix.cons_val, Real.cos_neg, Real.sin_neg] at i0 i1 i2 ⊢
    fin_cases i
    · simp only [Fin.zero_eta, Matrix.cons_val]
      linear_combination i0
    · simp only [Fin.mk_one, Matrix.cons_val, rotPt] at i1 ⊢
      linear_combination i1 + p.2.2 * p.2.1 * h
    · simp only [Fin.reduceFinMk, Matrix.cons_val, rotPt] at i2 ⊢
      linear_combination i2 - p.2.2 * p.1 * h

theorem marinStiffness_points (a : ℝ) (L : List (ℝ × ℝ × ℝ)) :
    marinStiffness a [.points (L.map fun p =>
      ((rotPt a (p.1, p.2.1)).1, (rotPt a (p.1, p.2.1)).2, p.2.2))] = fiberModulus L := by
  have h := Real.sin_sq_add_cos_sq a
  have hs : Real.sin a ^ 2 = 1 - Real.cos a ^ 2 := by linarith
  induction L with
  | nil =>
    ext i j
    fin_cases i <;> fin_cases j <;>
      simp [marinStiffness, itemStiffness, fiberModulus, Matrix.mul_apply, Fin.sum_univ_three]
  | cons p L ih =>
    ext i j
    have ih := congrFun (congrFun ih i) j
    fin_cases i <;> fin_cases j <;>
      simp [marinStiffness, itemStiffness, fiberModulus, Matrix.mul_apply, Fin.sum_univ_three,
        rotPt] at ih ⊢
    · linear_combination ih
    · linear_combination ih + p.2.2 * p.2.1 * h
    · linear_combination ih - p.2.2 * p.1 * h
    · linear_combination ih + p.2.2 * p.2.1 * h
    · linear_combination ih + p.2.2 * p.2.1 * p.2.1 * h * (1 + Real.sin a ^ 2 + Real.cos a ^ 2)
    · linear_combination ih - p.2.2 * p.1 * p.2.1 * h * (1 + Real.sin a ^ 2 + Real.cos a ^ 2)
    · linear_combination ih - p.2.2 * p.1 * h
    · linear_combination ih - p.2.2 * p.1 * p.2.1 * h * (1 + Real.sin a ^ 2 + Real.cos a ^ 2)
    · linear_combination ih + p.2.2 * p.1 * p.1 * h * (1 + Real.sin a ^ 2 + Real.cos a ^ 2)

end SC
