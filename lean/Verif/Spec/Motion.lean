import Verif.Spec.Strength

/-! # Specification vocabulary: rigid motions of a cross-section

Used by C72.  Nothing here refers to the modelled code. -/

set_option autoImplicit false

namespace SC.Spec

/-- A rigid motion of the plane of the section: mirror at the vertical axis (if `mirrored`), turn about the origin by `angle`, then
shift. -/
structure Motion where
  angle : ℝ
  mirrored : Bool
  shift : ℝ × ℝ

namespace Motion

/-- `-1` for a motion with mirroring. -/
def sign (m : Motion) : ℝ := if m.mirrored then -1 else 1

theorem sign_sq (m : Motion) : m.sign * m.sign = 1 := by unfold sign; split_ifs <;> norm_num

/-- Where a point goes. -/
noncomputable def point (m : Motion) (x : ℝ × ℝ) : ℝ × ℝ :=
  (Real.cos m.angle * (m.sign * x.1) - Real.sin m.angle * x.2 + m.shift.1,
    Real.sin m.angle * (m.sign * x.1) + Real.cos m.angle * x.2 + m.shift.2)

/-- Distances are kept. -/
theorem point_isometry (m : Motion) (x y : ℝ × ℝ) :
    ((m.point x).1 - (m.point y).1) ^ 2 + ((m.point x).2 - (m.point y).2) ^ 2 = (x.1 - y.1) ^ 2 + (x.2 - y.2) ^ 2 := by
  have h := Real.sin_sq_add_cos_sq m.angle
  have hs := m.sign_sq
  simp only [point]
  linear_combination ((x.2 - y.2) ^ 2 + m.sign * m.sign * (x.1 - y.1) ^ 2) * h + (x.1 - y.1) ^ 2 * hs

/-- Where an axis vector (curvature, moment) goes: a mirrored section bends to the other side. -/
noncomputable def turn (m : Motion) (v : ℝ × ℝ) : ℝ × ℝ :=
  (Real.cos m.angle * v.1 - Real.sin m.angle * (m.sign * v.2), Real.sin m.angle * v.1 + Real.cos m.angle * (m.sign * v.2))

/-- The moved strain plane. -/
noncomputable def plane (m : Motion) (e : Fin 3 → ℝ) : Fin 3 → ℝ :=
  ![e 0 - (m.turn (e 1, e 2)).1 * m.shift.2 + (m.turn (e 1, e 2)).2 * m.shift.1, (m.turn (e 1, e 2)).1, (m.turn (e 1, e 2)).2]

/-- It has at the moved point the strain the plane has at the point. -/
theorem plane_strain (m : Motion) (e : Fin 3 → ℝ) (x : ℝ × ℝ) :
    planeStrain (m.plane e) (m.point x).1 (m.point x).2 = planeStrain e x.1 x.2 := by
  have h := Real.sin_sq_add_cos_sq m.angle
  have hs := m.sign_sq
  simp only [planeStrain, plane, point, turn, Matrix.cons_val]
  linear_combination (e 1 * x.2 - m.sign * m.sign * e 2 * x.1) * h - e 2 * x.1 * hs

/-- The moved stress resultants: same axial force, moments turned, with the axial force at the shifted place. -/
noncomputable def forces (m : Motion) (F : Fin 3 → ℝ) : Fin 3 → ℝ :=
  ![F 0, (m.turn (F 1, F 2)).1 + F 0 * m.shift.2, (m.turn (F 1, F 2)).2 - F 0 * m.shift.1]

/-- They do the same work on the moved strains. -/
theorem work (m : Motion) (F e : Fin 3 → ℝ) : m.forces F 0 * m.plane e 0 + m.forces F 1 * m.plane e 1 + m.forces F 2 * m.plane e 2 =
    F 0 * e 0 + F 1 * e 1 + F 2 * e 2 := by
  have h := Real.sin_sq_add_cos_sq m.angle
  have hs := m.sign_sq
  simp only [forces, plane, turn, Matrix.cons_val]
  linear_combination (F 1 * e 1 + m.sign * m.sign * F 2 * e 2) * h + F 2 * e 2 * hs

/-- Inclination of the moved axis. -/
def inclination (m : Motion) (th : ℝ) : ℝ := m.angle + m.sign * th

theorem turn_axis (m : Motion) (c th : ℝ) : m.turn (c * Real.cos th, c * Real.sin th) =
    (c * Real.cos (m.inclination th), c * Real.sin (m.inclination th)) := by
  have hc : Real.cos (m.sign * th) = Real.cos th := by unfold sign; split_ifs <;> simp
  have hsn : Real.sin (m.sign * th) = m.sign * Real.sin th := by unfold sign; split_ifs <;> simp
  simp only [turn, inclination, Real.cos_add, Real.sin_add, hc, hsn, Prod.mk.injEq]
  constructor <;> ring

/-- Heights above the moved axis. -/
theorem height_point (m : Motion) (th : ℝ) (x : ℝ × ℝ) :
    height (m.inclination th) (m.point x) = height th x + height (m.inclination th) m.shift := by
  have hc : Real.cos (m.sign * th) = Real.cos th := by unfold sign; split_ifs <;> simp
  have hsn : Real.sin (m.sign * th) = m.sign * Real.sin th := by unfold sign; split_ifs <;> simp
  have h := Real.sin_sq_add_cos_sq m.angle
  have hs := m.sign_sq
  simp only [height, inclination, point, Real.cos_add, Real.sin_add, hc, hsn]
  linear_combination (x.2 * Real.cos th - m.sign * m.sign * x.1 * Real.sin th) * h - x.1 * Real.sin th * hs

end Motion

/-- The moved section. -/
noncomputable def CrossSection.moved (m : Motion) (s : CrossSection) : CrossSection where
  plates := s.plates.map fun p => { p with region := m.point '' p.region, outline := p.outline.map m.point }
  rods := s.rods.map fun r => { r with fibre := { r.fibre with y := (m.point (r.fibre.y, r.fibre.z)).1, z := (m.point (r.fibre.y, r.fibre.z)).2 } }

/-- The motion maps the section onto itself: the regions with their laws and the bars are permuted. -/
def CrossSection.SymmetricUnder (m : Motion) (s : CrossSection) : Prop :=
  ((s.moved m).plates.map fun p => (p.region, p.response)).Perm (s.plates.map fun p => (p.region, p.response)) ∧
  ((s.moved m).rods.map Rod.fibre).Perm (s.rods.map Rod.fibre)

/-- Mirror at the vertical line through `(a, 0)`. -/
def Motion.mirrorAt (a : ℝ) : Motion := ⟨0, true, (2 * a, 0)⟩

theorem Motion.mirrorAt_point (a : ℝ) (x : ℝ × ℝ) : (mirrorAt a).point x = (2 * a - x.1, x.2) := by
  simp [point, mirrorAt, sign]
  ring

end SC.Spec
