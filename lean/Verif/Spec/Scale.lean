import Verif.Spec.Maximum

/-! # Specification vocabulary: another unit of length or stress, or a section of the same shape and another size

Used by C90.  Nothing here refers to the modelled code. -/

set_option autoImplicit false

namespace SC.Spec

/-- Lengths are multiplied by `len`, stresses by `stress`. -/
structure Scale where
  len : ℝ
  stress : ℝ
  len_pos : 0 < len
  stress_pos : 0 < stress

namespace Scale

/-- Where a point goes. -/
def point (s : Scale) (x : ℝ × ℝ) : ℝ × ℝ := (s.len * x.1, s.len * x.2)

/-- The scaled strain plane: strains are the same at scaled points. -/
noncomputable def plane (s : Scale) (e : Fin 3 → ℝ) : Fin 3 → ℝ := ![e 0, e 1 / s.len, e 2 / s.len]

theorem plane_strain (s : Scale) (e : Fin 3 → ℝ) (x : ℝ × ℝ) :
    planeStrain (s.plane e) (s.point x).1 (s.point x).2 = planeStrain e x.1 x.2 := by
  have := s.len_pos.ne'
  simp only [planeStrain, plane, point, Matrix.cons_val]
  field_simp

/-- The scaled forces: axial force as stress times length squared, moments as stress times length cubed. -/
noncomputable def forces (s : Scale) (F : Fin 3 → ℝ) : Fin 3 → ℝ :=
  ![s.stress * s.len ^ 2 * F 0, s.stress * s.len ^ 3 * F 1, s.stress * s.len ^ 3 * F 2]

theorem height_point (s : Scale) (th : ℝ) (x : ℝ × ℝ) : height th (s.point x) = s.len * height th x := by
  simp only [height, point]; ring

end Scale

/-- The scaled section. -/
noncomputable def CrossSection.scaled (s : Scale) (S : CrossSection) : CrossSection where
  plates := S.plates.map fun p => { p with
    region := s.point '' p.region, outline := p.outline.map s.point, response := fun e => s.stress * p.response e }
  rods := S.rods.map fun r => { r with
    fibre := ⟨s.len * r.fibre.y, s.len * r.fibre.z, s.len ^ 2 * r.fibre.A, fun e => s.stress * r.fibre.resp e⟩ }

end SC.Spec
