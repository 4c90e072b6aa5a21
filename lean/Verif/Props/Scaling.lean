import Verif.Spec.Scale
import Verif.Props.MaximumResults
import Verif.Props.Motion
import Mathlib.MeasureTheory.Measure.Haar.NormedSpace

/-! # C90: another unit of length or stress, another size -/

set_option autoImplicit false

namespace SC

open Spec MeasureTheory
open scoped Pointwise

theorem scale_image (s : Scale) (R : Set (ℝ × ℝ)) : s.point '' R = s.len • R := by
  rw [← Set.image_smul]
  rfl

theorem integral_scaled (s : Scale) (R : Set (ℝ × ℝ)) (f : ℝ × ℝ → ℝ) :
    ∫ x in s.point '' R, f x = s.len ^ 2 * ∫ x in R, f (s.point x) := by
  have hm : Measure.IsAddHaarMeasure (volume : Measure (ℝ × ℝ)) := Measure.prod.instIsAddHaarMeasure _ _
  have h := Measure.setIntegral_comp_smul (volume : Measure (ℝ × ℝ)) f R s.len_pos.ne'
  have e : ∀ x : ℝ × ℝ, s.len • x = s.point x := fun x => rfl
  simp only [e] at h
  rw [scale_image, h]
  have hd : Module.finrank ℝ (ℝ × ℝ) = 2 := by simp
  have hp := pow_pos s.len_pos 2
  rw [hd, abs_of_pos (inv_pos.2 hp), smul_eq_mul, mul_inv_cancel_left₀ hp.ne']

/-- **C90** (regions). Area moments scale with the length to the power of their degree plus two. -/
theorem areaMoment_scaled (s : Scale) (R : Set (ℝ × ℝ)) (m n : ℕ) :
    areaMoment m n (s.point '' R) = s.len ^ (m + n + 2) * areaMoment m n R := by
  simp only [areaMoment]
  rw [integral_scaled, pow_add, mul_comm (s.len ^ (m + n)), mul_assoc, ← integral_const_mul (s.len ^ (m + n))]
  congr 2
  funext x
  simp only [Scale.point, mul_pow, pow_add]
  ring

theorem regionResultants_scaled (s : Scale) (R : Set (ℝ × ℝ)) (f : ℝ → ℝ) (e : Fin 3 → ℝ) :
    regionResultants (s.point '' R) (fun x => s.stress * f x) (s.plane e) = s.forces (regionResultants R f e) := by
  have key : ∀ (i : Fin 3) (c : ℝ), (∀ x : ℝ × ℝ, lever (s.point x).1 (s.point x).2 i = c * lever x.1 x.2 i) →
      regionResultants (s.point '' R) (fun x => s.stress * f x) (s.plane e) i =
      s.stress * (s.len ^ 2 * c) * regionResultants R f e i := by
    intro i c hc
    simp only [regionResultants]
    rw [integral_scaled]
    simp only [s.plane_strain, hc]
    have : ∀ x : ℝ × ℝ, s.stress * f (planeStrain e x.1 x.2) * (c * lever x.1 x.2 i) =
        (s.stress * c) * (f (planeStrain e x.1 x.2) * lever x.1 x.2 i) := fun x => by ring
    simp only [this]
    rw [integral_const_mul]
    ring
  funext i
  fin_cases i
  · refine (key 0 1 (fun x => by simp [lever])).trans ?_
    simp [Scale.forces]
  · refine (key 1 s.len (fun x => by simp [lever, Scale.point])).trans ?_
    simp only [Scale.forces, Matrix.cons_val, Fin.mk_one]
    ring
  · refine (key 2 s.len (fun x => by simp [lever, Scale.point])).trans ?_
    simp only [Scale.forces, Matrix.cons_val, Fin.reduceFinMk]
    ring

theorem scale_add (s : Scale) (F G : Fin 3 → ℝ) : s.forces (F + G) = s.forces F + s.forces G := by
  funext i
  fin_cases i <;> simp [Scale.forces] <;> ring

theorem scale_zero (s : Scale) : s.forces 0 = 0 := by
  funext i
  fin_cases i <;> simp [Scale.forces]

/-- **C90** (forces). The forces of the scaled section under the scaled strain plane are the scaled forces. -/
theorem scaled_forces (s : Scale) (S : CrossSection) (e : Fin 3 → ℝ) : (S.scaled s).forces (s.plane e) = s.forces (S.forces e) := by
  simp only [CrossSection.forces, CrossSection.scaled, List.map_map, Function.comp_def, scale_add]
  congr 1
  · induction S.plates with
    | nil => simp [scale_zero]
    | cons a l ih => rw [List.map_cons, List.sum_cons, ih, List.map_cons, List.sum_cons, scale_add, regionResultants_scaled]
  · induction S.rods with
    | nil =>
      have : ∀ e, resultants [] e = 0 := by intro e; funext i; simp [resultants]
      rw [List.map_nil, List.map_nil, this, this, scale_zero]
    | cons r l ih =>
      rw [List.map_cons, resultants_cons, ih, List.map_cons, resultants_cons (f := r.fibre), scale_add]
      congr 1
      have hp := s.plane_strain e (r.fibre.y, r.fibre.z)
      simp only [Scale.point] at hp
      funext i
      simp only [resultants, List.map_cons, List.map_nil, List.sum_cons, List.sum_nil, add_zero, hp]
      fin_cases i <;> simp [Scale.forces, resultants, lever] <;> ring

theorem forall2_left {α β : Type} {P : α → β → Prop} {l : List α} {l' : List β} (h : List.Forall₂ P l l') {b : β} (hb : b ∈ l') :
    ∃ a ∈ l, P a b := by
  induction h with
  | nil => simp at hb
  | cons hr _ ih =>
    rcases List.mem_cons.1 hb with rfl | hb
    · exact ⟨_, List.mem_cons_self, hr⟩
    · obtain ⟨a, h1, h2⟩ := ih hb
      exact ⟨a, List.mem_cons_of_mem _ h1, h2⟩

end SC
