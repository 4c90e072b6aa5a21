import Verif.Lemmas.Region
import Verif.Model.Geometry
import Verif.Props.FiberMesh
import Mathlib.MeasureTheory.Group.Prod

/-! # Translation of regions; the shoelace formula as an area moment -/

set_option autoImplicit false

namespace SC

open Spec MeasureTheory
open scoped Pointwise

/-- Signed integral over a ring seen from the apex `o`. -/
noncomputable def signedIntFrom (o : ℝ × ℝ) (f : ℝ × ℝ → ℝ) (ring : List (ℝ × ℝ)) : ℝ :=
  ((edges ring).map fun e => orientation o e.1 e.2 * ∫ x in triangle o e.1 e.2, f x).sum

theorem signedIntFrom_add (o : ℝ × ℝ) {f g : ℝ × ℝ → ℝ} (hf : Continuous f) (hg : Continuous g)
    (ring : List (ℝ × ℝ)) :
    signedIntFrom o (f + g) ring = signedIntFrom o f ring + signedIntFrom o g ring := by
  unfold signedIntFrom
  rw [← List.sum_map_add]
  congr 1
  apply List.map_congr_left
  intro e _
  rw [← mul_add, ← integral_add (continuous_integrableOn hf (triangle_bounded _ _ _))
    (continuous_integrableOn hg (triangle_bounded _ _ _))]
  rfl

theorem signedIntFrom_smul (o : ℝ × ℝ) (c : ℝ) (f : ℝ × ℝ → ℝ) (ring : List (ℝ × ℝ)) :
    signedIntFrom o (c • f) ring = c * signedIntFrom o f ring := by
  unfold signedIntFrom
  rw [← List.sum_map_mul_left]
  congr 1
  apply List.map_congr_left
  intro e _
  have : (∫ x in triangle o e.1 e.2, (c • f) x) = c * ∫ x in triangle o e.1 e.2, f x := by
    rw [← integral_const_mul]; rfl
  rw [this]; ring

/-- For a closed ring the apex does not matter. -/
theorem signedIntFrom_apex (o : ℝ × ℝ) {ring : List (ℝ × ℝ)} (hc : Closed ring) {f : ℝ × ℝ → ℝ}
    (hf : f ∈ polyAlg) : signedIntFrom o f ring = signedInt f ring := by
  refine polyAlg_induction (P := fun f => signedIntFrom o f ring = signedInt f ring) ?_ ?_ ?_ ?_ hf
  · intro m n
    have h1 := C01_signed_moment ring hc o m n
    have h2 := C01_signed_moment ring hc 0 m n
    rw [h1] at h2
    exact Except.ok.inj h2
  · have := signedIntFrom_smul o 0 0 ring
    rw [signedInt_zero]
    simpa using this
  · intro f g hf hg pf pg
    rw [signedIntFrom_add o (polyAlg_continuous hf) (polyAlg_continuous hg),
      signedInt_add (polyAlg_continuous hf) (polyAlg_continuous hg), pf, pg]
  · intro c f _ pf
    rw [signedIntFrom_smul, signedInt_smul, pf]

theorem translatePt_eq (dx dy : ℝ) (p : ℝ × ℝ) : translatePt dx dy p = p + (dx, dy) := rfl

theorem integral_translate (dx dy : ℝ) {R : Set (ℝ × ℝ)} (f : ℝ × ℝ → ℝ) :
    ∫ x in translatePt dx dy '' R, f x = ∫ x in R, f (translatePt dx dy x) := by
  have : (volume : Measure (ℝ × ℝ)).IsAddRightInvariant := by
    rw [Measure.volume_eq_prod]; infer_instance
  have h : MeasurePreserving (fun x : ℝ × ℝ => x + (dx, dy)) volume volume :=
    measurePreserving_add_right volume (dx, dy)
  have he : MeasurableEmbedding (fun x : ℝ × ℝ => x + (dx, dy)) :=
    measurableEmbedding_addRight (dx, dy)
  exact h.setIntegral_image_emb he f R

theorem translate_triangle (dx dy : ℝ) (p q r : ℝ × ℝ) :
    triangle (translatePt dx dy p) (translatePt dx dy q) (translatePt dx dy r) =
      translatePt dx dy '' triangle p q r := by
  unfold triangle
  have : (translatePt dx dy) = fun x => (dx, dy) +ᵥ x := by
    funext x; rw [translatePt_eq, vadd_eq_add, add_comm]
  have h2 : translatePt dx dy '' convexHull ℝ {p, q, r} =
      (dx, dy) +ᵥ convexHull ℝ ({p, q, r} : Set (ℝ × ℝ)) := by
    rw [this]; rfl
  rw [h2, ← convexHull_vadd]
  congr 1
  rw [this]
  ext x
  simp only [Set.mem_insert_iff, Set.mem_singleton_iff, Set.mem_vadd_set]
  constructor
  · rintro (rfl | rfl | rfl)
    · exact ⟨p, by simp, rfl⟩
    · exact ⟨q, by simp, rfl⟩
    · exact ⟨r, by simp, rfl⟩
  · rintro ⟨y, rfl | rfl | rfl, rfl⟩ <;> simp

theorem signedInt_translate (dx dy : ℝ) {f : ℝ × ℝ → ℝ} {ring : List (ℝ × ℝ)} :
    signedInt f (ring.map (translatePt dx dy)) =
      signedIntFrom (-(dx, dy)) (fun x => f (translatePt dx dy x)) ring := by
  unfold signedInt signedIntFrom
  rw [edges_map, List.map_map]
  congr 1
  apply List.map_congr_left
  intro e _
  have h0 : (0 : ℝ × ℝ) = translatePt dx dy (-(dx, dy)) := by
    rw [translatePt_eq]; exact (neg_add_cancel _).symm
  simp only [Function.comp_apply]
  rw [h0, translate_triangle, integral_translate]
  congr 1
  simp only [orientation, cross, translatePt, Prod.fst_neg, Prod.snd_neg]
  congr 2
  ring

theorem polyAlg_translate (dx dy : ℝ) {f : ℝ × ℝ → ℝ} (hf : f ∈ polyAlg) :
    (fun x => f (translatePt dx dy x)) ∈ polyAlg := by
  have h1 : (fun x : ℝ × ℝ => (translatePt dx dy x).1) ∈ polyAlg :=
    polyAlg.add_mem polyAlg_fst (polyAlg_const _)
  have h2 : (fun x : ℝ × ℝ => (translatePt dx dy x).2) ∈ polyAlg :=
    polyAlg.add_mem polyAlg_snd (polyAlg_const _)
  exact polyAlg_induction (P := fun f => (fun x => f (translatePt dx dy x)) ∈ polyAlg)
    (fun m n => polyAlg.mul_mem (polyAlg.pow_mem h1 m) (polyAlg.pow_mem h2 n)) polyAlg.zero_mem
    (fun f g _ _ pf pg => polyAlg.add_mem pf pg) (fun c f _ pf => polyAlg.smul_mem pf c) hf

theorem signedInt_translate_poly (dx dy : ℝ) {f : ℝ × ℝ → ℝ} (hf : f ∈ polyAlg)
    {ring : List (ℝ × ℝ)} (hc : Closed ring) :
    signedInt f (ring.map (translatePt dx dy)) =
      signedInt (fun x => f (translatePt dx dy x)) ring := by
  rw [signedInt_translate, signedIntFrom_apex _ hc (polyAlg_translate dx dy hf)]

theorem polyAlg_mono (m n : ℕ) : (fun x : ℝ × ℝ => x.1 ^ m * x.2 ^ n) ∈ polyAlg :=
  polyAlg.mul_mem (polyAlg.pow_mem polyAlg_fst m) (polyAlg.pow_mem polyAlg_snd n)

theorem signedArea_translate (dx dy : ℝ) {ring : List (ℝ × ℝ)} (hc : Closed ring) :
    signedMoment 0 0 0 (ring.map (translatePt dx dy)) = signedMoment 0 0 0 ring := by
  rw [← signedInt_mono, signedInt_translate_poly dx dy (polyAlg_mono 0 0) hc, ← signedInt_mono]
  simp

theorem properRing_translate (dx dy : ℝ) {ring : List (ℝ × ℝ)} (h : ProperRing ring) :
    ProperRing (ring.map (translatePt dx dy)) := by
  refine ⟨?_, ?_⟩
  · have := h.1
    unfold Closed at this ⊢
    rw [List.head?_map, List.getLast?_map, this]
  · rw [signedArea_translate dx dy h.1]; exact h.2

/-- The translated rings bound the translated region. -/
theorem encloses_translate (dx dy : ℝ) {ext : List (ℝ × ℝ)} {ints : List (List (ℝ × ℝ))}
    {R : Set (ℝ × ℝ)} (h : Encloses ext ints R) :
    Encloses (ext.map (translatePt dx dy)) (ints.map (List.map (translatePt dx dy)))
      (translatePt dx dy '' R) where
  measurable :=
    (measurableEmbedding_addRight ((dx, dy) : ℝ × ℝ)).measurableSet_image.2 h.measurable
  bounded := by
    have hl : LipschitzWith 1 (translatePt dx dy) := by
      intro x y
      rw [translatePt_eq, translatePt_eq]
      simp
    exact hl.isBounded_image h.bounded
  ext_proper := properRing_translate dx dy h.ext_proper
  ints_proper := by
    intro r hr
    obtain ⟨r', hr', rfl⟩ := List.mem_map.1 hr
    exact properRing_translate dx dy (h.ints_proper r' hr')
  moments := by
    intro m n
    have := holedInt_poly h (polyAlg_translate dx dy (polyAlg_mono m n))
    unfold areaMoment
    rw [integral_translate, ← this]
    change holedInt (fun x => x.1 ^ m * x.2 ^ n) _ _ = _
    unfold holedInt ringInt
    rw [signedArea_translate dx dy h.ext_proper.1,
      signedInt_translate_poly dx dy (polyAlg_mono m n) h.ext_proper.1, List.map_map]
    congr 2
    apply List.map_congr_left
    intro r hr
    simp only [Function.comp_apply]
    rw [signedArea_translate dx dy (h.ints_proper r hr).1,
      signedInt_translate_poly dx dy (polyAlg_mono m n) (h.ints_proper r hr).1]

/-- The shoelace formula is the signed area. -/
theorem shoelace_eq (ring : List (ℝ × ℝ)) : shoelace ring = signedMoment 0 0 0 ring := by
  induction ring with
  | nil => simp [shoelace, signedMoment, edges]
  | cons p l ih =>
    cases l with
    | nil => simp [shoelace, signedMoment, edges]
    | cons q l =>
      have : signedMoment 0 0 0 (p :: q :: l) =
          orientation 0 p q * areaMoment 0 0 (triangle 0 p q) + signedMoment 0 0 0 (q :: l) := by
        simp [signedMoment, edges]
      rw [this, ← ih, shoelace]
      congr 1
      by_cases hx : cross 0 p q = 0
      · have : p.1 * q.2 - q.1 * p.2 = 0 := by simpa [cross] using hx
        simp [orientation, hx, this]
      · have h := (C49_triangle 0 p q hx _ _ _ rfl).2.1
        rw [h]
        have h2 : orientation 0 p q * (|cross 0 p q| / 2) = cross 0 p q / 2 := by
          rw [orientation, mul_div_assoc', sign_mul_abs]
        rw [show (|cross 0 p q| / 2) = _ from ?_] at h2
        · rw [h2]; simp [cross]
        · simp only [cross]
          simp only [Prod.fst_zero, Prod.snd_zero, sub_zero, zero_mul, mul_zero, zero_add, add_zero]
          rw [show p.2 * q.1 = q.1 * p.2 by ring]
          norm_num
          ring

/-- shapely's area is the area of the region. -/
theorem polygon_area_eq {p : Polygon} {R : Set (ℝ × ℝ)} (h : Encloses p.ext p.ints R) :
    p.area = areaMoment 0 0 R := by
  rw [← h.moments 0 0]
  have : ∀ r, |shoelace r| = ringMoment 0 0 r := by
    intro r
    rw [shoelace_eq, ringMoment, ← sign_mul_self (signedMoment 0 0 0 r)]
  unfold Polygon.area holedMoment
  rw [this, show (fun r => |shoelace r|) = ringMoment 0 0 from funext this]

end SC
