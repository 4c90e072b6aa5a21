import Verif.Spec.Region
import Verif.Lemmas.Rotation
import Verif.Lemmas.Triangle
import Verif.Props.Area
import Mathlib.RingTheory.Adjoin.Basic
import Mathlib.MeasureTheory.Function.Jacobian

/-! # Lemmas for C21 and C50: polynomials over regions, rotation of regions -/

set_option autoImplicit false

namespace SC

open Spec MeasureTheory

/-- Polynomial functions of two variables. -/
noncomputable def polyAlg : Subalgebra ℝ (ℝ × ℝ → ℝ) := Algebra.adjoin ℝ {Prod.fst, Prod.snd}

theorem polyAlg_fst : (Prod.fst : ℝ × ℝ → ℝ) ∈ polyAlg := Algebra.subset_adjoin (by simp)
theorem polyAlg_snd : (Prod.snd : ℝ × ℝ → ℝ) ∈ polyAlg := Algebra.subset_adjoin (by simp)
theorem polyAlg_const (c : ℝ) : (fun _ : ℝ × ℝ => c) ∈ polyAlg := polyAlg.algebraMap_mem c

theorem polyAlg_induction {P : (ℝ × ℝ → ℝ) → Prop}
    (mono : ∀ m n : ℕ, P fun x => x.1 ^ m * x.2 ^ n)
    (zero : P 0)
    (add : ∀ f g, f ∈ polyAlg → g ∈ polyAlg → P f → P g → P (f + g))
    (smul : ∀ (c : ℝ) f, f ∈ polyAlg → P f → P (c • f))
    {f : ℝ × ℝ → ℝ} (h : f ∈ polyAlg) : P f := by
  rw [polyAlg, ← Subalgebra.mem_toSubmodule, Algebra.adjoin_eq_span] at h
  have hsub : ∀ g, g ∈ Submodule.span ℝ
      ((Submonoid.closure {Prod.fst, Prod.snd} : Submonoid (ℝ × ℝ → ℝ)) : Set (ℝ × ℝ → ℝ)) →
      g ∈ polyAlg := by
    intro g hg
    rw [polyAlg, ← Subalgebra.mem_toSubmodule, Algebra.adjoin_eq_span]
    exact hg
  induction h using Submodule.span_induction with
  | mem g hg =>
    obtain ⟨m, n, rfl⟩ := (Submonoid.mem_closure_pair _ _ _).1 hg
    exact mono m n
  | zero => exact zero
  | add f g hf hg pf pg => exact add f g (hsub f hf) (hsub g hg) pf pg
  | smul c f hf pf => exact smul c f (hsub f hf) pf

theorem polyAlg_continuous {f : ℝ × ℝ → ℝ} (hf : f ∈ polyAlg) : Continuous f := by
  refine polyAlg_induction (P := fun f => Continuous f) (fun m n => ?_) continuous_zero
    (fun f g _ _ pf pg => pf.add pg) (fun c f _ pf => pf.const_smul c) hf
  fun_prop

theorem continuous_integrableOn {f : ℝ × ℝ → ℝ} (hf : Continuous f) {R : Set (ℝ × ℝ)}
    (hR : Bornology.IsBounded R) : IntegrableOn f R := by
  have hc : IsCompact (closure R) := hR.isCompact_closure
  exact (hf.continuousOn.integrableOn_compact hc).mono_set subset_closure

theorem triangle_bounded (a b c : ℝ × ℝ) : Bornology.IsBounded (triangle a b c) := by
  have : ({a, b, c} : Set (ℝ × ℝ)).Finite := by simp
  exact (this.isCompact_convexHull (𝕜 := ℝ)).isBounded

theorem triangle_measurable (a b c : ℝ × ℝ) : MeasurableSet (triangle a b c) := by
  have : ({a, b, c} : Set (ℝ × ℝ)).Finite := by simp
  exact (this.isCompact_convexHull (𝕜 := ℝ)).isClosed.measurableSet

/-- Signed integral over a ring, apex at the origin. -/
noncomputable def signedInt (f : ℝ × ℝ → ℝ) (ring : List (ℝ × ℝ)) : ℝ :=
  ((edges ring).map fun e => orientation 0 e.1 e.2 * ∫ x in triangle 0 e.1 e.2, f x).sum

theorem signedInt_mono (m n : ℕ) (ring : List (ℝ × ℝ)) :
    signedInt (fun x => x.1 ^ m * x.2 ^ n) ring = signedMoment m n 0 ring := rfl

theorem signedInt_add {f g : ℝ × ℝ → ℝ} (hf : Continuous f) (hg : Continuous g)
    (ring : List (ℝ × ℝ)) : signedInt (f + g) ring = signedInt f ring + signedInt g ring := by
  unfold signedInt
  rw [← List.sum_map_add]
  congr 1
  apply List.map_congr_left
  intro e _
  rw [← mul_add, ← integral_add (continuous_integrableOn hf (triangle_bounded _ _ _))
    (continuous_integrableOn hg (triangle_bounded _ _ _))]
  rfl

theorem signedInt_smul (c : ℝ) (f : ℝ × ℝ → ℝ) (ring : List (ℝ × ℝ)) :
    signedInt (c • f) ring = c * signedInt f ring := by
  unfold signedInt
  rw [← List.sum_map_mul_left]
  congr 1
  apply List.map_congr_left
  intro e _
  have : (∫ x in triangle 0 e.1 e.2, (c • f) x) = c * ∫ x in triangle 0 e.1 e.2, f x := by
    rw [← integral_const_mul]; rfl
  rw [this]; ring

theorem signedInt_zero (ring : List (ℝ × ℝ)) : signedInt 0 ring = 0 := by
  have := signedInt_smul 0 0 ring
  simpa using this

/-- Integral over the interior of a ring / over a polygon with holes. -/
noncomputable def ringInt (f : ℝ × ℝ → ℝ) (ring : List (ℝ × ℝ)) : ℝ :=
  SignType.sign (signedMoment 0 0 0 ring) * signedInt f ring

noncomputable def holedInt (f : ℝ × ℝ → ℝ) (ext : List (ℝ × ℝ)) (ints : List (List (ℝ × ℝ))) : ℝ :=
  ringInt f ext - (ints.map (ringInt f)).sum

theorem holedInt_add {f g : ℝ × ℝ → ℝ} (hf : Continuous f) (hg : Continuous g)
    (ext : List (ℝ × ℝ)) (ints : List (List (ℝ × ℝ))) :
    holedInt (f + g) ext ints = holedInt f ext ints + holedInt g ext ints := by
  have : ∀ r, ringInt (f + g) r = ringInt f r + ringInt g r := by
    intro r; unfold ringInt; rw [signedInt_add hf hg]; ring
  unfold holedInt
  rw [this, show ringInt (f + g) = fun r => ringInt f r + ringInt g r from funext this,
    List.sum_map_add]
  ring

theorem holedInt_smul (c : ℝ) (f : ℝ × ℝ → ℝ)
    (ext : List (ℝ × ℝ)) (ints : List (List (ℝ × ℝ))) :
    holedInt (c • f) ext ints = c * holedInt f ext ints := by
  have : ∀ r, ringInt (c • f) r = c * ringInt f r := by
    intro r; unfold ringInt; rw [signedInt_smul]; ring
  unfold holedInt
  rw [this, show ringInt (c • f) = fun r => c * ringInt f r from funext this,
    List.sum_map_mul_left]
  ring

theorem holedInt_zero (ext : List (ℝ × ℝ)) (ints : List (List (ℝ × ℝ))) :
    holedInt 0 ext ints = 0 := by
  have := holedInt_smul 0 0 ext ints
  simpa using this

/-- Matching monomials means matching all polynomials. -/
theorem holedInt_poly {ext : List (ℝ × ℝ)} {ints : List (List (ℝ × ℝ))} {R : Set (ℝ × ℝ)}
    (h : Encloses ext ints R) {f : ℝ × ℝ → ℝ} (hf : f ∈ polyAlg) :
    holedInt f ext ints = ∫ x in R, f x := by
  refine polyAlg_induction (P := fun f => holedInt f ext ints = ∫ x in R, f x)
    h.moments ?_ ?_ ?_ hf
  · rw [holedInt_zero]; simp
  · intro f g hf hg pf pg
    rw [holedInt_add (polyAlg_continuous hf) (polyAlg_continuous hg), pf, pg,
      ← integral_add (continuous_integrableOn (polyAlg_continuous hf) h.bounded)
        (continuous_integrableOn (polyAlg_continuous hg) h.bounded)]
    rfl
  · intro c f hf pf
    rw [holedInt_smul, pf, ← integral_const_mul]
    rfl

/-! ## Rotation -/

/-- rotation as a continuous linear map -/
noncomputable def rotLin (a : ℝ) : ℝ × ℝ →L[ℝ] ℝ × ℝ :=
  ((Real.cos a • ContinuousLinearMap.fst ℝ ℝ ℝ - Real.sin a • ContinuousLinearMap.snd ℝ ℝ ℝ)).prod
    (Real.sin a • ContinuousLinearMap.fst ℝ ℝ ℝ + Real.cos a • ContinuousLinearMap.snd ℝ ℝ ℝ)

theorem rotLin_apply (a : ℝ) (x : ℝ × ℝ) : rotLin a x = rotPt a x := by
  simp [rotLin, rotPt]

theorem rotLin_det (a : ℝ) : (rotLin a).det = 1 := by
  rw [ContinuousLinearMap.det, ← LinearMap.det_toMatrix (Module.Basis.finTwoProd ℝ),
    Matrix.det_fin_two]
  have h := Real.sin_sq_add_cos_sq a
  simp [LinearMap.toMatrix_apply, rotLin]
  linear_combination h

theorem rotPt_injective (a : ℝ) : Function.Injective (rotPt a) := by
  intro x y h
  rw [← rotPt_neg a x, h, rotPt_neg]

theorem rotPt_continuous (a : ℝ) : Continuous (rotPt a) := by
  unfold rotPt; fun_prop

theorem integral_rot (a : ℝ) {R : Set (ℝ × ℝ)} (hR : MeasurableSet R) (f : ℝ × ℝ → ℝ) :
    ∫ x in rotPt a '' R, f x = ∫ x in R, f (rotPt a x) := by
  have : Measure.IsAddHaarMeasure (volume : Measure (ℝ × ℝ)) := Measure.prod.instIsAddHaarMeasure _ _
  have hd : ∀ x ∈ R, HasFDerivWithinAt (rotPt a) (rotLin a) R x := by
    intro x _
    have : rotPt a = rotLin a := by funext x; rw [rotLin_apply]
    rw [this]
    exact (rotLin a).hasFDerivWithinAt
  rw [integral_image_eq_integral_abs_det_fderiv_smul volume hR hd
    ((rotPt_injective a).injOn)]
  simp [rotLin_det]

theorem rot_image_eq_preimage (a : ℝ) (R : Set (ℝ × ℝ)) : rotPt a '' R = rotPt (-a) ⁻¹' R := by
  ext x
  constructor
  · rintro ⟨y, hy, rfl⟩
    simpa [rotPt_neg] using hy
  · intro hx
    refine ⟨rotPt (-a) x, hx, ?_⟩
    have := rotPt_neg (-a) x
    rwa [neg_neg] at this

theorem rot_measurable (a : ℝ) {R : Set (ℝ × ℝ)} (hR : MeasurableSet R) :
    MeasurableSet (rotPt a '' R) := by
  rw [rot_image_eq_preimage]
  exact (rotPt_continuous (-a)).measurable hR

theorem rot_bounded (a : ℝ) {R : Set (ℝ × ℝ)} (hR : Bornology.IsBounded R) :
    Bornology.IsBounded (rotPt a '' R) := by
  have : rotPt a = rotLin a := by funext x; rw [rotLin_apply]
  rw [this]
  exact (rotLin a).lipschitz.isBounded_image hR

theorem rotPt_apex (a : ℝ) : rotPt a 0 = 0 := by simp [rotPt]

theorem rot_triangle (a : ℝ) (p q r : ℝ × ℝ) :
    triangle (rotPt a p) (rotPt a q) (rotPt a r) = rotPt a '' triangle p q r := by
  have : rotPt a = (rotLin a).toLinearMap := by
    funext x; rw [← rotLin_apply]; rfl
  unfold triangle
  rw [this, LinearMap.image_convexHull]
  congr 1
  simp [Set.image_insert_eq]

theorem rot_cross (a : ℝ) (p q r : ℝ × ℝ) :
    cross (rotPt a p) (rotPt a q) (rotPt a r) = cross p q r := by
  have h := Real.sin_sq_add_cos_sq a
  simp only [cross, rotPt]
  linear_combination ((q.1 - p.1) * (r.2 - p.2) - (r.1 - p.1) * (q.2 - p.2)) * h

theorem edges_map (f : ℝ × ℝ → ℝ × ℝ) (ring : List (ℝ × ℝ)) :
    edges (ring.map f) = (edges ring).map fun e => (f e.1, f e.2) := by
  induction ring with
  | nil => rfl
  | cons p l ih =>
    cases l with
    | nil => rfl
    | cons q l => simp only [List.map_cons, edges] at ih ⊢; rw [ih]

theorem signedInt_rot (a : ℝ) (f : ℝ × ℝ → ℝ) (ring : List (ℝ × ℝ)) :
    signedInt f (ring.map (rotPt a)) = signedInt (fun x => f (rotPt a x)) ring := by
  unfold signedInt
  rw [edges_map, List.map_map]
  congr 1
  apply List.map_congr_left
  intro e _
  simp only [Function.comp_apply, orientation]
  have h0 : cross 0 (rotPt a e.1) (rotPt a e.2) = cross 0 e.1 e.2 := by
    have := rot_cross a 0 e.1 e.2
    rwa [rotPt_apex] at this
  have h1 : triangle 0 (rotPt a e.1) (rotPt a e.2) = rotPt a '' triangle 0 e.1 e.2 := by
    have := rot_triangle a 0 e.1 e.2
    rwa [rotPt_apex] at this
  rw [h0, h1, integral_rot a (triangle_measurable _ _ _)]

theorem signedArea_rot (a : ℝ) (ring : List (ℝ × ℝ)) :
    signedMoment 0 0 0 (ring.map (rotPt a)) = signedMoment 0 0 0 ring := by
  rw [← signedInt_mono, signedInt_rot, ← signedInt_mono]
  simp

theorem ringInt_rot (a : ℝ) (f : ℝ × ℝ → ℝ) (ring : List (ℝ × ℝ)) :
    ringInt f (ring.map (rotPt a)) = ringInt (fun x => f (rotPt a x)) ring := by
  unfold ringInt
  rw [signedArea_rot, signedInt_rot]

theorem properRing_rot (a : ℝ) {ring : List (ℝ × ℝ)} (h : ProperRing ring) :
    ProperRing (ring.map (rotPt a)) := by
  refine ⟨?_, ?_⟩
  · have := h.1
    unfold Closed at this ⊢
    rw [List.head?_map, List.getLast?_map, this]
  · rw [signedArea_rot]; exact h.2

theorem polyAlg_rot (a : ℝ) {f : ℝ × ℝ → ℝ} (hf : f ∈ polyAlg) :
    (fun x => f (rotPt a x)) ∈ polyAlg := by
  have h1 : (fun x : ℝ × ℝ => (rotPt a x).1) ∈ polyAlg :=
    polyAlg.sub_mem (polyAlg.mul_mem (polyAlg_const _) polyAlg_fst)
      (polyAlg.mul_mem (polyAlg_const _) polyAlg_snd)
  have h2 : (fun x : ℝ × ℝ => (rotPt a x).2) ∈ polyAlg :=
    polyAlg.add_mem (polyAlg.mul_mem (polyAlg_const _) polyAlg_fst)
      (polyAlg.mul_mem (polyAlg_const _) polyAlg_snd)
  exact polyAlg_induction (P := fun f => (fun x => f (rotPt a x)) ∈ polyAlg)
    (fun m n => polyAlg.mul_mem (polyAlg.pow_mem h1 m) (polyAlg.pow_mem h2 n)) polyAlg.zero_mem
    (fun f g _ _ pf pg => polyAlg.add_mem pf pg) (fun c f _ pf => polyAlg.smul_mem pf c) hf

/-- The rotated rings bound the rotated region. -/
theorem encloses_rot (a : ℝ) {ext : List (ℝ × ℝ)} {ints : List (List (ℝ × ℝ))} {R : Set (ℝ × ℝ)}
    (h : Encloses ext ints R) :
    Encloses (ext.map (rotPt a)) (ints.map (List.map (rotPt a))) (rotPt a '' R) where
  measurable := rot_measurable a h.measurable
  bounded := rot_bounded a h.bounded
  ext_proper := properRing_rot a h.ext_proper
  ints_proper := by
    intro r hr
    obtain ⟨r', hr', rfl⟩ := List.mem_map.1 hr
    exact properRing_rot a (h.ints_proper r' hr')
  moments := by
    intro m n
    have hp : (fun x : ℝ × ℝ => x.1 ^ m * x.2 ^ n) ∈ polyAlg :=
      polyAlg.mul_mem (polyAlg.pow_mem polyAlg_fst m) (polyAlg.pow_mem polyAlg_snd n)
    have := holedInt_poly h (polyAlg_rot a hp)
    unfold areaMoment
    rw [integral_rot a h.measurable, ← this]
    change holedInt (fun x => x.1 ^ m * x.2 ^ n) _ _ = _
    unfold holedInt
    rw [ringInt_rot, List.map_map]
    congr 2
    apply List.map_congr_left
    intro r _
    exact ringInt_rot a _ r

end SC
