import Verif.Spec.Profile
import Verif.Spec.Split
import Verif.Lemmas.Region

/-! # Cuts of plane regions by horizontal lines -/

set_option autoImplicit false

namespace SC

open MeasureTheory Spec

theorem bounded_finite {R : Set (ℝ × ℝ)} (hR : Bornology.IsBounded R) : volume R < ⊤ := hR.measure_lt_top

/-- Horizontal lines have no area. -/
theorem volume_line (z : ℝ) : volume {x : ℝ × ℝ | x.2 = z} = 0 := by
  have : {x : ℝ × ℝ | x.2 = z} = Set.univ ×ˢ {z} := by ext x; simp
  rw [this, Measure.volume_eq_prod, Measure.prod_prod]
  simp

theorem ae_ne_line (z : ℝ) (R : Set (ℝ × ℝ)) : ∀ᵐ x ∂(volume.restrict R), x.2 ≠ z := by
  apply ae_restrict_of_ae
  rw [ae_iff]
  simpa using volume_line z

/-- Regions that cover `R` once add up. -/
theorem covers_integral {R : Set (ℝ × ℝ)} {Rs : List (Set (ℝ × ℝ))} (h : CoversOnce R Rs)
    (hR : MeasurableSet R) (hm : ∀ S ∈ Rs, MeasurableSet S) (f : ℝ × ℝ → ℝ)
    (hf : ∀ S ∈ Rs, IntegrableOn f S) : (Rs.map fun S => ∫ x in S, f x).sum = ∫ x in R, f x := by
  rw [← integral_indicator hR]
  have h1 : ∀ᵐ x : ℝ × ℝ, R.indicator f x = (Rs.map fun S => S.indicator f x).sum := by
    filter_upwards [h] with x hx
    have e : ∀ S : Set (ℝ × ℝ), S.indicator f x = S.indicator (fun _ => (1 : ℝ)) x * f x := by
      intro S
      by_cases hS : x ∈ S <;> simp [hS]
    rw [e, ← hx, List.map_congr_left (g := fun S => S.indicator (fun _ => (1 : ℝ)) x * f x) fun S _ => e S,
      List.sum_map_mul_right]
  rw [integral_congr_ae h1]
  clear h h1
  induction Rs with
  | nil => simp
  | cons S l ih =>
    simp only [List.map_cons, List.sum_cons]
    have hint : ∀ l : List (Set (ℝ × ℝ)), (∀ S ∈ l, MeasurableSet S) → (∀ S ∈ l, IntegrableOn f S) →
        Integrable fun x => (l.map fun S => S.indicator f x).sum := by
      intro l
      induction l with
      | nil => intro _ _; simp
      | cons T l ih =>
        intro hm hf
        simp only [List.map_cons, List.sum_cons]
        exact ((integrable_indicator_iff (hm T (by simp))).2 (hf T (by simp))).add
          (ih (fun S hS => hm S (by simp [hS])) (fun S hS => hf S (by simp [hS])))
    rw [integral_add ((integrable_indicator_iff (hm S (by simp))).2 (hf S (by simp)))
      (hint l (fun S hS => hm S (by simp [hS])) (fun S hS => hf S (by simp [hS]))),
      integral_indicator (hm S (by simp)),
      ih (fun S hS => hm S (by simp [hS])) (fun S hS => hf S (by simp [hS]))]

/-- The pieces of a cut add up. -/
theorem _root_.SC.Spec.Splits.integral {z : ℝ} {R : Set (ℝ × ℝ)} {Rs : List (Set (ℝ × ℝ))} (h : Splits z R Rs)
    (hR : MeasurableSet R) (hm : ∀ S ∈ Rs, MeasurableSet S) (f : ℝ × ℝ → ℝ)
    (hf : ∀ S ∈ Rs, IntegrableOn f S) : (Rs.map fun S => ∫ x in S, f x).sum = ∫ x in R, f x :=
  covers_integral h.cover hR hm f hf

/-- Sign of the height over the line. -/
noncomputable def sgn (z : ℝ) (x : ℝ × ℝ) : ℝ := SignType.sign (x.2 - z)

theorem sgn_le (z : ℝ) (x : ℝ × ℝ) : |sgn z x| ≤ 1 := by
  unfold sgn
  rcases lt_trichotomy (x.2 - z) 0 with h | h | h
  · simp [sign_neg h]
  · simp [h]
  · simp [sign_pos h]

theorem sgn_measurable (z : ℝ) : Measurable (sgn z) := by
  unfold sgn
  have : Measurable fun x : ℝ × ℝ => x.2 - z := by fun_prop
  have e : (fun x : ℝ × ℝ => ((SignType.sign (x.2 - z) : SignType) : ℝ)) =
      fun x => if 0 < x.2 - z then 1 else if x.2 - z < 0 then -1 else 0 := by
    funext x
    rcases lt_trichotomy (x.2 - z) 0 with h | h | h
    · simp [sign_neg h, h, not_lt.2 h.le]
    · simp [h]
    · simp [sign_pos h, h]
  rw [e]
  refine Measurable.ite (this measurableSet_Ioi) measurable_const
    (Measurable.ite (this measurableSet_Iio) measurable_const measurable_const)

theorem sgn_integrable (z : ℝ) {R : Set (ℝ × ℝ)} (hb : Bornology.IsBounded R) : IntegrableOn (sgn z) R := by
  refine Measure.integrableOn_of_bounded (M := 1) (bounded_finite hb).ne
    (sgn_measurable z).aestronglyMeasurable ?_
  exact ae_of_all _ fun x => by rw [Real.norm_eq_abs]; exact sgn_le z x

theorem imbalance_eq (z : ℝ) {R : Set (ℝ × ℝ)} (hR : MeasurableSet R) (hb : Bornology.IsBounded R) :
    imbalance R z = ∫ x in R, sgn z x := by
  have hU : MeasurableSet {x : ℝ × ℝ | z ≤ x.2} := measurableSet_le measurable_const measurable_snd
  have hL : MeasurableSet {x : ℝ × ℝ | x.2 ≤ z} := measurableSet_le measurable_snd measurable_const
  have hb1 : volume (R ∩ {x | z ≤ x.2}) ≠ ⊤ := (bounded_finite (hb.subset Set.inter_subset_left)).ne
  have hb2 : volume (R ∩ {x | x.2 ≤ z}) ≠ ⊤ := (bounded_finite (hb.subset Set.inter_subset_left)).ne
  have e1 : (volume (R ∩ {x | z ≤ x.2})).toReal = ∫ x in R, {x : ℝ × ℝ | z ≤ x.2}.indicator (fun _ => (1 : ℝ)) x := by
    rw [setIntegral_indicator hU]; simp [Measure.real]
  have e2 : (volume (R ∩ {x | x.2 ≤ z})).toReal = ∫ x in R, {x : ℝ × ℝ | x.2 ≤ z}.indicator (fun _ => (1 : ℝ)) x := by
    rw [setIntegral_indicator hL]; simp [Measure.real]
  have i : ∀ S : Set (ℝ × ℝ), MeasurableSet S → IntegrableOn (S.indicator (fun _ => (1 : ℝ))) R := fun S hS =>
    (integrableOn_const (bounded_finite hb).ne).indicator hS
  unfold imbalance
  rw [e1, e2, ← integral_sub (i _ hU) (i _ hL)]
  refine integral_congr_ae ?_
  filter_upwards [ae_ne_line z R] with x hx
  rcases lt_or_gt_of_ne hx with h | h
  · simp [sgn, sign_neg (sub_neg.2 h), h.le, not_le.2 h]
  · simp [sgn, sign_pos (sub_pos.2 h), h.le, not_le.2 h]

theorem imbalance_continuous {R : Set (ℝ × ℝ)} (hR : MeasurableSet R) (hb : Bornology.IsBounded R) :
    Continuous (imbalance R) := by
  have : imbalance R = fun z => ∫ x in R, sgn z x := funext fun z => imbalance_eq z hR hb
  rw [this, continuous_iff_continuousAt]
  intro z
  refine continuousAt_of_dominated (bound := fun _ => 1) (Filter.Eventually.of_forall fun y =>
    (sgn_measurable y).aestronglyMeasurable) (Filter.Eventually.of_forall fun y => ae_of_all _ fun x => by
      rw [Real.norm_eq_abs]; exact sgn_le y x) (integrableOn_const (bounded_finite hb).ne) ?_
  filter_upwards [ae_ne_line z R] with x hx
  rcases lt_or_gt_of_ne hx with h | h
  · refine ContinuousAt.congr (f := fun _ => (-1 : ℝ)) continuousAt_const ?_
    filter_upwards [lt_mem_nhds h] with y hy
    simp [sgn, sign_neg (sub_neg.2 hy)]
  · refine ContinuousAt.congr (f := fun _ => (1 : ℝ)) continuousAt_const ?_
    filter_upwards [gt_mem_nhds h] with y hy
    simp [sgn, sign_pos (sub_pos.2 hy)]

theorem absMoment_integrable (z : ℝ) {R : Set (ℝ × ℝ)} (hb : Bornology.IsBounded R) :
    IntegrableOn (fun x : ℝ × ℝ => |x.2 - z|) R :=
  continuous_integrableOn (by fun_prop) hb

/-- Moving the line from `z` to `w` changes the absolute moment by at least the imbalance times the
distance: the moment is a convex function of the height. -/
theorem absMoment_le (z w : ℝ) {R : Set (ℝ × ℝ)} (hR : MeasurableSet R) (hb : Bornology.IsBounded R) :
    absMoment R z ≤ absMoment R w + (w - z) * imbalance R z := by
  rw [imbalance_eq z hR hb, ← integral_const_mul, absMoment, absMoment,
    ← integral_add (absMoment_integrable w hb) ((sgn_integrable z hb).const_mul _)]
  refine integral_mono (absMoment_integrable z hb)
    ((absMoment_integrable w hb).add ((sgn_integrable z hb).const_mul _)) ?_
  intro x
  show |x.2 - z| ≤ |x.2 - w| + (w - z) * sgn z x
  unfold sgn
  rcases lt_trichotomy (x.2 - z) 0 with h | h | h
  · rw [sign_neg h, abs_of_neg h]
    have := neg_abs_le (x.2 - w)
    simp only [SignType.neg_eq_neg_one, SignType.coe_neg_one]
    linarith
  · rw [h]; simp
  · rw [sign_pos h, abs_of_pos h]
    have := le_abs_self (x.2 - w)
    simp only [SignType.pos_eq_one, SignType.coe_one]
    linarith

end SC
