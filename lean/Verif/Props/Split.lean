import Verif.Model.Cracked
import Verif.Props.Profile
import Verif.Props.Geometry

/-! # C64: splitting a surface by a line -/

set_option autoImplicit false

namespace SC

open Spec MeasureTheory

noncomputable section

/-- A polygon bounds a region of positive area. -/
def Bounds (q : Polygon) (S : Set (ℝ × ℝ)) : Prop := Encloses q.ext q.ints S ∧ 0 < areaMoment 0 0 S

/-- What is assumed of shapely's `split` and `intersects` for a polygon and a line that crosses its bounding box:
the pieces are polygons (with holes) of positive area that bound regions on one side of the line each and cover the
region once, and a line that does not intersect has the whole region on one side. -/
structure CutsWell (sh : Shapely) (p : Polygon) (R : Set (ℝ × ℝ)) (a b : ℝ × ℝ) : Prop where
  split : sh.intersects a b p → ∃ Rs : List (Set (ℝ × ℝ)), List.Forall₂ Bounds (sh.split p a b) Rs ∧
    (∀ S ∈ Rs, S ⊆ leftOf a b ∨ S ⊆ rightOf a b) ∧ CoversOnce R Rs
  apart : ¬ sh.intersects a b p → R ⊆ leftOf a b ∨ R ⊆ rightOf a b

/-! ### Lines and integrals -/

theorem volume_cross {a b : ℝ × ℝ} (h : a.1 < b.1) : volume {x : ℝ × ℝ | cross a b x = 0} = 0 := by
  have hm : MeasurableSet {x : ℝ × ℝ | cross a b x = 0} := by
    have hc : Continuous fun x : ℝ × ℝ => cross a b x := by unfold cross; fun_prop
    exact (isClosed_singleton.preimage hc).measurableSet
  rw [Measure.volume_eq_prod, Measure.measure_prod_null hm]
  refine Filter.Eventually.of_forall fun y => ?_
  refine measure_mono_null (t := {a.2 + (y - a.1) * (b.2 - a.2) / (b.1 - a.1)}) ?_ (by simp)
  intro z hz
  have hz : cross a b (y, z) = 0 := hz
  have hne : b.1 - a.1 ≠ 0 := by linarith
  simp only [cross] at hz
  simp only [Set.mem_singleton_iff]
  field_simp
  linarith

theorem cross_continuous (a b : ℝ × ℝ) : Continuous fun x : ℝ × ℝ => cross a b x := by
  unfold cross; fun_prop

theorem measurable_leftOf (a b : ℝ × ℝ) : MeasurableSet (leftOf a b) :=
  (isClosed_le continuous_const (cross_continuous a b)).measurableSet

theorem measurable_rightOf (a b : ℝ × ℝ) : MeasurableSet (rightOf a b) :=
  (isClosed_le (cross_continuous a b) continuous_const).measurableSet

theorem volume_pos_of_area {S : Set (ℝ × ℝ)} (h : 0 < areaMoment 0 0 S) : 0 < volume S := by
  by_contra hn
  have h0 : volume S = 0 := le_antisymm (not_lt.1 hn) (zero_le)
  rw [areaMoment, Measure.restrict_eq_zero.2 h0] at h
  simp at h

theorem integral_left {S : Set (ℝ × ℝ)} (hb : Bornology.IsBounded S) (hm : MeasurableSet S) (hv : 0 < volume S)
    {a b : ℝ × ℝ} (hab : a.1 < b.1) (hs : S ⊆ leftOf a b) : 0 < ∫ x in S, cross a b x := by
  have hi : IntegrableOn (fun x : ℝ × ℝ => cross a b x) S := continuous_integrableOn (cross_continuous a b) hb
  rw [setIntegral_pos_iff_support_of_nonneg_ae ?_ hi]
  · have : S \ {x : ℝ × ℝ | cross a b x = 0} ⊆ Function.support (fun x : ℝ × ℝ => cross a b x) ∩ S := by
      intro x hx
      exact ⟨by simpa using hx.2, hx.1⟩
    refine lt_of_lt_of_le ?_ (measure_mono this)
    rw [measure_sdiff_null (volume_cross hab)]
    exact hv
  · filter_upwards [ae_restrict_mem hm] with x hx
    exact hs hx

theorem integral_right {S : Set (ℝ × ℝ)} (hm : MeasurableSet S) {a b : ℝ × ℝ} (hs : S ⊆ rightOf a b) :
    ∫ x in S, cross a b x ≤ 0 :=
  setIntegral_nonpos hm fun _ hx => hs hx

/-- `polygon.centroid` of a polygon with holes. -/
theorem polygon_centroid {q : Polygon} {S : Set (ℝ × ℝ)} (h : Encloses q.ext q.ints S) :
    q.centroid = (areaMoment 1 0 S / areaMoment 0 0 S, areaMoment 0 1 S / areaMoment 0 0 S) := by
  have key : ∀ m n, SignType.sign (marin q.ext 0 0) * marin q.ext m n -
      (q.ints.map fun r => SignType.sign (marin r 0 0) * marin r m n).sum = areaMoment m n S := by
    intro m n
    rw [← h.moments m n, holedMoment]
    congr 1
    · rw [marin_signed h.ext_proper.1, marin_signed h.ext_proper.1]; rfl
    · congr 1
      refine List.map_congr_left fun r hr => ?_
      rw [marin_signed (h.ints_proper r hr).1, marin_signed (h.ints_proper r hr).1]; rfl
  simp only [Polygon.centroid, key]

/-- The centroid is left of a line if the region is (on average). -/
theorem centroid_left {q : Polygon} {S : Set (ℝ × ℝ)} (h : Encloses q.ext q.ints S) (hA : 0 < areaMoment 0 0 S)
    (a b : ℝ × ℝ) : isCcw a b q.centroid ↔ 0 < ∫ x in S, cross a b x := by
  have i1 : IntegrableOn (fun x : ℝ × ℝ => x.1) S := continuous_integrableOn (by fun_prop) h.bounded
  have i2 : IntegrableOn (fun x : ℝ × ℝ => x.2) S := continuous_integrableOn (by fun_prop) h.bounded
  have i0 : IntegrableOn (fun _ : ℝ × ℝ => (1 : ℝ)) S := continuous_integrableOn (by fun_prop) h.bounded
  have e : ∫ x in S, cross a b x = (b.1 - a.1) * (areaMoment 0 1 S - a.2 * areaMoment 0 0 S) -
      (b.2 - a.2) * (areaMoment 1 0 S - a.1 * areaMoment 0 0 S) := by
    have : (fun x : ℝ × ℝ => cross a b x) = fun x => (b.1 - a.1) * (x.2 - a.2 * 1) - (b.2 - a.2) * (x.1 - a.1 * 1) := by
      funext x; unfold cross; ring
    have j1 : IntegrableOn (fun x : ℝ × ℝ => (b.1 - a.1) * (x.2 - a.2 * 1)) S :=
      (i2.sub (i0.const_mul a.2)).const_mul _
    have j2 : IntegrableOn (fun x : ℝ × ℝ => (b.2 - a.2) * (x.1 - a.1 * 1)) S :=
      (i1.sub (i0.const_mul a.1)).const_mul _
    rw [this, integral_sub j1 j2,
      integral_const_mul, integral_const_mul, integral_sub i2 (i0.const_mul a.2), integral_sub i1 (i0.const_mul a.1),
      integral_const_mul, integral_const_mul]
    simp only [areaMoment, pow_zero, pow_one, one_mul, mul_one]
  rw [e, polygon_centroid h]
  unfold isCcw
  simp only
  rw [show (b.1 - a.1) * (areaMoment 0 1 S / areaMoment 0 0 S - a.2) -
      (areaMoment 1 0 S / areaMoment 0 0 S - a.1) * (b.2 - a.2) =
      (1 / areaMoment 0 0 S) * ((b.1 - a.1) * (areaMoment 0 1 S - a.2 * areaMoment 0 0 S) -
      (b.2 - a.2) * (areaMoment 1 0 S - a.1 * areaMoment 0 0 S)) by field_simp]
  have : 0 < 1 / areaMoment 0 0 S := by positivity
  exact ⟨fun h => (pos_iff_pos_of_mul_pos h).1 this, fun h => mul_pos this h⟩

/-! ### Classification -/

theorem coversOnce_perm {R : Set (ℝ × ℝ)} {l l' : List (Set (ℝ × ℝ))} (h : l.Perm l') (hc : CoversOnce R l') :
    CoversOnce R l := by
  unfold CoversOnce at *
  filter_upwards [hc] with x hx
  rw [← hx]
  exact (h.map _).sum_eq

theorem classify_ok {a b : ℝ × ℝ} (hab : a.1 < b.1) {qs : List Polygon} {Rs : List (Set (ℝ × ℝ))}
    (hf : List.Forall₂ Bounds qs Rs) (hs : ∀ S ∈ Rs, S ⊆ leftOf a b ∨ S ⊆ rightOf a b) :
    ∃ As Bs, List.Forall₂ Bounds (classify a b qs).1 As ∧ List.Forall₂ Bounds (classify a b qs).2 Bs ∧
      (∀ S ∈ As, S ⊆ leftOf a b) ∧ (∀ S ∈ Bs, S ⊆ rightOf a b) ∧ (As ++ Bs).Perm Rs := by
  classical
  induction hf with
  | nil => exact ⟨[], [], by simp [classify], by simp [classify], by simp, by simp, List.Perm.refl _⟩
  | @cons q S qs Rs h _ ih =>
    obtain ⟨As, Bs, h1, h2, h3, h4, h5⟩ := ih fun T hT => hs T (List.mem_cons_of_mem _ hT)
    have hc := centroid_left h.1 h.2 a b
    rcases hs S List.mem_cons_self with hl | hr
    · have hp : isCcw a b q.centroid :=
        hc.2 (integral_left h.1.bounded h.1.measurable (volume_pos_of_area h.2) hab hl)
      refine ⟨S :: As, Bs, ?_, ?_, ?_, h4, h5.cons S⟩
      · simp only [classify] at h1 ⊢
        rw [List.filter_cons_of_pos (by simpa using hp)]
        exact List.Forall₂.cons h h1
      · simp only [classify] at h2 ⊢
        rw [List.filter_cons_of_neg (by simpa using hp)]
        exact h2
      · intro T hT
        rcases List.mem_cons.1 hT with rfl | hT
        · exact hl
        · exact h3 T hT
    · have hp : ¬ isCcw a b q.centroid := fun hh =>
        absurd (hc.1 hh) (not_lt.2 (integral_right h.1.measurable hr))
      refine ⟨As, S :: Bs, ?_, ?_, h3, ?_, List.perm_middle.trans (h5.cons S)⟩
      · simp only [classify] at h1 ⊢
        rw [List.filter_cons_of_neg (by simpa using hp)]
        exact h1
      · simp only [classify] at h2 ⊢
        rw [List.filter_cons_of_pos (by simpa using hp)]
        exact List.Forall₂.cons h h2
      · intro T hT
        rcases List.mem_cons.1 hT with rfl | hT
        · exact hr
        · exact h4 T hT

theorem bounds_ext_ne {p : Polygon} {R : Set (ℝ × ℝ)} (h : Encloses p.ext p.ints R) : p.ext ≠ [] := by
  intro he
  have := h.ext_proper.2
  rw [he] at this
  simp [signedMoment, edges] at this

/-- **C64 (line given by its ends).** For a line from left to right: the pieces returned as "above" lie left of the
line, those "below" right of it, and together they cover the surface once. -/
theorem C64_split_ends {sh : Shapely} {p : Polygon} {R : Set (ℝ × ℝ)} (a b : ℝ × ℝ) (hlt : a.1 < b.1)
    (hc : CutsWell sh p R a b) (hp : Bounds p R) :
    ∃ As Bs, List.Forall₂ Bounds (splitSurface sh p (.ends a b)).1 As ∧
      List.Forall₂ Bounds (splitSurface sh p (.ends a b)).2 Bs ∧
      (∀ S ∈ As, S ⊆ leftOf a b) ∧ (∀ S ∈ Bs, S ⊆ rightOf a b) ∧ CoversOnce R (As ++ Bs) := by
  by_cases hi : sh.intersects a b p
  · rw [show splitSurface sh p (.ends a b) = classify a b (sh.split p a b) from if_pos hi]
    obtain ⟨Rs, h1, h2, h3⟩ := hc.split hi
    obtain ⟨As, Bs, g1, g2, g3, g4, g5⟩ := classify_ok hlt h1 h2
    exact ⟨As, Bs, g1, g2, g3, g4, coversOnce_perm g5 h3⟩
  · rw [show splitSurface sh p (.ends a b) = classify a b [p] from if_neg hi]
    obtain ⟨As, Bs, g1, g2, g3, g4, g5⟩ := classify_ok hlt (qs := [p]) (Rs := [R])
      (List.Forall₂.cons hp List.Forall₂.nil) (by
        intro S hS
        rw [List.mem_singleton] at hS
        subst hS
        exact hc.apart hi)
    refine ⟨As, Bs, g1, g2, g3, g4, coversOnce_perm g5 ?_⟩
    exact Filter.Eventually.of_forall fun x => by simp

theorem leftOf_above {c : ℝ × ℝ} {m x1 x2 : ℝ} (h : x1 < x2) :
    leftOf (x1, c.2 + (x1 - c.1) * m) (x2, c.2 + (x2 - c.1) * m) = aboveLine c m := by
  ext x
  simp only [leftOf, aboveLine, Set.mem_ofPred_eq, cross]
  rw [show (x2 - x1) * (x.2 - (c.2 + (x1 - c.1) * m)) -
      (x.1 - x1) * (c.2 + (x2 - c.1) * m - (c.2 + (x1 - c.1) * m)) =
      (x2 - x1) * (x.2 - (c.2 + m * (x.1 - c.1))) by ring]
  have : 0 < x2 - x1 := by linarith
  rw [mul_nonneg_iff_of_pos_left this, sub_nonneg]

theorem rightOf_below {c : ℝ × ℝ} {m x1 x2 : ℝ} (h : x1 < x2) :
    rightOf (x1, c.2 + (x1 - c.1) * m) (x2, c.2 + (x2 - c.1) * m) = belowLine c m := by
  ext x
  simp only [rightOf, belowLine, Set.mem_ofPred_eq, cross]
  rw [show (x2 - x1) * (x.2 - (c.2 + (x1 - c.1) * m)) -
      (x.1 - x1) * (c.2 + (x2 - c.1) * m - (c.2 + (x1 - c.1) * m)) =
      (x2 - x1) * (x.2 - (c.2 + m * (x.1 - c.1))) by ring]
  have : 0 < x2 - x1 := by linarith
  constructor
  · intro h'
    by_contra hn
    push Not at hn
    have := mul_pos this (sub_pos.2 hn)
    linarith
  · intro h'
    exact mul_nonpos_of_nonneg_of_nonpos this.le (by linarith)

/-- **C64 (line given by point and angle).** For every angle that is not within `1e-8` of vertical and every point,
whatever its position: the pieces above lie on or above the line, those below on or below it, and together they cover
the surface once.  (For vertical lines see `C36_vertical_violated`.) -/
theorem C64_split_partial {sh : Shapely} {p : Polygon} {R : Set (ℝ × ℝ)} (hp : Bounds p R)
    (c : ℝ × ℝ) (theta : ℝ) (ht : 1e-8 < |Real.cos theta|)
    (hc : ∀ a b, (∀ v ∈ p.ext, a.1 < v.1 ∧ v.1 < b.1) →
      cross a b c = 0 → (b.1 - a.1) * Real.sin theta = (b.2 - a.2) * Real.cos theta → CutsWell sh p R a b) :
    ∃ As Bs, List.Forall₂ Bounds (splitSurface sh p (.pointAngle c theta)).1 As ∧
      List.Forall₂ Bounds (splitSurface sh p (.pointAngle c theta)).2 Bs ∧
      (∀ S ∈ As, S ⊆ aboveLine c (Real.tan theta)) ∧ (∀ S ∈ Bs, S ⊆ belowLine c (Real.tan theta)) ∧
      CoversOnce R (As ++ Bs) := by
  have hne := bounds_ext_ne hp.1
  obtain ⟨v, hv⟩ := List.exists_mem_of_ne_nil _ hne
  have hb := bounds_spec hne hv
  have hlt : p.bounds.1 - 1e-3 < p.bounds.2.2.1 + 1e-3 := by
    have : (0 : ℝ) < 1e-3 := by norm_num
    linarith [hb.1, hb.2.1]
  have hl : createLine c theta p.bounds = ((p.bounds.1 - 1e-3, c.2 + (p.bounds.1 - 1e-3 - c.1) * Real.tan theta),
      (p.bounds.2.2.1 + 1e-3, c.2 + (p.bounds.2.2.1 + 1e-3 - c.1) * Real.tan theta)) := by
    simp only [createLine, if_pos ht, Real.tan_eq_sin_div_cos]
  have := C64_split_ends (p.bounds.1 - 1e-3, c.2 + (p.bounds.1 - 1e-3 - c.1) * Real.tan theta)
      (p.bounds.2.2.1 + 1e-3, c.2 + (p.bounds.2.2.1 + 1e-3 - c.1) * Real.tan theta) hlt (hc _ _ (by
        intro w hw
        have := bounds_spec hne hw
        have h3 : (0 : ℝ) < 1e-3 := by norm_num
        simp only
        exact ⟨by linarith [this.1], by linarith [this.2.1]⟩) (by simp only [cross]; ring) (by
        have hc0 : Real.cos theta ≠ 0 := by
          intro h0; rw [h0] at ht; norm_num at ht
        rw [Real.tan_eq_sin_div_cos]
        field_simp
        ring)) hp
  rw [leftOf_above hlt, rightOf_below hlt] at this
  have e : splitSurface sh p (.pointAngle c theta) = splitSurface sh p (.ends
      (p.bounds.1 - 1e-3, c.2 + (p.bounds.1 - 1e-3 - c.1) * Real.tan theta)
      (p.bounds.2.2.1 + 1e-3, c.2 + (p.bounds.2.2.1 + 1e-3 - c.1) * Real.tan theta)) := by
    unfold splitSurface
    rw [show LineArg.line p (.pointAngle c theta) = createLine c theta p.bounds from rfl, hl]
    rfl
  rw [e]
  exact this

theorem volume_graph (c : ℝ × ℝ) (m : ℝ) : volume (aboveLine c m ∩ belowLine c m) = 0 := by
  have h := @volume_cross (c.1, c.2) (c.1 + 1, c.2 + m) (by simp)
  refine measure_mono_null ?_ h
  intro x hx
  obtain ⟨h1, h2⟩ := hx
  simp only [aboveLine, belowLine, Set.mem_ofPred_eq] at h1 h2
  simp only [Set.mem_ofPred_eq, cross]
  linarith

theorem measurable_above (c : ℝ × ℝ) (m : ℝ) : MeasurableSet (aboveLine c m) :=
  (isClosed_le (by fun_prop) (by fun_prop)).measurableSet

theorem forall₂_mem {α β : Type} {P : α → β → Prop} {l : List α} {l' : List β} (h : List.Forall₂ P l l') :
    ∀ b ∈ l', ∃ a ∈ l, P a b := by
  induction h with
  | nil => simp
  | cons hp _ ih =>
    intro b hb
    rcases List.mem_cons.1 hb with rfl | hb
    · exact ⟨_, List.mem_cons_self, hp⟩
    · obtain ⟨a, ha, hab⟩ := ih b hb
      exact ⟨a, List.mem_cons_of_mem _ ha, hab⟩

/-- The pieces above make up the part of the region above. -/
theorem above_integral {R : Set (ℝ × ℝ)} (hR : MeasurableSet R) {As Bs : List (Set (ℝ × ℝ))}
    (hA : ∀ S ∈ As, MeasurableSet S ∧ Bornology.IsBounded S) (hB : ∀ S ∈ Bs, MeasurableSet S ∧ Bornology.IsBounded S)
    {c : ℝ × ℝ} {m : ℝ} (ha : ∀ S ∈ As, S ⊆ aboveLine c m) (hb : ∀ S ∈ Bs, S ⊆ belowLine c m)
    (hc : CoversOnce R (As ++ Bs)) {g : ℝ × ℝ → ℝ} (hg : Continuous g) :
    (As.map fun S => ∫ x in S, g x).sum = ∫ x in R ∩ aboveLine c m, g x := by
  have hm := measurable_above c m
  have h := covers_integral hc hR (f := (aboveLine c m).indicator g)
    (by
      intro S hS
      rcases List.mem_append.1 hS with hS | hS
      · exact (hA S hS).1
      · exact (hB S hS).1)
    (by
      intro S hS
      have : Bornology.IsBounded S := by
        rcases List.mem_append.1 hS with hS | hS
        · exact (hA S hS).2
        · exact (hB S hS).2
      exact (continuous_integrableOn hg this).indicator hm)
  rw [setIntegral_indicator hm] at h
  rw [← h, List.map_append, List.sum_append]
  have h1 : As.map (fun S => ∫ x in S, (aboveLine c m).indicator g x) = As.map fun S => ∫ x in S, g x := by
    refine List.map_congr_left fun S hS => ?_
    refine setIntegral_congr_fun (hA S hS).1 fun x hx => ?_
    exact Set.indicator_of_mem (ha S hS hx) g
  have h2 : Bs.map (fun S => ∫ x in S, (aboveLine c m).indicator g x) = Bs.map fun _ => 0 := by
    refine List.map_congr_left fun S hS => ?_
    rw [setIntegral_indicator hm]
    refine setIntegral_measure_zero _ (measure_mono_null ?_ (volume_graph c m))
    intro x hx
    exact ⟨hx.2, hb S hS hx.1⟩
  rw [h1, h2]
  simp

/-- **C64 (areas).** The areas of the polygons returned as "above" add up to the area of the part of the surface
above the line, and likewise their first moments: any integral over the upper part is the sum over the polygons. -/
theorem C64_area_partial {sh : Shapely} {p : Polygon} {R : Set (ℝ × ℝ)} (hp : Bounds p R)
    (c : ℝ × ℝ) (theta : ℝ) (ht : 1e-8 < |Real.cos theta|)
    (hc : ∀ a b, (∀ v ∈ p.ext, a.1 < v.1 ∧ v.1 < b.1) →
      cross a b c = 0 → (b.1 - a.1) * Real.sin theta = (b.2 - a.2) * Real.cos theta → CutsWell sh p R a b) :
    ((splitSurface sh p (.pointAngle c theta)).1.map Polygon.area).sum =
      (volume (R ∩ aboveLine c (Real.tan theta))).toReal := by
  obtain ⟨As, Bs, h1, h2, h3, h4, h5⟩ := C64_split_partial hp c theta ht hc
  have hA : ∀ S ∈ As, MeasurableSet S ∧ Bornology.IsBounded S := by
    intro S hS
    obtain ⟨q, -, hq⟩ := forall₂_mem h1 S hS
    exact ⟨hq.1.measurable, hq.1.bounded⟩
  have hB : ∀ S ∈ Bs, MeasurableSet S ∧ Bornology.IsBounded S := by
    intro S hS
    obtain ⟨q, -, hq⟩ := forall₂_mem h2 S hS
    exact ⟨hq.1.measurable, hq.1.bounded⟩
  have hI := above_integral hp.1.measurable hA hB h3 h4 h5 (g := fun _ => 1) continuous_const
  have hvol : ∫ _ in R ∩ aboveLine c (Real.tan theta), (1 : ℝ) =
      (volume (R ∩ aboveLine c (Real.tan theta))).toReal := by simp [Measure.real]
  rw [← hvol, ← hI]
  clear hI h3 h4 h5 h2 hA
  generalize (splitSurface sh p (.pointAngle c theta)).1 = qs at h1
  induction h1 with
  | nil => simp
  | cons h _ ih =>
    rw [List.map_cons, List.sum_cons, List.map_cons, List.sum_cons, ih, polygon_area_eq h.1]
    simp [areaMoment]

end

end SC
