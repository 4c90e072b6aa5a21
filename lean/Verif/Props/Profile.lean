import Verif.Model.Profile
import Verif.Lemmas.Profile
import Verif.Lemmas.RegionTranslate
import Verif.Props.Geometry
import Verif.Props.Gross
import Verif.Lemmas.Loop

/-! # C60: section properties of profiles -/

set_option autoImplicit false

namespace SC

open MeasureTheory Spec

/-- The polygon of a profile: no holes, counterclockwise (the constructors call `orient`), bounding the region
`R`, which lies in the bounding box of the vertices. -/
structure ProfileShape (p : Polygon) (R : Set (ℝ × ℝ)) : Prop where
  ints : p.ints = []
  encloses : Encloses p.ext [] R
  ccw : 0 < marin p.ext 0 0
  box : ∀ x ∈ R, p.bounds.1 ≤ x.1 ∧ x.1 ≤ p.bounds.2.2.1 ∧ p.bounds.2.1 ≤ x.2 ∧ x.2 ≤ p.bounds.2.2.2

/-- What is assumed of shapely's `split` and `intersects` for a polygon `p` (also moved up or down by `dz`)
and a horizontal line that reaches across it: the pieces are polygons without holes that bound the parts of
the region, and a line that does not intersect has the whole region on one side. -/
structure SplitsWell (sh : Shapely) (p : Polygon) (R : Set (ℝ × ℝ)) : Prop where
  split : ∀ dz z X, (∀ v ∈ p.ext, |v.1| ≤ X) → ∃ Rs : List (Set (ℝ × ℝ)),
    List.Forall₂ (fun q S => q.ints = [] ∧ Encloses q.ext [] S)
      (sh.split (p.map (translatePt 0 dz)) (-X, z) (X, z)) Rs ∧
    Splits z (translatePt 0 dz '' R) Rs
  apart : ∀ z X, (∀ v ∈ p.ext, |v.1| ≤ X) → ¬ sh.intersects (-X, z) (X, z) p →
    R ⊆ {x | z ≤ x.2} ∨ R ⊆ {x | x.2 ≤ z}

/-! ### Pieces -/

theorem marin_signed {r : List (ℝ × ℝ)} (h : Closed r) (m n : ℕ) : marin r m n = signedMoment m n 0 r := by
  have h1 := C01_signed_moment r h 0 m n
  rw [marinIntegration_ok] at h1
  exact Except.ok.inj h1

theorem encloses_ring {r : List (ℝ × ℝ)} {S : Set (ℝ × ℝ)} (h : Encloses r [] S) (m n : ℕ) :
    SignType.sign (marin r 0 0) * marin r m n = areaMoment m n S := by
  rw [marin_signed h.ext_proper.1, marin_signed h.ext_proper.1, ← h.moments m n]
  simp [holedMoment, ringMoment]

theorem encloses_area_pos {r : List (ℝ × ℝ)} {S : Set (ℝ × ℝ)} (h : Encloses r [] S) : 0 < areaMoment 0 0 S := by
  rw [← encloses_ring h 0 0]
  have hne : marin r 0 0 ≠ 0 := by rw [marin_signed h.ext_proper.1]; exact h.ext_proper.2
  rw [sign_mul_self]
  exact abs_pos.2 hne

theorem areaMoment_zero (S : Set (ℝ × ℝ)) : areaMoment 0 0 S = (volume S).toReal := by
  simp [areaMoment, Measure.real]

theorem encloses_volume_pos {r : List (ℝ × ℝ)} {S : Set (ℝ × ℝ)} (h : Encloses r [] S) : 0 < volume S := by
  have := encloses_area_pos h
  rw [areaMoment_zero] at this
  exact (ENNReal.toReal_pos_iff.1 this).1

theorem piece_area {q : Polygon} {S : Set (ℝ × ℝ)} (hi : q.ints = []) (h : Encloses q.ext [] S) :
    q.area = (volume S).toReal := by
  rw [← areaMoment_zero]
  exact polygon_area_eq (by rw [hi]; exact h)

theorem piece_centroid {q : Polygon} {S : Set (ℝ × ℝ)} (hi : q.ints = []) (h : Encloses q.ext [] S) :
    q.centroid = (areaMoment 1 0 S / areaMoment 0 0 S, areaMoment 0 1 S / areaMoment 0 0 S) := by
  simp only [Polygon.centroid, hi, List.map_nil, List.sum_nil, sub_zero, encloses_ring h]

/-- The height over a line integrates to something positive above it. -/
theorem integral_above {S : Set (ℝ × ℝ)} (hb : Bornology.IsBounded S) (hm : MeasurableSet S)
    (hv : 0 < volume S) (z : ℝ) (hs : S ⊆ {x | z ≤ x.2}) : 0 < ∫ x in S, (x.2 - z) := by
  have hi : IntegrableOn (fun x : ℝ × ℝ => x.2 - z) S := continuous_integrableOn (by fun_prop) hb
  rw [setIntegral_pos_iff_support_of_nonneg_ae ?_ hi]
  · have : S \ {x : ℝ × ℝ | x.2 = z} ⊆ Function.support (fun x : ℝ × ℝ => x.2 - z) ∩ S := by
      intro x hx
      exact ⟨by simpa [sub_eq_zero] using hx.2, hx.1⟩
    refine lt_of_lt_of_le ?_ (measure_mono this)
    rw [measure_sdiff_null (volume_line z)]
    exact hv
  · filter_upwards [ae_restrict_mem hm] with x hx
    have : z ≤ x.2 := hs hx
    simpa using this

theorem integral_below {S : Set (ℝ × ℝ)} (hb : Bornology.IsBounded S) (hm : MeasurableSet S)
    (hv : 0 < volume S) (z : ℝ) (hs : S ⊆ {x | x.2 ≤ z}) : ∫ x in S, (x.2 - z) < 0 := by
  have hi : IntegrableOn (fun x : ℝ × ℝ => z - x.2) S := continuous_integrableOn (by fun_prop) hb
  have : 0 < ∫ x in S, (z - x.2) := by
    rw [setIntegral_pos_iff_support_of_nonneg_ae ?_ hi]
    · have : S \ {x : ℝ × ℝ | x.2 = z} ⊆ Function.support (fun x : ℝ × ℝ => z - x.2) ∩ S := by
        intro x hx
        exact ⟨by simpa [sub_eq_zero, eq_comm] using hx.2, hx.1⟩
      refine lt_of_lt_of_le ?_ (measure_mono this)
      rw [measure_sdiff_null (volume_line z)]
      exact hv
    · filter_upwards [ae_restrict_mem hm] with x hx
      have : x.2 ≤ z := hs hx
      simpa using this
  have e : ∫ x in S, (x.2 - z) = -∫ x in S, (z - x.2) := by
    rw [← integral_neg]; congr 1; funext x; ring
  rw [e]; linarith

theorem integral_height {S : Set (ℝ × ℝ)} (hb : Bornology.IsBounded S) (z : ℝ) :
    ∫ x in S, (x.2 - z) = areaMoment 0 1 S - z * areaMoment 0 0 S := by
  rw [integral_sub (continuous_integrableOn (by fun_prop) hb) (continuous_integrableOn (by fun_prop) hb)]
  simp [areaMoment, mul_comm]

/-- A piece on one side of the line is counted on that side. -/
theorem addSide_piece {q : Polygon} {S : Set (ℝ × ℝ)} (hi : q.ints = []) (h : Encloses q.ext [] S) {z X : ℝ}
    (hX : 0 < X) (hs : S ⊆ {x | z ≤ x.2} ∨ S ⊆ {x | x.2 ≤ z}) (acc : ℝ × ℝ) :
    (addSide (-X, z) (X, z) acc q).1 - (addSide (-X, z) (X, z) acc q).2 =
      acc.1 - acc.2 + ∫ x in S, sgn z x := by
  have hA := encloses_area_pos h
  have hv := encloses_volume_pos h
  have hc : isCcw (-X, z) (X, z) q.centroid ↔ 0 < ∫ x in S, (x.2 - z) := by
    rw [integral_height h.bounded, piece_centroid hi h]
    unfold isCcw
    simp only [sub_self, mul_zero, sub_zero]
    rw [show (X - -X) * (areaMoment 0 1 S / areaMoment 0 0 S - z) =
      (2 * X / areaMoment 0 0 S) * (areaMoment 0 1 S - z * areaMoment 0 0 S) by field_simp; ring]
    have : 0 < 2 * X / areaMoment 0 0 S := by positivity
    exact ⟨fun h => (pos_iff_pos_of_mul_pos h).1 this, fun h => mul_pos this h⟩
  have hvol : ∫ _ in S, (1 : ℝ) = (volume S).toReal := by simp [Measure.real]
  rcases hs with hs | hs
  · have hI : ∫ x in S, sgn z x = (volume S).toReal := by
      rw [← hvol]
      refine integral_congr_ae ?_
      filter_upwards [ae_ne_line z S, ae_restrict_mem h.measurable] with x hx hxS
      have : z < x.2 := lt_of_le_of_ne (hs hxS) (Ne.symm hx)
      simp [sgn, sign_pos (sub_pos.2 this)]
    rw [addSide, if_pos (hc.2 (integral_above h.bounded h.measurable hv z hs)), hI, piece_area hi h]
    ring
  · have hI : ∫ x in S, sgn z x = -(volume S).toReal := by
      rw [← hvol, ← integral_neg]
      refine integral_congr_ae ?_
      filter_upwards [ae_ne_line z S, ae_restrict_mem h.measurable] with x hx hxS
      have : x.2 < z := lt_of_le_of_ne (hs hxS) hx
      simp [sgn, sign_neg (sub_neg.2 this)]
    have hn := integral_below h.bounded h.measurable hv z hs
    rw [addSide, if_neg (fun hh => absurd (hc.1 hh) (not_lt.2 hn.le)), hI, piece_area hi h]
    ring

theorem foldl_addSide {z X : ℝ} (hX : 0 < X) {qs : List Polygon} {Rs : List (Set (ℝ × ℝ))}
    (hf : List.Forall₂ (fun q S => q.ints = [] ∧ Encloses q.ext [] S) qs Rs)
    (hs : ∀ S ∈ Rs, S ⊆ {x | z ≤ x.2} ∨ S ⊆ {x | x.2 ≤ z}) (acc : ℝ × ℝ) :
    (qs.foldl (addSide (-X, z) (X, z)) acc).1 - (qs.foldl (addSide (-X, z) (X, z)) acc).2 =
      acc.1 - acc.2 + (Rs.map fun S => ∫ x in S, sgn z x).sum := by
  induction hf generalizing acc with
  | nil => simp
  | cons h _ ih =>
    simp only [List.foldl_cons, List.map_cons, List.sum_cons]
    rw [ih (fun S hS => hs S (by simp [hS])), addSide_piece h.1 h.2 hX (hs _ (by simp))]
    ring

theorem foldl_absMoment {qs : List Polygon} {Rs : List (Set (ℝ × ℝ))}
    (hf : List.Forall₂ (fun q S => q.ints = [] ∧ Encloses q.ext [] S) qs Rs)
    (hs : ∀ S ∈ Rs, S ⊆ {x | (0 : ℝ) ≤ x.2} ∨ S ⊆ {x | x.2 ≤ (0 : ℝ)}) (acc : ℝ) :
    qs.foldl (fun w (r : Polygon) => w + |marin r.ext 0 1|) acc =
      acc + (Rs.map fun S => ∫ x in S, |x.2 - 0|).sum := by
  induction hf generalizing acc with
  | nil => simp
  | @cons q S _ _ h _ ih =>
    simp only [List.foldl_cons, List.map_cons, List.sum_cons]
    rw [ih (fun S hS => hs S (by simp [hS])), add_assoc]
    congr 2
    have hne : marin q.ext 0 0 ≠ 0 := by rw [marin_signed h.2.ext_proper.1]; exact h.2.ext_proper.2
    have e : |marin q.ext 0 1| = |areaMoment 0 1 S| := by
      rw [← encloses_ring h.2 0 1, abs_mul]
      rcases lt_or_gt_of_ne hne with h | h
      · simp [sign_neg h]
      · simp [sign_pos h]
    rw [e]
    simp only [areaMoment, pow_zero, one_mul, pow_one, sub_zero]
    rcases hs S (by simp) with h0 | h0
    · rw [abs_of_nonneg (setIntegral_nonneg h.2.measurable fun x hx => h0 hx)]
      exact setIntegral_congr_fun h.2.measurable fun x hx => (abs_of_nonneg (h0 hx)).symm
    · rw [abs_of_nonpos (setIntegral_nonpos h.2.measurable fun x hx => h0 hx), ← integral_neg]
      exact setIntegral_congr_fun h.2.measurable fun x hx => (abs_of_nonpos (h0 hx)).symm

/-! ### Bounds -/

theorem bounds_spec {p : Polygon} (h : p.ext ≠ []) {v : ℝ × ℝ} (hv : v ∈ p.ext) :
    p.bounds.1 ≤ v.1 ∧ v.1 ≤ p.bounds.2.2.1 ∧ p.bounds.2.1 ≤ v.2 ∧ v.2 ≤ p.bounds.2.2.2 := by
  have n1 : p.ext.map Prod.fst ≠ [] := by simpa using h
  have n2 : p.ext.map Prod.snd ≠ [] := by simpa using h
  exact ⟨(listMin_spec _ n1).2 _ (List.mem_map_of_mem hv), (listMax_spec _ n1).2 _ (List.mem_map_of_mem hv),
    (listMin_spec _ n2).2 _ (List.mem_map_of_mem hv), (listMax_spec _ n2).2 _ (List.mem_map_of_mem hv)⟩

theorem marin_nil00 : marin [] 0 0 = 0 := by simp [marin]

theorem ProfileShape.ne {p : Polygon} {R : Set (ℝ × ℝ)} (h : ProfileShape p R) : p.ext ≠ [] := by
  intro he
  have := h.ccw
  rw [he, marin_nil00] at this
  exact lt_irrefl _ this

theorem abs_le_max {a b x : ℝ} (h1 : a ≤ x) (h2 : x ≤ b) : |x| ≤ max |a| b := by
  rw [abs_le]
  constructor
  · have := neg_abs_le a
    have := le_max_left |a| b
    linarith
  · exact h2.trans (le_max_right _ _)

theorem ProfileShape.volume_pos {p : Polygon} {R : Set (ℝ × ℝ)} (h : ProfileShape p R) : 0 < volume R :=
  encloses_volume_pos h.encloses

theorem volume_vline (z : ℝ) : volume {x : ℝ × ℝ | x.1 = z} = 0 := by
  have : {x : ℝ × ℝ | x.1 = z} = {z} ×ˢ Set.univ := by ext x; simp
  rw [this, Measure.volume_eq_prod, Measure.prod_prod]
  simp

theorem ProfileShape.xmax_pos {p : Polygon} {R : Set (ℝ × ℝ)} (h : ProfileShape p R) :
    0 < max |p.bounds.1| p.bounds.2.2.1 := by
  by_contra hn
  have : R ⊆ {x | x.1 = 0} := by
    intro x hx
    have hb := h.box x hx
    have := abs_le_max hb.1 hb.2.1
    have h0 : |x.1| ≤ 0 := this.trans (not_lt.1 hn)
    simpa using h0
  exact absurd h.volume_pos (by rw [measure_mono_null this (volume_vline 0)]; simp)

theorem ProfileShape.ymax_pos {p : Polygon} {R : Set (ℝ × ℝ)} (h : ProfileShape p R) :
    0 < max |p.bounds.2.1| p.bounds.2.2.2 := by
  by_contra hn
  have : R ⊆ {x | x.2 = 0} := by
    intro x hx
    have hb := h.box x hx
    have := abs_le_max hb.2.2.1 hb.2.2.2
    have h0 : |x.2| ≤ 0 := this.trans (not_lt.1 hn)
    simpa using h0
  exact absurd h.volume_pos (by rw [measure_mono_null this (volume_line 0)]; simp)

theorem ProfileShape.height_pos {p : Polygon} {R : Set (ℝ × ℝ)} (h : ProfileShape p R) :
    p.bounds.2.1 < p.bounds.2.2.2 := by
  by_contra hn
  have : R ⊆ {x | x.2 = p.bounds.2.1} := by
    intro x hx
    have hb := h.box x hx
    show x.2 = _
    exact le_antisymm (hb.2.2.2.trans (not_lt.1 hn)) hb.2.2.1
  exact absurd h.volume_pos (by rw [measure_mono_null this (volume_line _)]; simp)

/-! ### The imbalance computed by the code -/

theorem map_translate_zero (p : Polygon) : p.map (translatePt 0 0) = p := by
  have : translatePt 0 0 = id := by funext v; simp [translatePt]
  simp [Polygon.map, this]

theorem splits_measurable {qs : List Polygon} {Rs : List (Set (ℝ × ℝ))}
    (hf : List.Forall₂ (fun q S => q.ints = [] ∧ Encloses q.ext [] S) qs Rs) :
    ∀ S ∈ Rs, MeasurableSet S ∧ Bornology.IsBounded S := by
  induction hf with
  | nil => simp
  | cons h _ ih =>
    intro S hS
    rcases List.mem_cons.1 hS with rfl | hS
    · exact ⟨h.2.measurable, h.2.bounded⟩
    · exact ih S hS

theorem xmax_covers {p : Polygon} (h : p.ext ≠ []) {v : ℝ × ℝ} (hv : v ∈ p.ext) :
    |v.1| ≤ max |p.bounds.1| p.bounds.2.2.1 :=
  abs_le_max (bounds_spec h hv).1 (bounds_spec h hv).2.1

/-- `_find_delta_area_above_minus_below` computes the area above minus the area below. -/
theorem deltaArea_eq {sh : Shapely} {p : Polygon} {R : Set (ℝ × ℝ)} (h : ProfileShape p R)
    (hs : SplitsWell sh p R) (z : ℝ) : deltaArea sh p z = imbalance R z := by
  have hX := h.xmax_pos
  have hcov : ∀ v ∈ p.ext, |v.1| ≤ max |p.bounds.1| p.bounds.2.2.1 * 1.05 := by
    intro v hv
    have := xmax_covers h.ne hv
    linarith
  rw [imbalance_eq z h.encloses.measurable h.encloses.bounded]
  unfold deltaArea
  simp only [show -max |p.bounds.1| p.bounds.2.2.1 * 1.05 = -(max |p.bounds.1| p.bounds.2.2.1 * 1.05) from
    neg_mul _ _]
  set X := max |p.bounds.1| p.bounds.2.2.1 * 1.05 with hXd
  have hX' : 0 < X := by positivity
  split_ifs with hi
  · obtain ⟨Rs, hf, hsp⟩ := hs.split 0 z X hcov
    rw [map_translate_zero] at hf
    have himg : translatePt 0 0 '' R = R := by
      have : translatePt 0 0 = id := by funext v; simp [translatePt]
      simp [this]
    rw [himg] at hsp
    rw [foldl_addSide hX' hf hsp.side, hsp.integral h.encloses.measurable
      (fun S hS => (splits_measurable hf S hS).1) _ (fun S hS => sgn_integrable z (splits_measurable hf S hS).2)]
    simp
  · rw [addSide_piece h.ints h.encloses hX' (hs.apart z X hcov (by rw [neg_mul] at hi; exact hi))]
    simp

theorem imbalance_bottom {p : Polygon} {R : Set (ℝ × ℝ)} (h : ProfileShape p R) :
    0 < imbalance R p.bounds.2.1 := by
  have hs : R ⊆ {x | p.bounds.2.1 ≤ x.2} := fun x hx => (h.box x hx).2.2.1
  unfold imbalance
  have e1 : R ∩ {x | p.bounds.2.1 ≤ x.2} = R := Set.inter_eq_left.2 hs
  have e2 : volume (R ∩ {x | x.2 ≤ p.bounds.2.1}) = 0 := by
    refine measure_mono_null ?_ (volume_line p.bounds.2.1)
    intro x hx
    exact le_antisymm hx.2 (hs hx.1)
  rw [e1, e2]
  simpa using ENNReal.toReal_pos h.volume_pos.ne' (bounded_finite h.encloses.bounded).ne

theorem imbalance_top {p : Polygon} {R : Set (ℝ × ℝ)} (h : ProfileShape p R) :
    imbalance R p.bounds.2.2.2 < 0 := by
  have hs : R ⊆ {x | x.2 ≤ p.bounds.2.2.2} := fun x hx => (h.box x hx).2.2.2
  unfold imbalance
  have e1 : R ∩ {x | x.2 ≤ p.bounds.2.2.2} = R := Set.inter_eq_left.2 hs
  have e2 : volume (R ∩ {x | p.bounds.2.2.2 ≤ x.2}) = 0 := by
    refine measure_mono_null ?_ (volume_line p.bounds.2.2.2)
    intro x hx
    exact le_antisymm (hs hx.1) hx.2
  rw [e1, e2]
  have : 0 < (volume R).toReal := ENNReal.toReal_pos h.volume_pos.ne' (bounded_finite h.encloses.bounded).ne
  simpa using this

/-! ### The bisection -/

/-- Invariant of the search: the bracket is the section height halved `it` times, with a positive imbalance at
the lower end and a negative one at the upper end; the last midpoint is one of the ends, or the search was
stopped there. -/
structure PnaInv (D : ℝ → ℝ) (lo hi : ℝ) (s : PnaState) : Prop where
  lo_le : lo ≤ s.zA
  le_hi : s.zB ≤ hi
  width : s.zB - s.zA = (hi - lo) / 2 ^ s.it
  daA : s.daA = D s.zA
  posA : 0 < D s.zA
  negB : D s.zB < 0
  few : s.it ≤ 34
  start : s.zC = none → s.it = 0 ∧ s.stop = false
  last : ∀ z, s.zC = some z → s.stop = false → z = s.zA ∨ z = s.zB
  found : ∀ z, s.zC = some z → s.stop = true → |D z| < 1e-10 ∧ lo ≤ z ∧ z ≤ hi

theorem pnaBody_inv {D : ℝ → ℝ} {lo hi : ℝ} (hlt : lo < hi) {s s' : PnaState} (h : PnaInv D lo hi s)
    (hc : pnaCond (hi - lo) s) (hb : pnaBody D s = .ok s') :
    PnaInv D lo hi s' ∧ (s'.stop = true ∨ s'.it = s.it + 1) := by
  obtain ⟨hstop, _, hw⟩ := hc
  have hpos : (0 : ℝ) < (hi - lo) / 2 ^ s.it := div_pos (by linarith) (by positivity)
  have hit : s.it < 34 := by
    by_contra hn
    have : (2 : ℝ) ^ 34 ≤ 2 ^ s.it := pow_le_pow_right₀ (by norm_num) (by omega)
    rw [h.width, abs_of_pos hpos] at hw
    have h2 : (hi - lo) / 2 ^ s.it ≤ (hi - lo) / 2 ^ 34 :=
      div_le_div_of_nonneg_left (by linarith) (by positivity) this
    have h3 : (hi - lo) / 2 ^ 34 ≤ (hi - lo) * 1e-10 := by
      rw [div_eq_mul_inv]
      exact mul_le_mul_of_nonneg_left (by norm_num) (by linarith)
    linarith
  have hAB : s.zB - s.zA > 0 := by rw [h.width]; exact hpos
  have hlo := h.lo_le
  have hhi := h.le_hi
  simp only [pnaBody] at hb
  split_ifs at hb with h1 h2
  · cases hb
    refine ⟨⟨h.lo_le, h.le_hi, h.width, h.daA, h.posA, h.negB, h.few, by simp, by simp, ?_⟩, Or.inl rfl⟩
    intro z hz _
    simp only [Option.some.injEq] at hz
    subst hz
    exact ⟨h1, by linarith, by linarith⟩
  · cases hb
    rw [h.daA] at h2
    have hneg : D ((s.zA + s.zB) / 2) < 0 := by
      rcases mul_neg_iff.1 h2 with h | h
      · exact h.2
      · exact absurd h.1 (not_lt.2 (by linarith [‹PnaInv D lo hi s›.posA]))
    refine ⟨⟨h.lo_le, by simp only; linarith, ?_, h.daA, h.posA, hneg, by simp only; omega, by simp, ?_, ?_⟩,
      Or.inr rfl⟩
    · simp only
      rw [pow_succ, div_mul_eq_div_div, ← h.width]; ring
    · intro z hz _
      simp only [Option.some.injEq] at hz
      exact Or.inr hz.symm
    · intro z _ hst
      simp only [hstop] at hst
      cases hst
  · cases hb
    have hposC : 0 < D ((s.zA + s.zB) / 2) := by
      rw [h.daA] at h2
      have hnn : 0 ≤ D ((s.zA + s.zB) / 2) := by
        by_contra hn
        exact h2 (mul_neg_of_pos_of_neg h.posA (not_le.1 hn))
      rcases hnn.lt_or_eq with h | h
      · exact h
      · rw [← h] at h1; norm_num at h1
    refine ⟨⟨by simp only; linarith, h.le_hi, ?_, rfl, hposC, h.negB, by simp only; omega, by simp, ?_, ?_⟩,
      Or.inr rfl⟩
    · simp only
      rw [pow_succ, div_mul_eq_div_div, ← h.width]; ring
    · intro z hz _
      simp only [Option.some.injEq] at hz
      exact Or.inl hz.symm
    · intro z _ hst
      simp only [hstop] at hst
      cases hst

theorem pnaBody_ok (D : ℝ → ℝ) (s : PnaState) : ∃ s', pnaBody D s = .ok s' := by
  simp only [pnaBody]
  split_ifs <;> exact ⟨_, rfl⟩

/-- The bisection on any function that is positive at the bottom and negative at the top. -/
theorem pna_search {D : ℝ → ℝ} {lo hi : ℝ} (hlt : lo < hi) (h0 : 0 < D lo) (h1 : D hi < 0) :
    ∃ s k z, pyWhile (pnaCond (hi - lo)) (pnaBody D) ⟨lo, hi, D lo, 0, none, false⟩ = some (.ok s, k) ∧
      s.it < 200 ∧ s.zC = some z ∧ lo ≤ z ∧ z ≤ hi ∧
      (|D z| < 1e-10 ∨ ∃ a b, a ≤ z ∧ z ≤ b ∧ b - a ≤ (hi - lo) * 1e-10 ∧ lo ≤ a ∧ b ≤ hi ∧ 0 < D a ∧ D b < 0) := by
  have hinit : PnaInv D lo hi ⟨lo, hi, D lo, 0, none, false⟩ :=
    ⟨le_rfl, le_rfl, by simp, rfl, h0, h1, by simp, by simp, by simp, by simp⟩
  obtain ⟨r, k, hr, -⟩ := pyWhile_terminates (PnaInv D lo hi)
    (fun s => if s.stop then 0 else 201 - s.it)
    (fun s s' hI hc hb => by
      obtain ⟨hI', hstep⟩ := pnaBody_inv hlt hI hc hb
      refine ⟨hI', ?_⟩
      have := hc.1
      have := hc.2.1
      rcases hstep with h | h
      · simp only [h, if_true, hc.1]
        simp only [Bool.false_eq_true, if_false]; omega
      · simp only [hc.1, Bool.false_eq_true, if_false]
        split_ifs <;> omega)
    (fun s hI hc => by
      have := hc.2.1
      simp only [hc.1, Bool.false_eq_true, if_false]; omega)
    (s := ⟨lo, hi, D lo, 0, none, false⟩) hinit
  rcases pyWhile_inv (PnaInv D lo hi) (fun s s' hI hc hb => (pnaBody_inv hlt hI hc hb).1) hinit hr with
    ⟨s, hrs, hI, hnc⟩ | ⟨s, e, -, -, -, hbe⟩
  · simp only at hrs
    subst hrs
    have hfew := hI.few
    cases hz : s.zC with
    | none =>
      exfalso
      obtain ⟨hit, hst⟩ := hI.start hz
      apply hnc
      refine ⟨hst, by omega, ?_⟩
      rw [hI.width, hit]
      simp only [pow_zero, div_one]
      rw [abs_of_pos (by linarith)]
      nlinarith
    | some z =>
      have hpos : (0 : ℝ) < (hi - lo) / 2 ^ s.it := div_pos (by linarith) (by positivity)
      have hAB : s.zB - s.zA > 0 := by rw [hI.width]; exact hpos
      have hlo := hI.lo_le
      have hhi := hI.le_hi
      cases hst : s.stop with
      | true =>
        obtain ⟨hd, hl, hh⟩ := hI.found z hz hst
        exact ⟨s, k, z, hr, by omega, hz, hl, hh, Or.inl hd⟩
      | false =>
        have hle : s.zB - s.zA ≤ (hi - lo) * 1e-10 := by
          by_contra hn
          refine hnc ⟨hst, by omega, ?_⟩
          rw [abs_of_pos hAB]
          exact not_le.1 hn
        have hzz := hI.last z hz hst
        refine ⟨s, k, z, hr, by omega, hz, ?_, ?_, Or.inr ⟨s.zA, s.zB, ?_, ?_, hle, hlo, hhi, hI.posA, hI.negB⟩⟩
        all_goals rcases hzz with rfl | rfl <;> linarith
  · obtain ⟨s', hs'⟩ := pnaBody_ok D s
    rw [hs'] at hbe; cases hbe

/-- **C60, plastic neutral axis.** The search never raises.  The height it returns lies within the section
and either balances the areas to `1e-10` or lies within `1e-10` of the section height of a height that balances
them exactly. -/
theorem C60_neutral_axis {sh : Shapely} {p : Polygon} {R : Set (ℝ × ℝ)} (h : ProfileShape p R)
    (hs : SplitsWell sh p R) :
    ∃ z, findPna sh p = .ok z ∧ p.bounds.2.1 ≤ z ∧ z ≤ p.bounds.2.2.2 ∧
      (|imbalance R z| < 1e-10 ∨
        ∃ w, imbalance R w = 0 ∧ p.bounds.2.1 ≤ w ∧ w ≤ p.bounds.2.2.2 ∧
          |z - w| ≤ 1e-10 * (p.bounds.2.2.2 - p.bounds.2.1)) := by
  have hD : deltaArea sh p = imbalance R := funext fun z => deltaArea_eq h hs z
  obtain ⟨s, k, z, hr, hit, hz, hl, hh, hcase⟩ := pna_search h.height_pos (imbalance_bottom h) (imbalance_top h)
  refine ⟨z, ?_, hl, hh, ?_⟩
  · simp only [findPna, hD, hr, hz]
    rw [if_neg (by omega)]
  · rcases hcase with hc | ⟨a, b, haz, hzb, hw, hla, hbh, hpa, hnb⟩
    · exact Or.inl hc
    · right
      have hc := (imbalance_continuous h.encloses.measurable h.encloses.bounded).continuousOn (s := Set.Icc a b)
      obtain ⟨w, hw1, hw2⟩ := intermediate_value_Icc' (haz.trans hzb) hc ⟨hnb.le, hpa.le⟩
      refine ⟨w, hw2, hla.trans hw1.1, hw1.2.trans hbh, ?_⟩
      rw [abs_le]
      constructor <;> linarith [hw1.1, hw1.2]

/-! ### The plastic modulus -/

theorem absMoment_translate (R : Set (ℝ × ℝ)) (z : ℝ) :
    absMoment (translatePt 0 (-z) '' R) 0 = absMoment R z := by
  unfold absMoment
  rw [integral_translate]
  congr 1
  funext x
  simp only [translatePt]
  congr 1
  ring

theorem plasticModulus_eq {sh : Shapely} {p : Polygon} {R : Set (ℝ × ℝ)} (h : ProfileShape p R)
    (hs : SplitsWell sh p R) {X z : ℝ} (hX : ∀ v ∈ p.ext, |v.1| ≤ X) (hz : findPna sh p = .ok z) :
    plasticModulus sh p X = .ok (absMoment R z) := by
  have hX' : ∀ v ∈ p.ext, |v.1| ≤ X * 1.05 := by
    intro v hv
    have := hX v hv
    have := abs_nonneg v.1
    linarith
  obtain ⟨Rs, hf, hsp⟩ := hs.split (-z) 0 (X * 1.05) hX'
  have hm : MeasurableSet (translatePt 0 (-z) '' R) :=
    (encloses_translate 0 (-z) h.encloses).measurable
  simp only [plasticModulus, hz, bind, Except.bind, pure, Except.pure, neg_mul]
  rw [foldl_absMoment hf hsp.side, zero_add,
    hsp.integral hm (fun S hS => (splits_measurable hf S hS).1) _
      (fun S hS => absMoment_integrable 0 (splits_measurable hf S hS).2)]
  congr 1
  exact absMoment_translate R z

/-- The absolute moment at the computed axis exceeds its minimum by no more than the tolerance. -/
theorem absMoment_near {p : Polygon} {R : Set (ℝ × ℝ)} (h : ProfileShape p R) {z : ℝ}
    (hz1 : p.bounds.2.1 ≤ z) (hz2 : z ≤ p.bounds.2.2.2)
    (hz : |imbalance R z| < 1e-10 ∨ ∃ w, imbalance R w = 0 ∧ p.bounds.2.1 ≤ w ∧ w ≤ p.bounds.2.2.2 ∧
          |z - w| ≤ 1e-10 * (p.bounds.2.2.2 - p.bounds.2.1))
    {w : ℝ} (hw : imbalance R w = 0) (hw1 : p.bounds.2.1 ≤ w) (hw2 : w ≤ p.bounds.2.2.2) :
    absMoment R w ≤ absMoment R z ∧
    absMoment R z ≤ absMoment R w +
      1e-10 * (p.bounds.2.2.2 - p.bounds.2.1) * max 1 (areaMoment 0 0 R) := by
  have hm := h.encloses.measurable
  have hb := h.encloses.bounded
  have hmin : ∀ w', imbalance R w' = 0 → ∀ u, absMoment R w' ≤ absMoment R u := by
    intro w' hw' u
    have := absMoment_le w' u hm hb
    rw [hw', mul_zero, add_zero] at this
    exact this
  have hh := h.height_pos
  refine ⟨hmin w hw z, ?_⟩
  have habs : |imbalance R z| ≤ areaMoment 0 0 R := by
    rw [imbalance_eq z hm hb]
    have h1 := norm_integral_le_of_norm_le (μ := volume.restrict R) (f := sgn z) (g := fun _ => (1 : ℝ))
      (integrableOn_const (bounded_finite hb).ne) (ae_of_all _ fun x => by
      rw [Real.norm_eq_abs]; exact sgn_le z x)
    simpa [areaMoment, Real.norm_eq_abs] using h1
  set H := p.bounds.2.2.2 - p.bounds.2.1 with hH
  have hA := encloses_area_pos h.encloses
  rcases hz with hz | ⟨u, hu0, hu1, hu2, hu⟩
  · have h1 := absMoment_le z w hm hb
    have h2 : (w - z) * imbalance R z ≤ H * 1e-10 := by
      refine (le_abs_self _).trans ?_
      rw [abs_mul]
      refine mul_le_mul ?_ hz.le (abs_nonneg _) (by linarith)
      rw [abs_le]; constructor <;> linarith
    have h3 : 1e-10 * H * 1 ≤ 1e-10 * H * max 1 (areaMoment 0 0 R) :=
      mul_le_mul_of_nonneg_left (le_max_left _ _) (by linarith)
    linarith
  · have h1 := absMoment_le z u hm hb
    have h2 : (u - z) * imbalance R z ≤ 1e-10 * H * areaMoment 0 0 R := by
      refine (le_abs_self _).trans ?_
      rw [abs_mul]
      refine mul_le_mul ?_ habs (abs_nonneg _) (by linarith)
      rw [abs_sub_comm]; exact hu
    have h3 : 1e-10 * H * areaMoment 0 0 R ≤ 1e-10 * H * max 1 (areaMoment 0 0 R) :=
      mul_le_mul_of_nonneg_left (le_max_right _ _) (by linarith)
    have h4 := hmin u hu0 w
    linarith

end SC
