import Verif.Props.ProfileReads
import Verif.Props.MarinSurfaces

/-! # C60: a case that meets the hypotheses

A rectangle, with a splitting function that is right for rectangles. -/

set_option autoImplicit false

namespace SC

open MeasureTheory Spec

open Classical in
/-- `split` and `intersects` for rectangles. -/
noncomputable def boxShapely : Shapely where
  intersects _ _ _ := True
  split p a _ :=
    let b := p.bounds
    if b.2.1 < a.2 ∧ a.2 < b.2.2.2 then
      [⟨rectRing b.1 b.2.2.1 b.2.1 a.2, []⟩, ⟨rectRing b.1 b.2.2.1 a.2 b.2.2.2, []⟩]
    else [⟨rectRing b.1 b.2.2.1 b.2.1 b.2.2.2, []⟩]

/-- The bounding box of a polygon. -/
def Polygon.box (p : Polygon) : Set (ℝ × ℝ) :=
  Set.Icc p.bounds.1 p.bounds.2.2.1 ×ˢ Set.Icc p.bounds.2.1 p.bounds.2.2.2

theorem bounds_translate {p : Polygon} (h : p.ext ≠ []) (dz : ℝ) :
    (p.map (translatePt 0 dz)).bounds = (p.bounds.1, p.bounds.2.1 + dz, p.bounds.2.2.1, p.bounds.2.2.2 + dz) := by
  have n2 : p.ext.map Prod.snd ≠ [] := by simpa using h
  have e1 : (p.map (translatePt 0 dz)).ext.map Prod.fst = p.ext.map Prod.fst := by
    simp only [Polygon.map, List.map_map]
    exact List.map_congr_left fun v _ => by simp [translatePt]
  have e2 : (p.map (translatePt 0 dz)).ext.map Prod.snd = (p.ext.map Prod.snd).map (fun x => x + dz) := by
    simp only [Polygon.map, List.map_map]
    exact List.map_congr_left fun v _ => by simp [translatePt]
  have hmin := listMin_spec _ n2
  have hmax := listMax_spec _ n2
  simp only [Polygon.bounds, e1, e2]
  rw [listMin_unique (m := listMin (p.ext.map Prod.snd) + dz) (List.mem_map.2 ⟨_, hmin.1, rfl⟩)
    (by
      intro x hx
      obtain ⟨y, hy, rfl⟩ := List.mem_map.1 hx
      exact add_le_add (hmin.2 y hy) le_rfl),
    listMax_unique (m := listMax (p.ext.map Prod.snd) + dz) (List.mem_map.2 ⟨_, hmax.1, rfl⟩)
    (by
      intro x hx
      obtain ⟨y, hy, rfl⟩ := List.mem_map.1 hx
      exact add_le_add (hmax.2 y hy) le_rfl)]

theorem box_splits {x0 x1 y0 y1 z : ℝ} (h0 : y0 < z) (h1 : z < y1) :
    Splits z (Set.Icc x0 x1 ×ˢ Set.Icc y0 y1) [Set.Icc x0 x1 ×ˢ Set.Icc y0 z, Set.Icc x0 x1 ×ˢ Set.Icc z y1] where
  side := by
    intro S hS
    simp only [List.mem_cons, List.not_mem_nil, or_false] at hS
    rcases hS with rfl | rfl
    · exact Or.inr fun x hx => hx.2.2
    · exact Or.inl fun x hx => hx.2.1
  cover := by
    have hn : ∀ᵐ x : ℝ × ℝ, x.2 ≠ z := by rw [ae_iff]; simpa using volume_line z
    filter_upwards [hn] with x hx
    simp only [List.map_cons, List.map_nil, List.sum_cons, List.sum_nil, add_zero, Set.indicator_apply,
      Set.mem_prod, Set.mem_Icc]
    rcases lt_or_gt_of_ne hx with h | h
    · by_cases hA : x0 ≤ x.1 ∧ x.1 ≤ x1 <;> by_cases hB : y0 ≤ x.2 <;>
        simp [hA, hB, h.le, not_le.2 h, (h.trans h1).le]
    · by_cases hA : x0 ≤ x.1 ∧ x.1 ≤ x1 <;> by_cases hB : x.2 ≤ y1 <;>
        simp [hA, hB, h.le, not_le.2 h, (h0.trans h).le]

theorem box_whole {x0 x1 y0 y1 z : ℝ} (h : ¬ (y0 < z ∧ z < y1)) :
    Splits z (Set.Icc x0 x1 ×ˢ Set.Icc y0 y1) [Set.Icc x0 x1 ×ˢ Set.Icc y0 y1] where
  side := by
    intro S hS
    simp only [List.mem_cons, List.not_mem_nil, or_false] at hS
    subst hS
    by_cases h0 : y0 < z
    · exact Or.inr fun x hx => hx.2.2.trans (not_lt.1 fun h1 => h ⟨h0, h1⟩)
    · exact Or.inl fun x hx => (not_lt.1 h0).trans hx.2.1
  cover := by simp

/-- Rectangles are split rightly. -/
theorem boxShapely_ok {p : Polygon} (h : p.ext ≠ []) (hx : p.bounds.1 < p.bounds.2.2.1)
    (hy : p.bounds.2.1 < p.bounds.2.2.2) : SplitsWell boxShapely p p.box where
  split := by
    intro dz z X _
    have himg : translatePt 0 dz '' p.box =
        Set.Icc p.bounds.1 p.bounds.2.2.1 ×ˢ Set.Icc (p.bounds.2.1 + dz) (p.bounds.2.2.2 + dz) := by
      ext v
      constructor
      · rintro ⟨x, hx, rfl⟩
        have h1 := hx.1; have h2 := hx.2
        simp only [translatePt, Set.mem_prod, Set.mem_Icc, add_zero] at *
        exact ⟨h1, by linarith, by linarith⟩
      · intro hv
        refine ⟨(v.1, v.2 - dz), ?_, by simp [translatePt]⟩
        have h1 := hv.1; have h2 := hv.2
        simp only [Set.mem_Icc] at h1 h2
        exact ⟨h1, by simp only [Set.mem_Icc]; constructor <;> linarith⟩
    rw [himg]
    simp only [boxShapely, bounds_translate h]
    split_ifs with hc
    · refine ⟨[_, _], List.Forall₂.cons ⟨rfl, encloses_rect hx hc.1⟩ (List.Forall₂.cons
        ⟨rfl, encloses_rect hx hc.2⟩ List.Forall₂.nil), box_splits hc.1 hc.2⟩
    · exact ⟨[_], List.Forall₂.cons ⟨rfl, encloses_rect hx (by linarith)⟩ List.Forall₂.nil, box_whole hc⟩
  apart := by intro z X _ hn; exact absurd trivial hn

/-- The rectangle 100 x 200 centred at the origin. -/
noncomputable def plate : Polygon := ⟨rectRing (-50) 50 (-100) 100, []⟩

theorem plate_bounds : plate.bounds = (-50, -100, 50, 100) := by
  norm_num [plate, rectRing, closeRing, Polygon.bounds, listMin, listMax]

theorem plate_shape : ProfileShape plate plate.box where
  ints := rfl
  encloses := by
    have := encloses_rect (a := -50) (b := 50) (c := -100) (d := 100) (by norm_num) (by norm_num)
    unfold Polygon.box
    rw [plate_bounds]
    exact this
  ccw := by
    norm_num [plate, rectRing, closeRing, marin, marinEdge, marinCoeff, Finset.sum_range_succ]
  box := fun x hx => ⟨hx.1.1, hx.1.2, hx.2.1, hx.2.2⟩

theorem plate_splits : SplitsWell boxShapely plate plate.box :=
  boxShapely_ok plate_shape.ne (by rw [plate_bounds]; norm_num) (by rw [plate_bounds]; norm_num)

theorem plate_splits_turned :
    SplitsWell boxShapely (plate.rotate (Real.pi / 2)) (rotPt (Real.pi / 2) '' plate.box) := by
  have e : rotPt (Real.pi / 2) '' plate.box = (plate.rotate (Real.pi / 2)).box := by
    unfold Polygon.box
    rw [bounds_quarter plate_shape.ne, plate_bounds]
    ext v
    constructor
    · rintro ⟨x, hx, rfl⟩
      have h1 := hx.1; have h2 := hx.2
      simp only [rotPt_quarter, Set.mem_prod, Set.mem_Icc] at *
      exact ⟨⟨by linarith, by linarith⟩, h1⟩
    · intro hv
      refine ⟨(v.2, -v.1), ?_, by simp [rotPt_quarter]⟩
      have h1 := hv.1; have h2 := hv.2
      simp only [Set.mem_Icc] at h1 h2
      exact ⟨h2, by simp only [Set.mem_Icc]; constructor <;> linarith⟩
  rw [e]
  refine boxShapely_ok plate_shape.quarter.ne ?_ ?_
  · rw [bounds_quarter plate_shape.ne, plate_bounds]; norm_num
  · rw [bounds_quarter plate_shape.ne, plate_bounds]; norm_num

theorem plate_box : plate.box = Set.Icc (-50 : ℝ) 50 ×ˢ Set.Icc (-100 : ℝ) 100 := by
  unfold Polygon.box; rw [plate_bounds]

theorem plate_balance : imbalance plate.box 0 = 0 := by
  have e1 : plate.box ∩ {x | (0 : ℝ) ≤ x.2} = Set.Icc (-50 : ℝ) 50 ×ˢ Set.Icc (0 : ℝ) 100 := by
    rw [plate_box]; ext x
    simp only [Set.mem_inter_iff, Set.mem_prod, Set.mem_Icc, Set.mem_ofPred_eq]
    constructor
    · rintro ⟨⟨a, b, c⟩, d⟩; exact ⟨a, d, c⟩
    · rintro ⟨a, b, c⟩; exact ⟨⟨a, by linarith, c⟩, b⟩
  have e2 : plate.box ∩ {x | x.2 ≤ (0 : ℝ)} = Set.Icc (-50 : ℝ) 50 ×ˢ Set.Icc (-100 : ℝ) 0 := by
    rw [plate_box]; ext x
    simp only [Set.mem_inter_iff, Set.mem_prod, Set.mem_Icc, Set.mem_ofPred_eq]
    constructor
    · rintro ⟨⟨a, b, c⟩, d⟩; exact ⟨a, b, d⟩
    · rintro ⟨a, b, c⟩; exact ⟨⟨a, b, by linarith⟩, c⟩
  unfold imbalance
  rw [e1, e2, Measure.volume_eq_prod, Measure.prod_prod, Measure.prod_prod, Real.volume_Icc, Real.volume_Icc,
    Real.volume_Icc]
  norm_num

/-- The hypotheses of the C60 theorems hold for this plate, and e.g. after `Wplz`, `A`, `Wply` in this order the
third read is the plastic modulus. -/
example (eig : ℝ → ℝ → ℝ → Eig) : ∃ zp, NearBalance (imbalance plate.box) (-100) 100 zp ∧
    (readAll boxShapely eig [.Wplz, .A, .Wply] (Profile.fresh plate)).2[2]? = some (.ok (absMoment plate.box zp)) := by
  obtain ⟨zp, yp, hz, -, h⟩ := C60_reads_partial plate_shape plate_splits plate_splits_turned eig
  rw [plate_bounds] at hz
  refine ⟨zp, hz, ?_⟩
  have := h [.Wplz, .A, .Wply] 2 .Wply rfl
  simpa [regionValue] using this

example (eig : ℝ → ℝ → ℝ → Eig) : ∃ v, (Profile.read boxShapely eig .Wply (Profile.fresh plate)).2 = .ok v ∧
    absMoment plate.box 0 ≤ v := by
  obtain ⟨v, h1, h2, -⟩ := C60_plastic_modulus plate_shape plate_splits eig plate_balance
    (by rw [plate_bounds]; norm_num) (by rw [plate_bounds]; norm_num)
  exact ⟨v, h1, h2⟩

end SC
