import Verif.Model.Shapes
import Verif.Props.Geometry
import Mathlib.Analysis.SpecialFunctions.Trigonometric.Bounds
import Mathlib.Analysis.Real.Pi.Bounds

/-! # C56: rectangular and circular geometries -/

set_option autoImplicit false

namespace SC

open Spec

/-- **C56 (rectangle).** For positive sizes: the polygon is closed, its area is width times height, its
extents are those of the rectangle centred at the origin point. -/
theorem C56_rectangle (w h : ℝ) (hw : 0 < w) (hh : 0 < h) (mat : Mat) (concrete : Bool) (x y : ℝ)
    (name label : Option String) :
    ∃ s, rectangularSurface w h mat concrete (some [x, y]) name label = .ok s ∧ s.poly.ClosedRings ∧
      s.poly.area = w * h ∧ s.extents = (x - w / 2, x + w / 2, y - h / 2, y + h / 2) ∧ s.mat = mat ∧
      s.concrete = (mat.isConcrete || concrete) := by
  have h1 : ¬ w ≤ 0 := not_le.2 hw
  have h2 : ¬ h ≤ 0 := not_le.2 hh
  simp only [rectangularSurface, rectangularGeometry, if_neg h1, if_neg h2]
  refine ⟨_, rfl, ?_, ?_, ?_, rfl, ?_⟩
  · simp [Polygon.ClosedRings, Surface.new, Closed]
  · simp only [Polygon.area, Surface.new, shoelace]
    rw [show ((-w / 2 + x) * (-h / 2 + y) - (w / 2 + x) * (-h / 2 + y)) / 2 +
      (((w / 2 + x) * (h / 2 + y) - (w / 2 + x) * (-h / 2 + y)) / 2 +
      (((w / 2 + x) * (h / 2 + y) - (-w / 2 + x) * (h / 2 + y)) / 2 +
      (((-w / 2 + x) * (-h / 2 + y) - (-w / 2 + x) * (h / 2 + y)) / 2 + 0))) = w * h by ring]
    rw [abs_of_pos (by positivity)]; simp
  · simp only [Surface.extents, Surface.new, listMin, listMax, List.map, List.foldl, List.headD_cons, Prod.mk.injEq]
    have a1 : -w / 2 + x ≤ w / 2 + x := by linarith
    have a2 : -h / 2 + y ≤ h / 2 + y := by linarith
    simp only [min_self, max_self, min_eq_left a1, min_eq_left a2, max_eq_right a1, max_eq_right a2,
      max_eq_left a1, max_eq_left a2]
    refine ⟨?_, ?_, ?_, ?_⟩ <;> ring
  · simp only [Surface.new]
    cases mat.isConcrete <;> simp

/-- **C56 (rejected).** Sizes that are not positive, or an origin without exactly two coordinates. -/
theorem C56_rejects (w h : ℝ) (mat : Mat) (concrete : Bool) (o : Option (List ℝ)) (name label : Option String)
    (hbad : w ≤ 0 ∨ h ≤ 0 ∨ ∃ l, o = some l ∧ l.length ≠ 2) :
    rectangularSurface w h mat concrete o name label = .error .valueError ∧
    (∀ n, w ≤ 0 ∨ (∃ l, o = some l ∧ l.length ≠ 2) →
      circularGeometry w mat n concrete o name label = .error .valueError) := by
  have hpo : (∃ l, o = some l ∧ l.length ≠ 2) → parseOrigin o = .error .valueError := by
    rintro ⟨l, rfl, hl⟩
    match l, hl with
    | [], _ => rfl
    | [_], _ => rfl
    | [_, _], hl => simp at hl
    | _ :: _ :: _ :: _, _ => rfl
  constructor
  · by_cases h1 : w ≤ 0
    · simp [rectangularSurface, rectangularGeometry, h1]
    · by_cases h2 : h ≤ 0
      · simp [rectangularSurface, rectangularGeometry, h1, h2]
      · obtain ⟨l, rfl, hl⟩ : ∃ l, o = some l ∧ l.length ≠ 2 := by tauto
        match l, hl with
        | [], _ => simp [rectangularSurface, rectangularGeometry, h1, h2]
        | [_], _ => simp [rectangularSurface, rectangularGeometry, h1, h2]
        | [_, _], hl => simp at hl
        | _ :: _ :: _ :: _, _ => simp [rectangularSurface, rectangularGeometry, h1, h2]
  · rintro n hb
    by_cases h1 : w ≤ 0
    · simp [circularGeometry, h1]
    · simp only [circularGeometry, if_neg h1, hpo (by tauto)]

theorem shoelace_const (g : ℕ → ℝ × ℝ) (c : ℝ)
    (h : ∀ k, (g k).1 * (g (k + 1)).2 - (g (k + 1)).1 * (g k).2 = 2 * c) (m : ℕ) :
    shoelace ((List.range (m + 1)).map g) = m * c := by
  induction m generalizing g with
  | zero => simp [shoelace]
  | succ m ih =>
    have h2 := ih (fun k => g (k + 1)) (fun k => h (k + 1))
    have e : (List.range (m + 1 + 1)).map g = g 0 :: (List.range (m + 1)).map fun k => g (k + 1) := by
      rw [List.range_succ_eq_map]; simp [Function.comp_def]
    have e2 : (List.range (m + 1)).map (fun k => g (k + 1)) = g 1 :: (List.range m).map fun k => g (k + 2) := by
      rw [List.range_succ_eq_map]; simp [Function.comp_def]
    rw [e, e2, shoelace, ← e2, h2]
    have := h 0
    simp only [zero_add] at this
    rw [this]; push_cast; ring

/-- Area of the regular polygon with `4 q` vertices on the circle of radius `r`. -/
noncomputable def regularArea (r : ℝ) (q : ℕ) : ℝ := 2 * q * r ^ 2 * Real.sin (Real.pi / (2 * q))

theorem shoelace_bufferRing_origin (r : ℝ) (q : ℕ) :
    shoelace (bufferRing (0, 0) r q) = -regularArea r q := by
  unfold bufferRing
  rw [shoelace_const _ (-(r ^ 2 * Real.sin (Real.pi / (2 * q)) / 2))]
  · unfold regularArea; push_cast; ring
  · intro k
    simp only [zero_add]
    have : -(((k + 1 : ℕ) : ℝ) * (Real.pi / (2 * q))) = -(k * (Real.pi / (2 * q))) - Real.pi / (2 * q) := by
      push_cast; ring
    rw [this, Real.cos_sub, Real.sin_sub]
    have := Real.sin_sq_add_cos_sq (-((k : ℝ) * (Real.pi / (2 * q))))
    linear_combination (-(r ^ 2 * Real.sin (Real.pi / (2 * q)))) * this

theorem bufferRing_closed (c : ℝ × ℝ) (r : ℝ) (q : ℕ) (hq : 0 < q) : Closed (bufferRing c r q) := by
  unfold Closed bufferRing
  rw [List.range_succ, List.map_append]
  have hq' : (q : ℝ) ≠ 0 := by exact_mod_cast hq.ne'
  obtain ⟨m, hm⟩ : ∃ m, 4 * q = m + 1 := ⟨4 * q - 1, by omega⟩
  have e : ((4 * q : ℕ) : ℝ) * (Real.pi / (2 * q)) = 2 * Real.pi := by
    push_cast; field_simp; ring
  simp only [List.map_cons, List.map_nil, List.getLast?_concat, e]
  rw [hm, List.range_succ_eq_map]
  simp

theorem area_bufferRing (c : ℝ × ℝ) (r : ℝ) (q : ℕ) (hq : 0 < q) :
    (⟨bufferRing c r q, []⟩ : Polygon).area = regularArea r q := by
  have htr : bufferRing c r q = (bufferRing (0, 0) r q).map (translatePt c.1 c.2) := by
    unfold bufferRing
    rw [List.map_map]
    apply List.map_congr_left
    intro k _
    simp [translatePt, add_comm]
  have h0 : 0 ≤ regularArea r q := by
    unfold regularArea
    have hq' : (1 : ℝ) ≤ q := by exact_mod_cast hq
    have := Real.pi_pos
    have : 0 ≤ Real.sin (Real.pi / (2 * q)) := by
      apply Real.sin_nonneg_of_nonneg_of_le_pi (by positivity)
      rw [div_le_iff₀ (by positivity)]
      nlinarith
    positivity
  simp only [Polygon.area]
  rw [htr, shoelace_affine_closed (translate_affine c.1 c.2) _ (bufferRing_closed _ _ _ hq),
    shoelace_bufferRing_origin]
  simp [abs_of_nonneg h0]

/-- **C56 (rounding).** The number of points asked for is rounded to the nearest multiple of 4, a tie to a multiple of 8. -/
theorem C56_nearest (n : ℤ) : |n - 4 * roundQuarter n| ≤ 2 ∧ (|n - 4 * roundQuarter n| = 2 → (8 : ℤ) ∣ 4 * roundQuarter n) := by
  unfold roundQuarter
  rw [abs_le]
  split_ifs with h1 h2 h3 h4
  all_goals
    refine ⟨⟨by omega, by omega⟩, fun h => ?_⟩
    rw [abs_eq (by norm_num)] at h
    omega

/-- **C56 (circle).** For a positive diameter and a number of points that rounds to `4 q ≥ 4`: a closed
polygon with all vertices on the circle, whose area is that of the regular `4 q`-gon; it never
exceeds the area of the circle, and falls short of it by less than the fraction `(π/(2q))²/6`. -/
theorem C56_circle (d : ℝ) (hd : 0 < d) (mat : Mat) (n : ℤ) (q : ℕ) (hq : 1 ≤ q) (hn : roundQuarter n = q)
    (concrete : Bool) (x y : ℝ) (name label : Option String) :
    ∃ s, circularGeometry d mat n concrete (some [x, y]) name label = .ok s ∧ s.poly.ClosedRings ∧
      s.poly.ext.length = 4 * q + 1 ∧
      (∀ p ∈ s.poly.ext, (p.1 - x) ^ 2 + (p.2 - y) ^ 2 = (d / 2) ^ 2) ∧
      s.poly.area < Real.pi * d ^ 2 / 4 ∧
      Real.pi * d ^ 2 / 4 * (1 - (Real.pi / (2 * q)) ^ 2 / 6) < s.poly.area := by
  have h1 : ¬ d ≤ 0 := not_le.2 hd
  have hpi := Real.pi_pos
  have hq' : (1 : ℝ) ≤ q := by exact_mod_cast hq
  have hnat : (roundQuarter n).toNat = q := by rw [hn]; simp
  simp only [circularGeometry, if_neg h1, parseOrigin, hnat]
  rw [if_neg (by omega)]
  refine ⟨_, rfl, ⟨bufferRing_closed _ _ _ (by omega), by simp [Surface.new]⟩, by simp [Surface.new, bufferRing], ?_, ?_, ?_⟩
  · intro p hp
    simp only [Surface.new, bufferRing, List.mem_map] at hp
    obtain ⟨k, -, rfl⟩ := hp
    have := Real.sin_sq_add_cos_sq (-((k : ℝ) * (Real.pi / (2 * q))))
    simp only
    linear_combination (d / 2) ^ 2 * this
  · show (Polygon.area ⟨bufferRing _ _ _, []⟩) < _
    rw [area_bufferRing _ _ _ (by omega)]
    unfold regularArea
    have hx : 0 < Real.pi / (2 * q) := by positivity
    have := Real.sin_lt hx
    calc 2 * (q : ℝ) * (d / 2) ^ 2 * Real.sin (Real.pi / (2 * q))
        < 2 * (q : ℝ) * (d / 2) ^ 2 * (Real.pi / (2 * q)) := by
          apply mul_lt_mul_of_pos_left this (by positivity)
      _ = Real.pi * d ^ 2 / 4 := by field_simp; ring
  · show _ < (Polygon.area ⟨bufferRing _ _ _, []⟩)
    rw [area_bufferRing _ _ _ (by omega)]
    unfold regularArea
    have hx : 0 < Real.pi / (2 * q) := by positivity
    have := Real.sin_gt_sub_cube hx
    calc Real.pi * d ^ 2 / 4 * (1 - (Real.pi / (2 * q)) ^ 2 / 6)
        = 2 * (q : ℝ) * (d / 2) ^ 2 * (Real.pi / (2 * q) - (Real.pi / (2 * q)) ^ 3 / 6) := by
          field_simp; ring
      _ < _ := by
          apply mul_lt_mul_of_pos_left this (by positivity)

/-- The default of 20 points. -/
example : roundQuarter 20 = (5 : ℕ) := by decide

/-- Ties go to even: 6 points give 8, but 10 points give 8 as well. -/
theorem C56_rounding : roundQuarter 6 = 2 ∧ roundQuarter 10 = 2 ∧ roundQuarter 2 = 0 := by decide

end SC
