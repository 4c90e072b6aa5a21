import Verif.Props.Split
import Verif.Props.ProfileExample
import Verif.Props.MarinSurfaces
import Verif.Props.ISection
import Mathlib.Analysis.Convex.Combination

/-! # C64: cutting a strip, lines that do not span, an example -/

set_option autoImplicit false

namespace SC

open Spec MeasureTheory

noncomputable section

/-! ### Two lines -/

/-- What is assumed of `polygon.intersection(hull)`: the polygons returned have proper rings and together the area moments of the
part of the region in the convex hull of the points. -/
def ClipsAt (clip : Polygon → List (ℝ × ℝ) → ShapelyResult) (p : Polygon) (R : Set (ℝ × ℝ)) (pts : List (ℝ × ℝ)) :
    Prop :=
  (∀ q ∈ (clip p pts).pieces, q.Proper) ∧
    ∀ m n, ((clip p pts).pieces.map fun q => holedMoment m n q.ext q.ints).sum =
      areaMoment m n (R ∩ convexHull ℝ {x | x ∈ pts})

theorem hull_rect {x1 x2 y0 y1 : ℝ} (hx : x1 ≤ x2) (hy : y0 ≤ y1) :
    convexHull ℝ {x : ℝ × ℝ | x ∈ [(x1, y0), (x2, y0), (x1, y1), (x2, y1)]} = Set.Icc x1 x2 ×ˢ Set.Icc y0 y1 := by
  have : {x : ℝ × ℝ | x ∈ [(x1, y0), (x2, y0), (x1, y1), (x2, y1)]} = ({x1, x2} : Set ℝ) ×ˢ ({y0, y1} : Set ℝ) := by
    ext ⟨a, b⟩
    simp only [Set.mem_ofPred_eq, List.mem_cons, List.not_mem_nil, or_false, Set.mem_prod, Set.mem_insert_iff,
      Set.mem_singleton_iff, Prod.mk.injEq]
    tauto
  rw [this, convexHull_prod, convexHull_pair, convexHull_pair, segment_eq_Icc hx, segment_eq_Icc hy]

/-- **C64 (two lines).** The strip the Marin integrator asks for is what it gets: the two horizontal lines it builds span the
polygon, so their convex hull cuts the whole strip `y0 ≤ z ≤ y1` out of the region - the assumption `SplitsExactly` made about
its clipper by C20 and C50 follows from the meaning of shapely's `intersection` and `convex_hull`. -/
theorem C64_strip {clip : Polygon → List (ℝ × ℝ) → ShapelyResult} {p : Polygon} {R : Set (ℝ × ℝ)}
    (hp : Encloses p.ext p.ints R) (hbox : ∀ x ∈ R, p.bounds.1 ≤ x.1 ∧ x.1 ≤ p.bounds.2.2.1)
    (hc : ∀ x1 x2 y0 y1, (∀ v ∈ p.ext, x1 < v.1 ∧ v.1 < x2) → y0 ≤ y1 →
      ClipsAt clip p R [(x1, y0), (x2, y0), (x1, y1), (x2, y1)]) :
    SplitsExactly (marinSplit clip) p R := by
  intro y0 y1 hy
  have hne := bounds_ext_ne hp
  have h3 : (0 : ℝ) < 1e-3 := by norm_num
  obtain ⟨v, hv⟩ := List.exists_mem_of_ne_nil _ hne
  have hb := bounds_spec hne hv
  have hx : p.bounds.1 - 1e-3 ≤ p.bounds.2.2.1 + 1e-3 := by linarith [hb.1, hb.2.1]
  have hl : ∀ y, createLine (0, y) 0 p.bounds = ((p.bounds.1 - 1e-3, y), (p.bounds.2.2.1 + 1e-3, y)) := by
    intro y
    have : |Real.cos 0| > (1e-8 : ℝ) := by rw [Real.cos_zero]; norm_num
    rw [createLine, if_pos this]
    simp
  have e : marinSplit clip p y0 y1 = clip p [(p.bounds.1 - 1e-3, y0), (p.bounds.2.2.1 + 1e-3, y0),
      (p.bounds.1 - 1e-3, y1), (p.bounds.2.2.1 + 1e-3, y1)] := by
    simp [marinSplit, splitTwoLines, hl]
  obtain ⟨h1, h2⟩ := hc (p.bounds.1 - 1e-3) (p.bounds.2.2.1 + 1e-3) y0 y1 (by
    intro w hw
    have := bounds_spec hne hw
    exact ⟨by linarith [this.1], by linarith [this.2.1]⟩) hy
  rw [e]
  refine ⟨h1, fun m n => (h2 m n).trans ?_⟩
  rw [hull_rect hx hy]
  congr 1
  ext x
  simp only [Set.mem_inter_iff, Set.mem_prod, Set.mem_Icc, Set.mem_ofPred_eq]
  constructor
  · rintro ⟨h, -, h'⟩; exact ⟨h, h'⟩
  · rintro ⟨h, h'⟩
    have := hbox x h
    exact ⟨h, ⟨by linarith, by linarith⟩, h'⟩

/-- **C64 (arguments).** A tuple of two lines and a `MultiLineString` of them give the same; a tuple of another length raises
`RuntimeError`, and any other object - a list of two lines, for example - `UnboundLocalError`. -/
theorem C64_two_lines_arguments (clip : Polygon → List (ℝ × ℝ) → ShapelyResult) (p : Polygon) :
    (∀ l m, splitTwoLines clip p (.tuple [l, m]) = splitTwoLines clip p (.multi [l, m]) ∧
      splitTwoLines clip p (.tuple [l, m]) = .ok (clip p [l.1, l.2, m.1, m.2])) ∧
    (∀ ls, ls.length ≠ 2 → splitTwoLines clip p (.tuple ls) = .error .runtimeError) ∧
    splitTwoLines clip p .other = .error .unboundLocal := by
  refine ⟨fun l m => ⟨by simp [splitTwoLines], by simp [splitTwoLines]⟩, fun ls h => ?_, rfl⟩
  simp [splitTwoLines, h]

open Classical in
/-- A clipper that is right on the rectangle `[a, b] × [c, d]`, for axis-parallel windows that span it. -/
def rectClip (a b c d : ℝ) (p : Polygon) (pts : List (ℝ × ℝ)) : ShapelyResult :=
  match pts with
  | [u, _, v, _] => rectSplit a b c d p u.2 v.2
  | _ => .other

/-- Non-vacuity of `C64_strip`. -/
example : SplitsExactly (marinSplit (rectClip 0 300 0 500)) ⟨rectRing 0 300 0 500, []⟩
    (Set.Icc 0 300 ×ˢ Set.Icc 0 500) := by
  have hb : (⟨rectRing 0 300 0 500, []⟩ : Polygon).bounds = (0, 0, 300, 500) := by
    norm_num [rectRing, closeRing, Polygon.bounds, listMin, listMax]
  refine C64_strip (encloses_rect (by norm_num) (by norm_num)) ?_ ?_
  · intro x hx
    rw [hb]
    exact hx.1
  · intro x1 x2 y0 y1 hx hy
    have h1 := hx (0, 0) (by simp [rectRing, closeRing])
    have h2 := hx (300, 0) (by simp [rectRing, closeRing])
    simp only at h1 h2
    obtain ⟨g1, g2⟩ := rectSplit_exact (a := 0) (b := 300) (c := 0) (d := 500) (by norm_num)
      (⟨rectRing 0 300 0 500, []⟩ : Polygon) y0 y1 hy
    refine ⟨g1, fun m n => (g2 m n).trans ?_⟩
    rw [hull_rect (by linarith) hy]
    congr 1
    ext x
    simp only [Set.mem_inter_iff, Set.mem_prod, Set.mem_Icc, Set.mem_ofPred_eq]
    constructor
    · rintro ⟨⟨h, h'⟩, h''⟩; exact ⟨⟨h, h'⟩, ⟨by linarith [h.1], by linarith [h.2]⟩, h''⟩
    · rintro ⟨h, -, h'⟩; exact ⟨h, h'⟩

/-! ### One line -/

/-- Rectangles are cut rightly along horizontal lines. -/
theorem boxShapely_cuts {p : Polygon} (h : p.ext ≠ []) (hx : p.bounds.1 < p.bounds.2.2.1)
    (hy : p.bounds.2.1 < p.bounds.2.2.2) {a b : ℝ × ℝ} (hab : a.1 < b.1) (hz : a.2 = b.2) :
    CutsWell boxShapely p p.box a b := by
  have hl : leftOf a b = {x | a.2 ≤ x.2} := by
    ext x
    simp only [leftOf, cross, hz, sub_self, mul_zero, sub_zero, Set.mem_ofPred_eq]
    rw [mul_nonneg_iff_of_pos_left (by linarith), sub_nonneg]
  have hr : rightOf a b = {x | x.2 ≤ a.2} := by
    ext x
    simp only [rightOf, cross, hz, sub_self, mul_zero, sub_zero, Set.mem_ofPred_eq]
    have : 0 < b.1 - a.1 := by linarith
    constructor
    · intro h'
      by_contra hn
      have := mul_pos this (sub_pos.2 (not_le.1 hn))
      linarith
    · intro h'
      exact mul_nonpos_of_nonneg_of_nonpos this.le (by linarith)
  refine ⟨fun _ => ?_, fun hn => absurd trivial hn⟩
  have pos : ∀ {c d : ℝ}, c < d → 0 < areaMoment 0 0 (Set.Icc p.bounds.1 p.bounds.2.2.1 ×ˢ Set.Icc c d) := by
    intro c d hcd
    have : areaMoment 0 0 (Set.Icc p.bounds.1 p.bounds.2.2.1 ×ˢ Set.Icc c d) = (p.bounds.2.2.1 - p.bounds.1) * (d - c) := by
      simp only [areaMoment, pow_zero, one_mul, integral_const, smul_eq_mul, mul_one, Measure.real]
      rw [Measure.restrict_apply_univ, Measure.volume_eq_prod, Measure.prod_prod, Real.volume_Icc, Real.volume_Icc,
        ENNReal.toReal_mul, ENNReal.toReal_ofReal (by linarith), ENNReal.toReal_ofReal (by linarith)]
    rw [this]
    exact mul_pos (by linarith) (by linarith)
  rw [hl, hr]
  simp only [boxShapely]
  split_ifs with hc
  · have := box_splits (x0 := p.bounds.1) (x1 := p.bounds.2.2.1) hc.1 hc.2
    refine ⟨_, List.Forall₂.cons ⟨encloses_rect hx hc.1, pos hc.1⟩ (List.Forall₂.cons
        ⟨encloses_rect hx hc.2, pos hc.2⟩ List.Forall₂.nil), this.side, this.cover⟩
  · have := box_whole (x0 := p.bounds.1) (x1 := p.bounds.2.2.1) hc
    exact ⟨_, List.Forall₂.cons ⟨encloses_rect hx hy, pos hy⟩ List.Forall₂.nil, this.side, this.cover⟩

/-- Non-vacuity: the plate 100 x 200 cut at 30 above its middle. -/
example : ((splitSurface boxShapely plate (.pointAngle (0, 30) 0)).1.map Polygon.area).sum =
    (volume (plate.box ∩ aboveLine (0, 30) (Real.tan 0))).toReal := by
  have hB : Bounds plate plate.box := by
    refine ⟨plate_shape.encloses, ?_⟩
    rw [plate_box]
    simp only [areaMoment, pow_zero, one_mul, integral_const, smul_eq_mul, mul_one, Measure.real]
    rw [Measure.restrict_apply_univ, Measure.volume_eq_prod, Measure.prod_prod, Real.volume_Icc, Real.volume_Icc]
    norm_num
  refine C64_area_partial hB (0, 30) 0 (by norm_num) ?_
  intro a b hab _ hs
  have h1 := hab (-50, -100) (by simp [plate, rectRing, closeRing])
  simp only [Real.sin_zero, mul_zero, Real.cos_zero, mul_one] at hs
  exact boxShapely_cuts plate_shape.ne (by rw [plate_bounds]; norm_num) (by rw [plate_bounds]; norm_num)
    (by linarith [h1.1, h1.2]) (by linarith)

/-- **C64, violated (vertical lines).** A section 300 wide and 500 high, to be split along its vertical axis of symmetry: the
line built for `point = (0, 0)`, `theta = pi / 2` ends at `z = 150`, inside the section.  Whatever shapely does with other lines, a
line that ends inside does not divide a polygon; the whole section is then returned as "below" and nothing as "above", though
half of it lies on each side. -/
theorem C64_vertical_violated (sh : Shapely)
    (hsh : ∀ a b, a = (0, -250 - 1e-3) → b = (0, 150 + 1e-3) →
      sh.split ⟨rectRing (-150) 150 (-250) 250, []⟩ a b = [⟨rectRing (-150) 150 (-250) 250, []⟩]) :
    splitSurface sh ⟨rectRing (-150) 150 (-250) 250, []⟩ (.pointAngle (0, 0) (Real.pi / 2)) =
      ([], [⟨rectRing (-150) 150 (-250) 250, []⟩]) := by
  set p : Polygon := ⟨rectRing (-150) 150 (-250) 250, []⟩ with hp
  have hb : p.bounds = (-150, -250, 150, 250) := by
    norm_num [hp, rectRing, closeRing, Polygon.bounds, listMin, listMax]
  have hl : createLine (0, 0) (Real.pi / 2) p.bounds = ((0, -250 - 1e-3), (0, 150 + 1e-3)) := by
    have : ¬ |Real.cos (Real.pi / 2)| > 1e-8 := by rw [Real.cos_pi_div_two]; norm_num
    simp only [createLine, if_neg this, hb, Real.cos_pi_div_two, Real.sin_pi_div_two]
    norm_num
  have henc : Encloses p.ext p.ints (Set.Icc (-150 : ℝ) 150 ×ˢ Set.Icc (-250 : ℝ) 250) :=
    encloses_rect (by norm_num) (by norm_num)
  have hA : (0 : ℝ) < areaMoment 0 0 (Set.Icc (-150 : ℝ) 150 ×ˢ Set.Icc (-250 : ℝ) 250) := by
    simp only [areaMoment, pow_zero, one_mul, integral_const, smul_eq_mul, mul_one, Measure.real]
    rw [Measure.restrict_apply_univ, Measure.volume_eq_prod, Measure.prod_prod, Real.volume_Icc, Real.volume_Icc]
    norm_num
  have hc : p.centroid.1 = 0 := by
    rw [polygon_centroid henc]
    simp only
    rw [show areaMoment 1 0 (Set.Icc (-150 : ℝ) 150 ×ˢ Set.Icc (-250 : ℝ) 250) = 0 from ?_, zero_div]
    refine odd_moment_y (fun x => ?_) (by decide) 0
    simp only [Set.mem_prod, Set.mem_Icc]
    constructor <;> rintro ⟨⟨h1, h2⟩, h3⟩ <;> exact ⟨⟨by linarith, by linarith⟩, h3⟩
  have hcls : classify (0, -250 - 1e-3) (0, 150 + 1e-3) [p] = ([], [p]) := by
    have hn : ¬ isCcw (0, -250 - 1e-3) (0, 150 + 1e-3) p.centroid := by
      unfold isCcw
      rw [hc]
      norm_num
    simp [classify, hn]
  unfold splitSurface
  rw [show LineArg.line p (.pointAngle (0, 0) (Real.pi / 2)) = createLine (0, 0) (Real.pi / 2) p.bounds from rfl, hl]
  simp only [hsh _ _ rfl rfl, hcls, ite_self]

end

end SC
