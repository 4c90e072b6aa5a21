import Verif.Spec.Design
import Verif.Props.PolyConcrete
import Verif.Props.OrdinarySolids

/-! # C84: the parabola-rectangle diagram with an exponent other than 2 -/

set_option autoImplicit false

namespace SC

open Spec MeasureTheory

/-- A section of one concrete with the stress `f` and the ultimate strain `-u`, and bars with their own laws. -/
noncomputable def plateSection (shapes : List (Polygon × Set (ℝ × ℝ))) (bars : List Bar) (f : ℝ → ℝ) (u : ℝ) : CrossSection where
  plates := shapes.map fun p => ⟨p.2, p.1.ext, f, -u, 100⟩
  rods := bars.map fun b => ⟨b.fibre Law.stress, (b.law.law.ult false).1, (b.law.law.ult false).2⟩

/-- Total area of the concrete. -/
noncomputable def grossArea (shapes : List (Polygon × Set (ℝ × ℝ))) : ℝ := (shapes.map fun p => areaMoment 0 0 p.2).sum

/-! ### Two diagrams -/

section Compare

variable {shapes : List (Polygon × Set (ℝ × ℝ))} {bars : List Bar} {f g : ℝ → ℝ} {u cf cg δ : ℝ}

theorem plate_admissible (f g : ℝ → ℝ) (e : Fin 3 → ℝ) :
    (plateSection shapes bars f u).Admissible e ↔ (plateSection shapes bars g u).Admissible e := by
  simp only [CrossSection.Admissible, plateSection, List.forall_mem_map]

/-- If one stress exceeds the other by at most `δ`, so do the axial forces by at most `δ` times the area and the moments by at most
`δ` times the area and the distance of the farthest point. -/
theorem plate_compare (mf : Measurable f) (mg : Measurable g) (bf : ∀ e, -cf ≤ f e ∧ f e ≤ 0) (bg : ∀ e, -cg ≤ g e ∧ g e ≤ 0)
    (henc : ∀ p ∈ shapes, Encloses p.1.ext p.1.ints p.2) (hull : ∀ p ∈ shapes, p.2 ⊆ convexHull ℝ {v | v ∈ p.1.ext})
    (hfg : ∀ e, -u ≤ e → 0 ≤ f e - g e ∧ f e - g e ≤ δ) {e : Fin 3 → ℝ} (ha : (plateSection shapes bars f u).Admissible e) :
    (plateSection shapes bars g u).forces e 0 ≤ (plateSection shapes bars f u).forces e 0 ∧
    (plateSection shapes bars f u).forces e 0 - (plateSection shapes bars g u).forces e 0 ≤ δ * grossArea shapes ∧
    ∀ th R, (∀ p ∈ shapes, ∀ x ∈ p.2, |height th x| ≤ R) →
      |bendingMoment th ((plateSection shapes bars f u).forces e) - bendingMoment th ((plateSection shapes bars g u).forces e)| ≤
        R * (δ * grossArea shapes) := by
  set D : (ℝ × ℝ → ℝ) → ℝ := fun w =>
    (shapes.map fun p => ∫ x in p.2, (f (planeStrain e x.1 x.2) - g (planeStrain e x.1 x.2)) * w x).sum with hD
  have hst : ∀ p ∈ shapes, ∀ x ∈ p.2, 0 ≤ f (planeStrain e x.1 x.2) - g (planeStrain e x.1 x.2) ∧
      f (planeStrain e x.1 x.2) - g (planeStrain e x.1 x.2) ≤ δ := by
    intro p hp x hx
    refine hfg _ (ha.1 ⟨p.2, p.1.ext, f, -u, 100⟩ ?_ x (hull p hp hx)).1
    simp only [plateSection, List.mem_map]
    exact ⟨p, hp, rfl⟩
  have hint : ∀ p ∈ shapes, ∀ w : ℝ × ℝ → ℝ, Continuous w →
      IntegrableOn (fun x => (f (planeStrain e x.1 x.2) - g (planeStrain e x.1 x.2)) * w x) p.2 := by
    intro p hp w hw
    refine ((integrable_law mf bf e (henc p hp).bounded hw).sub (integrable_law mg bg e (henc p hp).bounded hw)).congr
      (Filter.Eventually.of_forall fun x => ?_)
    simp only [Pi.sub_apply]; ring
  have hlev : ∀ i : Fin 3, Continuous fun x : ℝ × ℝ => lever x.1 x.2 i := by
    intro i; fin_cases i <;> simp only [lever] <;> fun_prop
  have hdiff : ∀ i, (plateSection shapes bars f u).forces e i - (plateSection shapes bars g u).forces e i =
      D fun x => lever x.1 x.2 i := by
    intro i
    simp only [CrossSection.forces, plateSection, List.map_map, Function.comp_def, Pi.add_apply, list_sum_apply, regionResultants]
    rw [add_sub_add_right_eq_sub, hD]
    simp only
    rw [show (∀ a b c : ℝ, c + b = a → a - b = c) from fun a b c h => by linarith]
    rw [← List.sum_map_add]
    congr 1
    refine List.map_congr_left fun p hp => ?_
    rw [← integral_add (hint p hp _ (hlev i)) (integrable_law mg bg e (henc p hp).bounded (hlev i))]
    congr 1; funext x; ring
  have hD0 : ∀ p ∈ shapes, 0 ≤ ∫ x in p.2, (f (planeStrain e x.1 x.2) - g (planeStrain e x.1 x.2)) * (fun _ => (1:ℝ)) x := by
    intro p hp
    refine setIntegral_nonneg (henc p hp).measurable fun x hx => ?_
    rw [mul_one]; exact (hst p hp x hx).1
  have harea : ∀ (c : ℝ) (R : Set (ℝ × ℝ)), ∫ _ in R, c = c * areaMoment 0 0 R := by
    intro c R
    simp only [areaMoment, pow_zero, mul_one]
    rw [← integral_const_mul]
    simp
  have h0 := hdiff 0
  have e0 : (fun x : ℝ × ℝ => lever x.1 x.2 0) = fun _ => (1:ℝ) := by funext x; simp [lever]
  rw [e0] at h0
  refine ⟨?_, ?_, fun th R hR => ?_⟩
  · have : 0 ≤ D fun _ => 1 := List.sum_nonneg fun y hy => by
      obtain ⟨p, hp, rfl⟩ := List.mem_map.1 hy
      exact hD0 p hp
    linarith
  · rw [h0, hD, grossArea, ← List.sum_map_mul_left]
    refine List.sum_le_sum fun p hp => ?_
    rw [← harea]
    refine setIntegral_mono_on (hint p hp _ continuous_const) (continuous_integrableOn continuous_const (henc p hp).bounded)
      (henc p hp).measurable fun x hx => ?_
    rw [mul_one]
    exact (hst p hp x hx).2
  · have hmom : bendingMoment th ((plateSection shapes bars f u).forces e) - bendingMoment th ((plateSection shapes bars g u).forces e) =
        -D fun x => height th x := by
      have e1 : (D fun x => height th x) = Real.cos th * (D fun x => lever x.1 x.2 1) + Real.sin th * D fun x => lever x.1 x.2 2 := by
        simp only [hD]
        rw [← List.sum_map_mul_left, ← List.sum_map_mul_left, ← List.sum_map_add]
        congr 1
        refine List.map_congr_left fun p hp => ?_
        rw [← integral_const_mul, ← integral_const_mul, ← integral_add ((hint p hp _ (hlev 1)).const_mul _)
          ((hint p hp _ (hlev 2)).const_mul _)]
        congr 1; funext x
        simp only [height, lever, Matrix.cons_val]; ring
      rw [e1, ← hdiff, ← hdiff]
      simp only [bendingMoment]; ring
    rw [hmom, abs_neg, hD, grossArea, ← mul_assoc, ← List.sum_map_mul_left]
    have := list_abs_sum_sub shapes (fun p => ∫ x in p.2, (f (planeStrain e x.1 x.2) - g (planeStrain e x.1 x.2)) * height th x)
      (fun _ => 0) (fun p => R * δ * areaMoment 0 0 p.2) (by
        intro p hp
        rw [sub_zero, ← Real.norm_eq_abs, ← harea]
        refine norm_integral_le_of_norm_le (continuous_integrableOn continuous_const (henc p hp).bounded)
          ((ae_restrict_iff' (henc p hp).measurable).2 (Filter.Eventually.of_forall fun x hx => ?_))
        rw [Real.norm_eq_abs, abs_mul, abs_of_nonneg (hst p hp x hx).1, mul_comm]
        exact mul_le_mul (hR p hp x hx) (hst p hp x hx).2 (hst p hp x hx).1 ((abs_nonneg _).trans (hR p hp x hx)))
    simpa using this

end Compare

/-! ### The parabola-rectangle diagram -/

theorem parabola_spec (fc e0 u n : ℝ) (h0 : 0 < |e0|) (hn : 1 ≤ n) {e : ℝ} (h1 : -|u| ≤ e) :
    (ParabolaRectangle.new fc e0 u n).core e = parabolaRectangle |fc| |e0| n e := by
  unfold parabolaRectangle
  rcases le_or_gt e 0 with h | h
  · rw [parabola_core fc e0 u n h0 hn h1 h, max_eq_left (show (0:ℝ) ≤ -e by linarith)]
    have : max 0 (1 + e / |e0|) = 1 - min (-e) |e0| / |e0| := by
      rcases le_total (-e) |e0| with h' | h'
      · have : -1 ≤ e / |e0| := by rw [le_div_iff₀ h0]; linarith
        rw [min_eq_left h', max_eq_right (by linarith), neg_div]; ring
      · have : e / |e0| ≤ -1 := by rw [div_le_iff₀ h0]; linarith
        rw [min_eq_right h', div_self h0.ne', max_eq_left (by linarith)]; ring
    rw [this]; ring
  · rw [max_eq_right (by linarith), min_eq_left h0.le]
    simp only [ParabolaRectangle.core, ParabolaRectangle.new]
    rw [if_neg (by push Not; intro; linarith), if_neg (by push Not; intro; exact h)]
    simp

theorem parabolaRectangle_tension {fc e0 n e : ℝ} (h0 : 0 ≤ e0) (he : 0 ≤ e) : parabolaRectangle fc e0 n e = 0 := by
  simp [parabolaRectangle, max_eq_right (by linarith : -e ≤ 0), min_eq_left h0]

theorem measurable_parabolaRectangle (fc e0 n : ℝ) : Measurable (parabolaRectangle fc e0 n) := by
  unfold parabolaRectangle; fun_prop

theorem parabolaRectangle_bounds {fc e0 n : ℝ} (hfc : 0 ≤ fc) (h0 : 0 < e0) (hn : 0 ≤ n) (e : ℝ) :
    -fc ≤ parabolaRectangle fc e0 n e ∧ parabolaRectangle fc e0 n e ≤ 0 := by
  have a1 : 0 ≤ min (max (-e) 0) e0 / e0 := div_nonneg (le_min (le_max_right _ _) h0.le) h0.le
  have a2 : min (max (-e) 0) e0 / e0 ≤ 1 := by rw [div_le_one h0]; exact min_le_right _ _
  have p1 : (1 - min (max (-e) 0) e0 / e0) ^ n ≤ 1 := Real.rpow_le_one (by linarith) (by linarith) hn
  have p0 : 0 ≤ (1 - min (max (-e) 0) e0 / e0) ^ n := Real.rpow_nonneg (by linarith) n
  simp only [parabolaRectangle]
  constructor <;> nlinarith

/-- The error of ten straight pieces. -/
noncomputable def chordError (fc e0 u n : ℝ) : ℝ := n * |fc| / |e0| * |u| / 40

section Parabola

variable {fc e0 u n : ℝ}

theorem parabola_node (h0 : 0 < |e0|) (hn : 1 ≤ n) (hu : 2e-5 ≤ |u|) (i : ℕ) (hi : i ≤ 10) :
    (ParabolaRectangle.new fc e0 u n).stress (tenth |u| i) = parabolaRectangle |fc| |e0| n (tenth |u| i) := by
  have hpos : 0 < |u| := by linarith
  rw [← parabola_spec fc e0 u n h0 hn (tenth_mem hpos hi).1, ParabolaRectangle.stress,
    show (ParabolaRectangle.new fc e0 u n).ult false = (-|u|, 100) from rfl, tenth_snap hu i hi]

theorem parabola_steps (h0 : 0 < |e0|) (hn : 1 ≤ n) {x y : ℝ} (hx : -|u| ≤ x) (hxy : x ≤ y) (hy : y ≤ 0) :
    parabolaRectangle |fc| |e0| n x ≤ parabolaRectangle |fc| |e0| n y ∧
      parabolaRectangle |fc| |e0| n y - parabolaRectangle |fc| |e0| n x ≤ n * |fc| / |e0| * (y - x) := by
  have h := parabola_lip fc e0 u n h0 hn hx hxy hy
  rw [parabola_spec fc e0 u n h0 hn hx, parabola_spec fc e0 u n h0 hn (hx.trans hxy)] at h
  refine ⟨?_, by linarith [(abs_le.1 h).1]⟩
  have a1 : min (max (-y) 0) |e0| / |e0| ≤ min (max (-x) 0) |e0| / |e0| :=
    div_le_div_of_nonneg_right (min_le_min_right _ (max_le_max_right _ (by linarith))) h0.le
  have a2 : min (max (-x) 0) |e0| / |e0| ≤ 1 := by rw [div_le_one h0]; exact min_le_right _ _
  have := Real.rpow_le_rpow (show 0 ≤ 1 - min (max (-x) 0) |e0| / |e0| by linarith)
    (show 1 - min (max (-x) 0) |e0| / |e0| ≤ 1 - min (max (-y) 0) |e0| / |e0| by linarith) (show 0 ≤ n by linarith)
  have := mul_le_mul_of_nonneg_left this (abs_nonneg fc)
  simp only [parabolaRectangle]
  linarith

/-- The polygon is weaker than the diagram, by at most `chordError`. -/
theorem parabola_polygon (h0 : 0 < |e0|) (hn : 1 ≤ n) (hu : 2e-5 ≤ |u|) {e : ℝ} (he : -|u| ≤ e) :
    0 ≤ polygonal (ParabolaRectangle.new fc e0 u n).stress |u| e - parabolaRectangle |fc| |e0| n e ∧
    polygonal (ParabolaRectangle.new fc e0 u n).stress |u| e - parabolaRectangle |fc| |e0| n e ≤ chordError fc e0 u n := by
  have hpos : 0 < |u| := by linarith
  have := polygonal_error (g := parabolaRectangle |fc| |e0| n) (L := n * |fc| / |e0|) hpos (by positivity)
    (fun i hi => parabola_node (fc := fc) h0 hn hu i hi) (fun x y hx hxy hy => parabola_steps h0 hn hx hxy hy)
    (fun x hx => parabolaRectangle_tension h0.le hx.le) he
  refine ⟨this.2 ?_, this.1⟩
  exact (parabola_core_convex fc e0 u n h0 hn).congr fun x hx => parabola_spec fc e0 u n h0 hn hx.1

/-- The parts of a section of parabola-rectangle concrete. -/
noncomputable def parabolaParts (fc e0 u n : ℝ) (shapes : List (Polygon × Set (ℝ × ℝ))) : List PolyPart :=
  shapes.map fun s => ⟨s.1, s.2, (ParabolaRectangle.new fc e0 u n).stress, (ParabolaRectangle.new fc e0 u n).ult, |u|⟩

/-- The law object these parts stand for (constitutive_laws/_parabolarectangle.py:126-129: no Marin expressions unless `n == 2`). -/
theorem parabola_marin (hfc : fc ≠ 0) (h0 : 0 < |e0|) (hu0 : |e0| ≤ |u|) (hu : 2e-5 ≤ |u|) (hn : 1 ≤ n) (h2 : n ≠ 2)
    {shapes : List (Polygon × Set (ℝ × ℝ))} {p : PolyPart} (hp : p ∈ parabolaParts fc e0 u n shapes) (a b : ℝ) :
    (ParabolaRectangle.new fc e0 u n).marinAny a b = .ok (p.law.marin a b) := by
  obtain ⟨s, -, rfl⟩ := List.mem_map.1 hp
  have hpos : 0 < |u| := by linarith
  have hfc0 : 0 < |fc| := abs_pos.2 hfc
  have hval : (ParabolaRectangle.new fc e0 u n).stress (-|u|) = -|fc| := by
    have h := parabola_node (fc := fc) h0 hn hu 0 (by norm_num)
    rw [tenth_zero] at h
    rw [h, parabolaRectangle, neg_neg, max_eq_left hpos.le, min_eq_right hu0, div_self h0.ne', sub_self,
      Real.zero_rpow (by linarith)]
    ring
  have hdis : (ParabolaRectangle.new fc e0 u n).discretized = .ok ⟨nodes (ParabolaRectangle.new fc e0 u n).stress |u|, -|u|, 0⟩ :=
    C65_nodes (parabola_samples fc e0 u n hu0) (C08_parabola_rectangle fc e0 u n h0 hu0 (by linarith) (by linarith))
      (C09_parabola_rectangle fc e0 u n h0 hu0 (by linarith) (by linarith)).2 hu (by rw [hval]; linarith)
      (by rw [hval, neg_neg]; nlinarith)
  have h2' : (ParabolaRectangle.new fc e0 u n).n ≠ 2 := h2
  simp only [ParabolaRectangle.marinAny, if_pos h2', hdis]
  rfl

theorem parabola_section (shapes : List (Polygon × Set (ℝ × ℝ))) (bars : List Bar) :
    crossSection ((parabolaParts fc e0 u n shapes).map PolyPart.solid) bars =
      plateSection shapes bars (polygonal (ParabolaRectangle.new fc e0 u n).stress |u|) |u| := by
  simp only [crossSection, plateSection, parabolaParts, List.map_map, Function.comp_def, PolyPart.solid, PolyPart.surf,
    Surf.ofMarin, ParabolaRectangle.ult, ParabolaRectangle.new]
  rfl

theorem snap_pair {u e : ℝ} (h1 : snap (-u, 100) (-u) = -u) (hu : 1e-3 ≤ u) (he : 1e-4 ≤ e) :
    snap (-u, 0) (-u) = -u ∧ snap (-u, 0) e = e := by
  have a1 : ¬ isclose (-u) 0 := by
    unfold isclose
    rw [not_le, lt_abs]
    right
    norm_num at *; linarith
  have a2 : ¬ isclose e 0 := by
    unfold isclose
    rw [not_le, lt_abs]
    left
    norm_num at *; linarith
  have a3 : ¬ isclose e (-u) := by
    unfold isclose
    rw [not_le, lt_abs, abs_neg, abs_of_nonneg (by norm_num at *; linarith)]
    left
    norm_num at *; linarith
  constructor
  · by_cases a4 : isclose (-u) (-u) <;> simp [snap, a1, a4]
  · simp [snap, a2, a3]

theorem parabola_fits {split : Polygon → ℝ → ℝ → ShapelyResult} {th eu L : ℝ} {shapes : List (Polygon × Set (ℝ × ℝ))}
    (henc : ∀ p ∈ shapes, Encloses p.1.ext p.1.ints p.2) (hull : ∀ p ∈ shapes, p.2 ⊆ convexHull ℝ {v | v ∈ p.1.ext})
    (hsplit : ∀ p ∈ shapes,
      SplitsExactly split ((p.1.rotate (-th)).rotate (-Real.pi)) (rotPt (-Real.pi) '' (rotPt (-th) '' p.2)))
    (h0 : 0 < |e0|) (hu0 : |e0| ≤ |u|) (hu : 1e-3 ≤ |u|) (hn : 1 ≤ n) (heu : 1e-4 ≤ eu) (hL : n * |fc| / |e0| ≤ L) :
    ∀ s ∈ (parabolaParts fc e0 u n shapes).map PolyPart.solid, s.Fits split th |u| eu L ∧ s.Grows |u| := by
  intro s hs
  obtain ⟨p, hp, rfl⟩ := List.mem_map.1 hs
  obtain ⟨q, hq, rfl⟩ := List.mem_map.1 hp
  have hu' : (2e-5:ℝ) ≤ |u| := by norm_num at *; linarith
  have hpos : 0 < |u| := by linarith
  have hL0 : 0 ≤ n * |fc| / |e0| := by positivity
  have hco := C08_parabola_rectangle fc e0 u n h0 hu0 (by linarith) (by linarith)
  have hz : (ParabolaRectangle.new fc e0 u n).stress 0 = 0 := (C09_parabola_rectangle fc e0 u n h0 hu0 (by linarith) (by linarith)).2
  have hstep : ∀ i < 10, (ParabolaRectangle.new fc e0 u n).stress (tenth |u| i) ≤ (ParabolaRectangle.new fc e0 u n).stress (tenth |u| (i + 1)) ∧
      (ParabolaRectangle.new fc e0 u n).stress (tenth |u| (i + 1)) - (ParabolaRectangle.new fc e0 u n).stress (tenth |u| i) ≤
        n * |fc| / |e0| * (|u| / 10) := by
    intro i hi
    rw [parabola_node h0 hn hu' i (by omega), parabola_node h0 hn hu' (i + 1) (by omega)]
    have := parabola_steps (fc := fc) (u := u) h0 hn (tenth_mem hpos (show i ≤ 10 by omega)).1 (tenth_lt hpos (Nat.lt_succ_self i)).le
      (tenth_mem hpos (show i + 1 ≤ 10 by omega)).2
    refine ⟨this.1, this.2.trans_eq ?_⟩
    rw [tenth_succ]; ring
  have hok : PolyPart.Ok split th
      ⟨q.1, q.2, (ParabolaRectangle.new fc e0 u n).stress, (ParabolaRectangle.new fc e0 u n).ult, |u|⟩ :=
    ⟨henc q hq, hull q hq, hsplit q hq, hz, rfl⟩
  have hend : snap (-|u|, 100) (-|u|) = -|u| := by
    have := tenth_snap hu' 0 (by norm_num)
    rwa [tenth_zero] at this
  obtain ⟨s1, s2⟩ := snap_pair hend hu heu
  have hlip : ∀ x y, -|u| ≤ x → -|u| ≤ y →
      |polygonal (ParabolaRectangle.new fc e0 u n).stress |u| x - polygonal (ParabolaRectangle.new fc e0 u n).stress |u| y| ≤
        n * |fc| / |e0| * |x - y| := by
    intro x y hx hy
    refine polygonal_lipschitz hpos hL0 (fun i hi => ?_) hz hx hy
    rw [abs_of_nonneg (sub_nonneg.2 (hstep i hi).1)]
    exact (hstep i hi).2
  refine ⟨⟨henc q hq, hull q hq, fun e chi hchi => poly_good hok hpos e chi hchi,
    ⟨poly_good_uniform (p := ⟨q.1, q.2, (ParabolaRectangle.new fc e0 u n).stress, (ParabolaRectangle.new fc e0 u n).ult, |u|⟩)
      (henc q hq) hpos s1, poly_good_uniform (p := ⟨q.1, q.2, (ParabolaRectangle.new fc e0 u n).stress,
        (ParabolaRectangle.new fc e0 u n).ult, |u|⟩) (henc q hq) hpos s2⟩, rfl, measurable_polygonal _ _,
    ⟨|fc|, polygonal_bounded hpos hco⟩, fun e he => polygonal_tension hpos hz he,
    fun x y hx hy => (hlip x y hx hy).trans (mul_le_mul_of_nonneg_right hL (abs_nonneg _))⟩, fun x y hx hxy => ?_⟩
  exact polygonal_mono hpos (fun i hi => (hstep i hi).1) hz hx hxy

end Parabola

end SC
