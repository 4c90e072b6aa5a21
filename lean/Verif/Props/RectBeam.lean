import Verif.Props.StressBlock

/-! # C77: rectangular sections with one layer of reinforcement - the textbook formula -/

set_option autoImplicit false

namespace SC

open Spec MeasureTheory OrdinaryRC

/-- A rectangle as a geometry. -/
noncomputable def rectShape (a b z0 z1 : ℝ) : List (Polygon × Set (ℝ × ℝ)) :=
  [(⟨rectRing a b z0 z1, []⟩, Set.Icc a b ×ˢ Set.Icc z0 z1)]

section

variable {a b z0 z1 fc : ℝ}

/-- Integrals over a rectangle of functions of the height. -/
theorem rect_integral (hab : a ≤ b) (hz : z0 ≤ z1) (g : ℝ → ℝ) :
    ∫ x in Set.Icc a b ×ˢ Set.Icc z0 z1, g x.2 = (b - a) * ∫ y in z0..z1, g y := by
  have := setIntegral_prod_mul (μ := (volume : Measure ℝ)) (ν := (volume : Measure ℝ)) (fun _ : ℝ => (1:ℝ)) g (Set.Icc a b) (Set.Icc z0 z1)
  rw [← Measure.volume_eq_prod] at this
  simp only [one_mul] at this
  rw [this, integral_Icc_eq_integral_Ioc (f := g), ← intervalIntegral.integral_of_le hz]
  simp [Measure.real, Real.volume_Icc, ENNReal.toReal_ofReal (sub_nonneg.2 hab)]

theorem rect_force (hab : a ≤ b) (hz : z0 ≤ z1) (e0 c : ℝ) :
    (concreteSection (normalParts fc (rectShape a b z0 z1)) []).forces ![e0, c, 0] 0 =
      (b - a) * ∫ y in z0..z1, (ParabolaRectangle.new fc 0.002 0.0035 2).stress (e0 + c * y) := by
  rw [← rect_integral hab hz]
  simp [CrossSection.forces, concreteSection, normalParts, rectShape, regionResultants, resultants, lever, planeStrain, ConcretePart.law]

theorem rect_moment (hab : a ≤ b) (hz : z0 ≤ z1) (e0 c : ℝ) :
    (concreteSection (normalParts fc (rectShape a b z0 z1)) []).forces ![e0, c, 0] 1 =
      (b - a) * ∫ y in z0..z1, (ParabolaRectangle.new fc 0.002 0.0035 2).stress (e0 + c * y) * y := by
  rw [← rect_integral hab hz]
  simp [CrossSection.forces, concreteSection, normalParts, rectShape, regionResultants, resultants, lever, planeStrain, ConcretePart.law]

/-- Concrete force and moment under a plane with the top at -0.0035 and the neutral axis at depth `x`. -/
theorem rect_block (hab : a ≤ b) {x : ℝ} (hx : 0 < x) (hx1 : x ≤ z1 - z0) :
    (concreteSection (normalParts fc (rectShape a b z0 z1)) []).forces ![-0.0035 + 0.0035 / x * z1, -(0.0035 / x), 0] 0 =
      -(17 / 21 * |fc| * (b - a) * x) ∧
    (concreteSection (normalParts fc (rectShape a b z0 z1)) []).forces ![-0.0035 + 0.0035 / x * z1, -(0.0035 / x), 0] 1 =
      -(17 / 21 * |fc| * (b - a) * x * (z1 - 99 / 238 * x)) := by
  have e : ∀ y, -0.0035 + 0.0035 / x * z1 + -(0.0035 / x) * y = -0.0035 + 0.0035 / x * (z1 - y) := by intro y; ring
  rw [rect_force hab (by linarith), rect_moment hab (by linarith)]
  simp only [e]
  rw [block_force hx hx1, block_moment hx hx1]
  constructor <;> ring

/-- Bars in one layer. -/
theorem layer_forces {parts : List ConcretePart} {bars : List Bar} {zb As : ℝ} (hzb : ∀ r ∈ bars, r.y = zb)
    (hAs : (bars.map Bar.area).sum = As) {f : ℝ → ℝ} (hf : ∀ r ∈ bars, r.law.law.stress = f) (e0 c : ℝ) :
    (concreteSection parts bars).forces ![e0, c, 0] 0 = (concreteSection parts []).forces ![e0, c, 0] 0 + As * f (e0 + c * zb) ∧
    (concreteSection parts bars).forces ![e0, c, 0] 1 = (concreteSection parts []).forces ![e0, c, 0] 1 + As * f (e0 + c * zb) * zb := by
  have h0 : (bars.map fun r => r.area * r.law.law.stress (planeStrain ![e0, c, 0] r.x r.y)).sum = As * f (e0 + c * zb) := by
    rw [← hAs, ← list_sum_mul_const]
    congr 1
    refine List.map_congr_left fun r hr => ?_
    rw [hf r hr, hzb r hr]
    simp [planeStrain]
  have h1 : (bars.map fun r => r.area * r.law.law.stress (planeStrain ![e0, c, 0] r.x r.y) * r.y).sum = As * f (e0 + c * zb) * zb := by
    rw [← h0, ← list_sum_mul_const]
    congr 1
    refine List.map_congr_left fun r hr => ?_
    rw [hzb r hr]
  constructor
  · rw [force_split, h0]
  · rw [← h1]
    simp only [CrossSection.forces, concreteSection, List.map_map, Function.comp_def, Pi.add_apply, List.map_nil, resultants,
      lever, Matrix.cons_val, Bar.fibre, List.sum_nil, add_zero]

theorem rect_hull (hab : a ≤ b) (hz : z0 ≤ z1) : Set.Icc a b ×ˢ Set.Icc z0 z1 ⊆ convexHull ℝ {v | v ∈ rectRing a b z0 z1} := by
  have hset : {v | v ∈ rectRing a b z0 z1} = ({a, b} : Set ℝ) ×ˢ ({z0, z1} : Set ℝ) := by
    ext ⟨x, y⟩
    simp only [rectRing, closeRing, Set.mem_ofPred_eq, List.mem_cons, List.cons_append, List.nil_append,
      List.take_succ_cons, List.take_zero, List.not_mem_nil, or_false,
      Set.mem_prod, Set.mem_insert_iff, Set.mem_singleton_iff, Prod.mk.injEq]
    tauto
  rw [hset, convexHull_prod, convexHull_pair, convexHull_pair, segment_eq_Icc hab, segment_eq_Icc hz]

theorem rect_vertex {v : ℝ × ℝ} (hv : v ∈ rectRing a b z0 z1) : (v.1 = a ∨ v.1 = b) ∧ (v.2 = z0 ∨ v.2 = z1) := by
  simp only [rectRing, closeRing, List.mem_cons, List.cons_append, List.nil_append,
      List.take_succ_cons, List.take_zero, List.not_mem_nil, or_false] at hv
  rcases hv with rfl | rfl | rfl | rfl | rfl <;> simp

set_option maxHeartbeats 1600000 in
/-- A limit state of a rectangular section with one layer of perfectly plastic bars, under a load for which the bars yield and the
concrete governs: the neutral axis and the forces. -/
theorem rect_state {split : Polygon → ℝ → ℝ → ShapelyResult} {bars : List Bar} {zb As E ey eu n e0 c : ℝ}
    (hok : ∀ p ∈ normalParts fc (rectShape a b z0 z1), p.Ok split 0)
    (hab : a < b) (hfc : 0 < fc) (hd : zb < z1) (hz0 : z0 ≤ zb) (hdeep : z1 - z0 ≤ 1000 * (z1 - zb))
    (hE : 0 < E) (hey : 0 < ey) (hye : ey ≤ eu) (hce : 0.0035 ≤ eu) (heu : eu ≤ 0.09)
    (hne : bars ≠ []) (hzb : ∀ r ∈ bars, r.y = zb) (hA : ∀ r ∈ bars, 0 ≤ r.area) (hAs : (bars.map Bar.area).sum = As)
    {f : ℝ → ℝ} (hf : ∀ r ∈ bars, r.law.law.stress = f) (hult : ∀ r ∈ bars, r.law.law.ult false = (-eu, eu))
    (hclamp : ∀ v, |v| ≤ eu → f v = E * max (-ey) (min v ey))
    (hc : c < 0)
    (hadm : (concreteSection (normalParts fc (rectShape a b z0 z1)) bars).Admissible ![e0, c, 0])
    (hlim : (concreteSection (normalParts fc (rectShape a b z0 z1)) bars).AtLimit ![e0, c, 0])
    (hn : |(concreteSection (normalParts fc (rectShape a b z0 z1)) bars).forces ![e0, c, 0] 0 - n| ≤ 1e-2)
    {X τ : ℝ} (hτ : τ = 1e-2 / (17 / 21 * fc * (b - a))) (hX : X = (As * (E * ey) - n) / (17 / 21 * fc * (b - a)))
    (hXA : 0.0035 / (0.0035 + eu) * (z1 - zb) + τ < X) (hXY : X + τ < 0.0035 / (0.0035 + ey) * (z1 - zb)) :
    ∃ x, 0 < x ∧ |x - X| ≤ τ ∧ c = -(0.0035 / x) ∧ e0 = -0.0035 + 0.0035 / x * z1 ∧ ey ≤ e0 + c * zb ∧
      (concreteSection (normalParts fc (rectShape a b z0 z1)) bars).forces ![e0, c, 0] 0 = As * (E * ey) - 17 / 21 * fc * (b - a) * x ∧
      (concreteSection (normalParts fc (rectShape a b z0 z1)) bars).forces ![e0, c, 0] 1 =
        As * (E * ey) * zb - 17 / 21 * fc * (b - a) * x * (z1 - 99 / 238 * x) := by
  set P := normalParts fc (rectShape a b z0 z1) with hP
  set S := concreteSection P bars with hS
  set q := 17 / 21 * fc * (b - a) with hq
  have hq0 : 0 < q := by rw [hq]; exact mul_pos (by positivity) (by linarith)
  set d := z1 - zb with hdd
  have hd0 : 0 < d := by rw [hdd]; linarith
  have hstr : ∀ e0 c x y : ℝ, planeStrain ![e0, c, 0] x y = e0 + c * y := by intro e0 c x y; simp [planeStrain]
  have hAs0 : 0 ≤ As := by
    rw [← hAs]
    refine List.sum_nonneg ?_
    intro x hx
    obtain ⟨r, hr, rfl⟩ := List.mem_map.1 hx
    exact hA r hr
  -- limits at the top and at the bars
  have hplate : ∀ y ∈ Set.Icc z0 z1, -0.0035 ≤ e0 + c * y ∧ e0 + c * y ≤ 100 := by
    intro y hy
    have hm : (⟨Set.Icc a b ×ˢ Set.Icc z0 z1, rectRing a b z0 z1, (ConcretePart.mk ⟨rectRing a b z0 z1, []⟩ (Set.Icc a b ×ˢ Set.Icc z0 z1) fc 0.002 0.0035).law.stress, -0.0035, 100⟩ : Plate) ∈ S.plates := by
      simp only [hS, hP, concreteSection, normalParts, rectShape, List.map_cons, List.map_nil, List.mem_singleton, part_ult]
      norm_num [abs_of_pos]
    have := hadm.1 _ hm (a, y) (rect_hull hab.le (by linarith) ⟨⟨le_rfl, hab.le⟩, hy⟩)
    simp only [hstr] at this
    exact this
  have htop := (hplate z1 ⟨by linarith, le_rfl⟩).1
  obtain ⟨r0, hr0⟩ := List.exists_mem_of_ne_nil _ hne
  have hbar := bar_strain hadm hr0
  rw [hstr, hult r0 hr0, hzb r0 hr0] at hbar
  obtain ⟨hb1, hb2⟩ := hbar
  simp only at hb1 hb2
  have hsb : e0 + c * zb = e0 + c * z1 - c * d := by rw [hdd]; ring
  have hcd : -c * d ≤ eu + 0.0035 := by linarith
  -- the compression pivot or the tension pivot
  have hcase : e0 + c * z1 = -0.0035 ∨ e0 + c * zb = eu := by
    obtain ⟨k, hk, hk'⟩ := hlim
    simp only [CrossSection.corners, hS, hP, concreteSection, normalParts, rectShape, List.map_cons, List.map_nil, List.flatMap_cons,
      List.flatMap_nil, List.append_nil, List.mem_append, List.mem_map, part_ult] at hk
    rcases hk with ⟨v, hv, rfl⟩ | ⟨_, ⟨r, hr, rfl⟩, rfl⟩
    · left
      have hv2 := (rect_vertex hv).2
      have hvz : z0 ≤ v.2 ∧ v.2 ≤ z1 := by rcases hv2 with e | e <;> rw [e] <;> constructor <;> linarith
      simp only [hstr] at hk'
      rcases hk' with h | h
      · rw [abs_of_pos (by norm_num)] at h
        have : c * z1 ≤ c * v.2 := mul_le_mul_of_nonpos_left hvz.2 hc.le
        linarith
      · exfalso
        have e1 : e0 + c * v.2 = e0 + c * zb + -c * (zb - v.2) := by ring
        have e2 : -c * (zb - v.2) ≤ -c * (1000 * d) := mul_le_mul_of_nonneg_left (by linarith [hvz.1]) (by linarith)
        have e3 : -c * (1000 * d) = 1000 * (-c * d) := by ring
        norm_num at *
        linarith
    · right
      simp only [Bar.fibre, hstr, hult r hr, hzb r hr] at hk'
      rcases hk' with h | h
      · exfalso
        have : 0 < -c * d := mul_pos (by linarith) hd0
        linarith
      · exact h
  have hforces := fun e0 c => layer_forces (parts := P) hzb hAs hf e0 c
  -- the reference planes
  have href : ∀ x, 0 < x → x ≤ z1 - z0 → -eu ≤ -0.0035 + 0.0035 / x * d → -0.0035 + 0.0035 / x * d ≤ eu → ey ≤ -0.0035 + 0.0035 / x * d →
      S.forces ![-0.0035 + 0.0035 / x * z1, -(0.0035 / x), 0] 0 = As * (E * ey) - q * x ∧
      S.forces ![-0.0035 + 0.0035 / x * z1, -(0.0035 / x), 0] 1 = As * (E * ey) * zb - q * x * (z1 - 99 / 238 * x) := by
    intro x hx hx1 h1 h2 h3
    obtain ⟨k0, k1⟩ := rect_block (fc := fc) hab.le hx hx1
    obtain ⟨g0, g1⟩ := hforces (-0.0035 + 0.0035 / x * z1) (-(0.0035 / x))
    rw [← hP] at k0 k1
    have e : -0.0035 + 0.0035 / x * z1 + -(0.0035 / x) * zb = -0.0035 + 0.0035 / x * d := by rw [hdd]; ring
    rw [e, hclamp _ (abs_le.2 ⟨h1, h2⟩), min_eq_right h3, max_eq_right (by linarith)] at g0 g1
    rw [abs_of_pos hfc] at k0 k1
    rw [hS, g0, g1, k0, k1]
    constructor <;> ring
  have hmono : ∀ e0 c e0' c', (∀ y ∈ Set.Icc z0 z1, (ParabolaRectangle.new fc 0.002 0.0035 2).stress (e0' + c' * y) ≤
      (ParabolaRectangle.new fc 0.002 0.0035 2).stress (e0 + c * y)) → f (e0' + c' * zb) ≤ f (e0 + c * zb) →
      S.forces ![e0', c', 0] 0 ≤ S.forces ![e0, c, 0] 0 := by
    intro e0 c e0' c' h1 h2
    rw [hS, (hforces e0 c).1, (hforces e0' c').1]
    refine add_le_add (concrete_force_mono hok fun p hp x hx => ?_) (mul_le_mul_of_nonneg_left h2 hAs0)
    simp only [hP, normalParts, rectShape, List.map_cons, List.map_nil, List.mem_singleton] at hp
    subst hp
    rw [hstr, hstr]
    exact h1 _ hx.2
  have hXq : n = As * (E * ey) - q * X := by rw [hX]; field_simp; ring
  have hτq : q * τ = 1e-2 := by rw [hτ]; field_simp
  rw [abs_le] at hn
  have hprmono : ∀ u v, -0.0035 ≤ u → u ≤ v → (ParabolaRectangle.new fc 0.002 0.0035 2).stress u ≤
      (ParabolaRectangle.new fc 0.002 0.0035 2).stress v := by
    intro u v h1 h2
    exact pr_stress_mono fc 0.002 0.0035 (by norm_num) (by norm_num [abs_of_pos]) (by rwa [abs_of_pos (by norm_num)]) h2
  have hprtens : ∀ u, 0 ≤ u → (ParabolaRectangle.new fc 0.002 0.0035 2).stress u = 0 := fun u hu =>
    pr_stress_tension fc 0.002 0.0035 (by norm_num) (by norm_num [abs_of_pos]) hu
  have hprneg : ∀ u, (ParabolaRectangle.new fc 0.002 0.0035 2).stress u ≤ 0 := fun u =>
    (pr_stress_range fc 0.002 0.0035 (by norm_num) u).2
  have hfmono : ∀ u v, |u| ≤ eu → |v| ≤ eu → u ≤ v → f u ≤ f v := by
    intro u v h1 h2 h3
    rw [hclamp u h1, hclamp v h2]
    exact mul_le_mul_of_nonneg_left (max_le_max_left _ (min_le_min_right _ h3)) hE.le
  set xA := 0.0035 / (0.0035 + eu) * d with hxA
  set xY := 0.0035 / (0.0035 + ey) * d with hxY
  have hxA0 : 0 < xA := by rw [hxA]; positivity
  have hxAd : xA ≤ d := by
    rw [hxA]
    have : 0.0035 / (0.0035 + eu) ≤ 1 := by rw [div_le_one (by linarith)]; linarith
    nlinarith
  have hxY0 : 0 < xY := by rw [hxY]; positivity
  have hxYd : xY ≤ d := by
    rw [hxY]
    have : 0.0035 / (0.0035 + ey) ≤ 1 := by rw [div_le_one (by linarith)]; linarith
    nlinarith
  have hA' : 0.0035 / xA * d = 0.0035 + eu := by rw [hxA]; field_simp
  have hY' : 0.0035 / xY * d = 0.0035 + ey := by rw [hxY]; field_simp
  have hdz : d ≤ z1 - z0 := by rw [hdd]; linarith
  have hτ0 : 0 < τ := by rw [hτ]; positivity
  -- with the tension pivot the force would be too large
  have hpivA : e0 + c * z1 = -0.0035 := by
    rcases hcase with h | hbeu
    · exact h
    · exfalso
      have hb := (href xA hxA0 (by linarith) (by linarith) (by linarith) (by linarith)).1
      have hcA : -(0.0035 / xA) ≤ c := by
        have : -c * d ≤ 0.0035 / xA * d := by linarith
        have := le_of_mul_le_mul_right this hd0
        linarith
      have hle := hmono e0 c (-0.0035 + 0.0035 / xA * z1) (-(0.0035 / xA)) (by
        intro y hy
        rcases le_or_gt zb y with h | h
        · refine hprmono _ _ ?_ ?_
          · have : 0 ≤ 0.0035 / xA * (z1 - y) := mul_nonneg (by positivity) (by linarith [hy.2])
            linarith
          · have e1 : -0.0035 + 0.0035 / xA * z1 + -(0.0035 / xA) * y = eu + -(0.0035 / xA) * (y - zb) := by
              have : 0.0035 / xA * d = 0.0035 / xA * z1 - 0.0035 / xA * zb := by rw [hdd]; ring
              linarith
            have e2 : e0 + c * y = eu + c * (y - zb) := by linarith
            rw [e1, e2]
            have := mul_le_mul_of_nonneg_right hcA (show 0 ≤ y - zb by linarith)
            linarith
        · rw [hprtens (e0 + c * y)]
          · exact hprneg _
          · have : 0 < c * (y - zb) := mul_pos_of_neg_of_neg hc (by linarith)
            linarith) (by
        have e1 : -0.0035 + 0.0035 / xA * z1 + -(0.0035 / xA) * zb = eu := by
          have : 0.0035 / xA * d = 0.0035 / xA * z1 - 0.0035 / xA * zb := by rw [hdd]; ring
          linarith
        rw [e1, hbeu])
      have : q * (xA + τ) < q * X := mul_lt_mul_of_pos_left hXA hq0
      rw [mul_add, hτq] at this
      linarith [hn.1, hn.2]
  set x := 0.0035 / -c with hxdef
  have hx0 : 0 < x := div_pos (by norm_num) (by linarith)
  have hcx : c = -(0.0035 / x) := by rw [hxdef]; field_simp
  have he0 : e0 = -0.0035 + 0.0035 / x * z1 := by
    have : 0.0035 / x = -c := by linarith
    rw [this]; linarith
  have hbx : e0 + c * zb = -0.0035 + 0.0035 / x * d := by rw [hdd, he0, hcx]; ring
  have hxxY : x < xY := by
    by_contra hcon
    push Not at hcon
    have hb := (href xY hxY0 (by linarith) (by linarith) (by linarith) (by linarith)).1
    have hdiv : 0.0035 / x ≤ 0.0035 / xY := div_le_div_of_nonneg_left (by norm_num) hxY0 hcon
    have hle := hmono (-0.0035 + 0.0035 / xY * z1) (-(0.0035 / xY)) e0 c (by
      intro y hy
      have e1 : e0 + c * y = -0.0035 + 0.0035 / x * (z1 - y) := by rw [he0, hcx]; ring
      have e2 : -0.0035 + 0.0035 / xY * z1 + -(0.0035 / xY) * y = -0.0035 + 0.0035 / xY * (z1 - y) := by ring
      rw [e1, e2]
      have h0 : 0 ≤ z1 - y := by linarith [hy.2]
      have : 0 ≤ 0.0035 / x * (z1 - y) := mul_nonneg (by positivity) h0
      exact hprmono _ _ (by linarith) (by linarith [mul_le_mul_of_nonneg_right hdiv h0])) (by
      have e2 : -0.0035 + 0.0035 / xY * z1 + -(0.0035 / xY) * zb = ey := by
        have : 0.0035 / xY * d = 0.0035 / xY * z1 - 0.0035 / xY * zb := by rw [hdd]; ring
        linarith
      rw [e2]
      refine hfmono _ _ (abs_le.2 ⟨by linarith, hb2⟩) (by rw [abs_of_pos hey]; exact hye) ?_
      rw [hbx]
      linarith [mul_le_mul_of_nonneg_right hdiv hd0.le])
    have : q * (X + τ) < q * xY := mul_lt_mul_of_pos_left hXY hq0
    rw [mul_add, hτq] at this
    linarith [hn.1, hn.2]
  have hdiv : 0.0035 / xY ≤ 0.0035 / x := div_le_div_of_nonneg_left (by norm_num) hx0 hxxY.le
  have hyield : ey ≤ -0.0035 + 0.0035 / x * d := by linarith [mul_le_mul_of_nonneg_right hdiv hd0.le]
  obtain ⟨g0, g1⟩ := href x hx0 (by linarith) (by linarith) (by rw [← hbx]; exact hb2) hyield
  rw [← he0, ← hcx] at g0 g1
  refine ⟨x, hx0, ?_, hcx, he0, by rw [hbx]; exact hyield, g0, g1⟩
  rw [g0, hXq] at hn
  have h1 : q * (x - X) ≤ q * τ := by rw [hτq]; linarith [hn.1]
  have h2 : q * (X - x) ≤ q * τ := by rw [hτq]; linarith [hn.2]
  have := le_of_mul_le_mul_left h1 hq0
  have := le_of_mul_le_mul_left h2 hq0
  rw [abs_le]
  constructor <;> linarith

end

end SC
