import Verif.Props.RCReturns

/-! # C73: ordinary reinforced concrete

For a section of concrete with one crushing strain, reinforced with steel of one limit strain, the governing pivots, the limit axial
loads and the range of loads with a result are known beforehand: the hypotheses `hlim`, `hflat`, `hbal`, `hgov`, `hlow`, `hhigh` of C66
hold by themselves. -/

set_option autoImplicit false

namespace SC

open Spec MeasureTheory

/-- Reinforced concrete, bent about an axis inclined by `th`: `ecu` is the crushing strain of the concrete, `eu` the limit strain of
the steel, `H` bounds the depth of the section. -/
structure OrdinaryRC (th : ℝ) (parts : List ConcretePart) (bars : List Bar) (ecu eu H : ℝ) : Prop where
  crushing : ∀ p ∈ parts, |p.eps_u| = ecu
  rupture : ∀ b ∈ bars, (b.law.law.ult false).2 = eu ∧ (b.law.law.ult false).1 ≤ -ecu
  ecu_range : 1e-3 ≤ ecu ∧ ecu ≤ 5e-3
  eu_range : 1e-4 ≤ eu ∧ eu ≤ 0.09
  inside : ∀ b ∈ bars, ∃ p ∈ parts, (b.x, b.y) ∈ convexHull ℝ {v | v ∈ p.polygon.ext}
  span : ∀ c ∈ (concreteSection parts bars).corners, ∀ d ∈ (concreteSection parts bars).corners, height th c.1 - height th d.1 ≤ H
  size : 1e-3 ≤ H ∧ H ≤ 1e9
  depth : ∃ b ∈ bars, ∃ p ∈ parts, ∃ v ∈ p.polygon.ext, H ≤ 1000 * (height th v - height th (b.x, b.y))

theorem part_ult (p : ConcretePart) : p.law.ult false = (-|p.eps_u|, 100) := by
  simp [ConcretePart.law, ParabolaRectangle.ult, ParabolaRectangle.new]

namespace OrdinaryRC

variable {th : ℝ} {parts : List ConcretePart} {bars : List Bar} {ecu eu H : ℝ}

/-- The corners of the section: concrete corners and bars. -/
theorem corner_cases (h : OrdinaryRC th parts bars ecu eu H) {c : (ℝ × ℝ) × ℝ × ℝ} (hc : c ∈ (concreteSection parts bars).corners) :
    (∃ p ∈ parts, c.1 ∈ p.polygon.ext ∧ c.2 = (-ecu, 100)) ∨ (∃ b ∈ bars, c.1 = (b.x, b.y) ∧ c.2.2 = eu ∧ c.2.1 ≤ -ecu) := by
  simp only [CrossSection.corners, concreteSection, List.mem_append, List.mem_flatMap, List.mem_map] at hc
  rcases hc with ⟨_, ⟨p, hp, rfl⟩, v, hv, rfl⟩ | ⟨_, ⟨b, hb, rfl⟩, rfl⟩
  · left
    exact ⟨p, hp, hv, by rw [← h.crushing p hp]; exact part_ult p⟩
  · right
    exact ⟨b, hb, rfl, h.rupture b hb⟩

theorem concrete_corner (h : OrdinaryRC th parts bars ecu eu H) {p : ConcretePart} (hp : p ∈ parts) {v : ℝ × ℝ} (hv : v ∈ p.polygon.ext) :
    ((v, -ecu, 100) : (ℝ × ℝ) × ℝ × ℝ) ∈ (concreteSection parts bars).corners := by
  simp only [CrossSection.corners, concreteSection, List.mem_append, List.mem_flatMap, List.mem_map]
  refine Or.inl ⟨_, ⟨p, hp, rfl⟩, v, hv, ?_⟩
  rw [part_ult, h.crushing p hp]

theorem bar_corner {b : Bar} (hb : b ∈ bars) :
    (((b.x, b.y), b.law.law.ult false) : (ℝ × ℝ) × ℝ × ℝ) ∈ (concreteSection parts bars).corners := by
  simp only [CrossSection.corners, concreteSection, List.mem_append, List.mem_map]
  exact Or.inr ⟨_, ⟨b, hb, rfl⟩, rfl⟩

theorem lim (h : OrdinaryRC th parts bars ecu eu H) : ∀ c ∈ (concreteSection parts bars).corners, c.2.1 ≤ 0 ∧ 0 ≤ c.2.2 := by
  intro c hc
  have := h.ecu_range.1
  have := h.eu_range.1
  rcases h.corner_cases hc with ⟨p, -, -, e⟩ | ⟨b, -, -, e1, e2⟩
  · rw [e]; constructor <;> norm_num <;> linarith
  · rw [e1]; constructor <;> norm_num at * <;> linarith

theorem flat (h : OrdinaryRC th parts bars ecu eu H) : ∀ c ∈ (concreteSection parts bars).corners,
    ∀ d ∈ (concreteSection parts bars).corners, 1e-13 * (height th d.1 - height th c.1) ≤ c.2.2 - d.2.1 := by
  intro c hc d hd
  have hs := h.span d hd c hc
  have h1 := h.ecu_range
  have h2 := h.eu_range
  have h3 := h.size
  have l1 : 1e-13 * (height th d.1 - height th c.1) ≤ 1e-4 := by norm_num at *; linarith
  have l2 : eu ≤ c.2.2 := by
    rcases h.corner_cases hc with ⟨p, -, -, e⟩ | ⟨b, -, -, e1, e2⟩
    · rw [e]; norm_num at *; linarith
    · rw [e1]
  have l3 : d.2.1 ≤ -ecu := by
    rcases h.corner_cases hd with ⟨p, -, -, e⟩ | ⟨b, -, -, e1, e2⟩
    · rw [e]
    · exact e2
  norm_num at *
  linarith

/-- The height of a hull point is at most that of some vertex. -/
theorem hull_height {P : Set (ℝ × ℝ)} {x : ℝ × ℝ} (hx : x ∈ convexHull ℝ P) : ∃ v ∈ P, height th x ≤ height th v := by
  by_contra hcon
  push Not at hcon
  have hconv : Convex ℝ {y : ℝ × ℝ | height th y < height th x} := by
    intro a ha b hb s t hs ht hst
    simp only [Set.mem_ofPred_eq] at ha hb ⊢
    have e : height th (s • a + t • b) = s * height th a + t * height th b := by
      simp only [height, Prod.fst_add, Prod.snd_add, Prod.smul_fst, Prod.smul_snd, smul_eq_mul]; ring
    rw [e]
    have ht' : t = 1 - s := by linarith
    subst ht'
    rcases hs.eq_or_lt with rfl | hs'
    · simpa using hb
    · nlinarith
  have hsub : P ⊆ {y : ℝ × ℝ | height th y < height th x} := fun v hv => hcon v hv
  have hm : x ∈ {y : ℝ × ℝ | height th y < height th x} := convexHull_min hsub hconv hx
  rw [Set.mem_ofPred_eq] at hm
  exact lt_irrefl _ hm

/-- The governing state: the lowest bar reaches `eu` and the highest concrete reaches `-ecu`. -/
theorem balanced {split : Polygon → ℝ → ℝ → ShapelyResult} {ms : ℝ} (h : OrdinaryRC th parts bars ecu eu H)
    (hne : ∀ p ∈ parts, p.polygon.ext ≠ []) :
    ∃ yn yp st, (sectionEngine split (parts.map ConcretePart.solid) bars ms).balanced (-th) false = .ok (yn, yp, st) ∧
      planeStrain st 0 yp = eu ∧ planeStrain st 0 yn = -ecu ∧ st 2 = 0 ∧ -1e5 ≤ st 1 ∧ st 1 ≤ 0 ∧
      (∃ b ∈ bars, height th (b.x, b.y) = yp) ∧ (∃ c ∈ (concreteSection parts bars).corners, height th c.1 = yn) ∧
      ∀ c ∈ (concreteSection parts bars).corners, planeStrain st 0 yp ≤ c.2.2 ∧ c.2.1 ≤ planeStrain st 0 yn := by
  set solids := parts.map ConcretePart.solid with hsol
  have hne' : ∀ s ∈ solids, s.spec.surf.polygon.ext ≠ [] := by
    intro s hs
    obtain ⟨p, hp, rfl⟩ := List.mem_map.1 hs
    exact hne p hp
  have hcor := concrete_corners parts bars
  rw [← hsol] at hcor
  have hlim := h.lim
  have hspan := h.span
  have hcc := fun c => h.corner_cases (c := c)
  have h1 := h.ecu_range
  have h2 := h.eu_range
  have h3 := h.size
  rw [← hcor] at hlim hspan hcc ⊢
  have hln : ∀ g ∈ sectionParts solids bars (-th), compressionLimit false (solids.any Solid.concrete) g ≤ 0 := by
    intro g hg'
    obtain ⟨c, hc, -, h2⟩ := (part_corner hne' hg').1
    rw [compressionLimit_ultimate, ← h2]
    exact (hlim c hc).1
  have hlp : ∀ g ∈ sectionParts solids bars (-th), 0 ≤ tensionLimit false g := by
    intro g hg'
    obtain ⟨c, hc, -, h2⟩ := (part_corner hne' hg').1
    rw [tensionLimit, ← h2]
    exact (hlim c hc).2
  obtain ⟨b0, hb0, p0, hp0, v0, hv0, hd0⟩ := h.depth
  have cb : ((b0.x, b0.y), b0.law.law.ult false) ∈ (crossSection solids bars).corners := by rw [hcor]; exact bar_corner hb0
  have cv : (v0, -ecu, (100:ℝ)) ∈ (crossSection solids bars).corners := by rw [hcor]; exact h.concrete_corner hp0 hv0
  obtain ⟨gb, hgb, ub, lb, lb'⟩ := corner_part (th := th) hne' cb
  obtain ⟨gv, hgv, uv, lv, lv'⟩ := corner_part (th := th) hne' cv
  simp only at ub lb lb' uv lv lv'
  have hdpos : 1e-6 ≤ height th v0 - height th (b0.x, b0.y) := by norm_num at *; linarith
  have hex : ∃ r, balancedFailure (sectionParts solids bars (-th)) (solids.any Solid.concrete) false = .ok r := by
    by_contra hcon
    push Not at hcon
    have hlt : gb.yLow < gv.yHigh := by norm_num at *; linarith
    have := (C22_raises_iff _ _ _).1 hcon gb hgb gv hgv hlt
    rw [tensionLimit, compressionLimit_ultimate, ub, uv, (h.rupture b0 hb0).1, le_div_iff₀ (by linarith)] at this
    have e : 1e-6 ≤ gv.yHigh - gb.yLow := by linarith
    norm_num at *
    linarith
  obtain ⟨⟨yn, yp, st⟩, hb⟩ := hex
  refine ⟨yn, yp, st, hb, ?_⟩
  obtain ⟨⟨g, hgm, o, hom, hyp, hyn, hlt, htp, htn⟩, hadm, hst1, hst2⟩ := C22_balanced _ _ _ hln hlp _ _ _ hb
  have hpl : ∀ x y, planeStrain st x y = st 0 + st 1 * y := by intro x y; simp [planeStrain, hst2]
  have hall : ∀ c ∈ (crossSection solids bars).corners, c.2.1 ≤ st 0 + st 1 * height th c.1 ∧ st 0 + st 1 * height th c.1 ≤ c.2.2 := by
    intro c hc
    obtain ⟨q, hq, u, l, l'⟩ := corner_part (th := th) hne' hc
    have := hadm q hq 0 _ l l'
    rw [compressionLimit_ultimate, tensionLimit, u, hpl] at this
    exact this
  obtain ⟨c, hc, k1, k2⟩ := (part_corner hne' hgm).1
  obtain ⟨d, hd, m1, m2⟩ := (part_corner hne' hom).2
  have t1 := htp 0
  have t2 := htn 0
  rw [hpl, tensionLimit, ← k2] at t1
  rw [hpl, compressionLimit_ultimate, ← m2] at t2
  have sb := (hall _ cb).2
  have sv := (hall _ cv).1
  simp only at sb sv
  rw [(h.rupture b0 hb0).1] at sb
  -- the curvature is at most that of the deep bar
  have hcurv : (-st 1) * (height th v0 - height th (b0.x, b0.y)) ≤ 0.095 := by norm_num at *; linarith
  have hlow : d.2.1 ≤ -ecu := by
    rcases hcc d hd with ⟨p, -, -, e⟩ | ⟨b, -, -, e1, e2⟩
    · rw [e]
    · exact e2
  -- the tension pivot is a bar
  have htb : ∃ b ∈ bars, c.1 = (b.x, b.y) ∧ c.2.2 = eu := by
    rcases hcc c hc with ⟨p, -, -, e⟩ | ⟨b, hb', e0, e1, -⟩
    · exfalso
      rw [e] at t1
      have hs := hspan d hd c hc
      rw [m1, k1, hyp, hyn] at hs
      have e1 : 100 ≤ (-st 1) * (yn - yp) := by norm_num at *; linarith
      have e2 : (-st 1) * (yn - yp) ≤ (-st 1) * (1000 * (height th v0 - height th (b0.x, b0.y))) :=
        mul_le_mul_of_nonneg_left (by linarith) (by linarith)
      norm_num at *
      linarith
    · exact ⟨b, hb', e0, e1⟩
  obtain ⟨b, hb', ec, ecu'⟩ := htb
  have hpos : planeStrain st 0 yp = eu := by rw [hpl, t1, ecu']
  have hneg : planeStrain st 0 yn = -ecu := by
    rw [hpl]
    apply le_antisymm
    · rw [t2]; exact hlow
    · rcases hcc d hd with ⟨p, -, -, e⟩ | ⟨b', hb'', e0, -, -⟩
      · rw [t2, e]
      · obtain ⟨p, hp, hin⟩ := h.inside b' hb''
        obtain ⟨v, hv, hle⟩ := hull_height (th := th) hin
        have := (hall _ (by rw [hcor]; exact h.concrete_corner hp hv)).1
        simp only at this
        rw [← e0, m1, hyn] at hle
        nlinarith
  refine ⟨hpos, hneg, hst2, ?_, hst1, ⟨b, hb', ?_⟩, ⟨d, hd, m1.trans hyn⟩, ?_⟩
  · have : (-st 1) * 1e-6 ≤ 0.095 := by
      refine (mul_le_mul_of_nonneg_left hdpos (by linarith)).trans hcurv
    norm_num at *
    linarith
  · rw [← ec, k1, hyp]
  · intro q hq
    rw [hpos, hneg]
    rcases hcc q hq with ⟨p, -, -, e⟩ | ⟨b, -, -, e1, e2⟩
    · rw [e]; constructor <;> norm_num at * ; linarith
    · rw [e1]; exact ⟨le_rfl, e2⟩

/-- Sum of modulus times area, `2 fc / eps_0` being the initial modulus of the parabola. -/
noncomputable def axialRigidity (parts : List ConcretePart) (bars : List Bar) (K : ℝ) : ℝ :=
  (parts.map fun p => 2 * |p.fc| / |p.eps_0| * areaMoment 0 0 p.region).sum + (bars.map fun b => K * |b.area|).sum

theorem slope_le (h : OrdinaryRC th parts bars ecu eu H)
    (hreg : ∀ p ∈ parts, Encloses p.polygon.ext p.polygon.ints p.region ∧ p.region ⊆ convexHull ℝ {v | v ∈ p.polygon.ext})
    {K y : ℝ} (hK : 0 ≤ K) (hy : ∃ c ∈ (concreteSection parts bars).corners, height th c.1 = y) :
    forceSlope parts bars K th y ≤ axialRigidity parts bars K * H := by
  obtain ⟨c, hc, rfl⟩ := hy
  have hcorner : ∀ d ∈ (concreteSection parts bars).corners, |height th d.1 - height th c.1| ≤ H := by
    intro d hd
    rw [abs_le]
    have h1 := h.span c hc d hd
    have h2 := h.span d hd c hc
    constructor <;> linarith
  rw [forceSlope, axialRigidity, add_mul, ← list_sum_mul_const, ← list_sum_mul_const]
  refine add_le_add (List.sum_le_sum fun p hp => ?_) (List.sum_le_sum fun b hb => ?_)
  · rw [mul_assoc]
    refine mul_le_mul_of_nonneg_left ?_ (by positivity)
    have hR := (hreg p hp).1
    have hhull : ∀ x ∈ p.region, |height th x - height th c.1| ≤ H := by
      intro x hx
      have hx' := (hreg p hp).2 hx
      have hpl : ∀ x : ℝ × ℝ, planeStrain (planeThrough th 0 0 1) x.1 x.2 = height th x := by
        intro x; rw [planeThrough_height]; ring
      have := plane_hull (e := planeThrough th 0 0 1) (lo := height th c.1 - H) (hi := height th c.1 + H) (fun v hv => by
        rw [hpl]
        have := abs_le.1 (hcorner _ (h.concrete_corner hp hv))
        simp only at this
        constructor <;> linarith [this.1, this.2]) x hx'
      rw [hpl] at this
      rw [abs_le]
      constructor <;> linarith [this.1, this.2]
    have h1 : (∫ x in p.region, |height th x - height th c.1|) ≤ ∫ _ in p.region, H := by
      refine setIntegral_mono_on (continuous_integrableOn (by unfold height; fun_prop) hR.bounded)
        (continuous_integrableOn continuous_const hR.bounded) hR.measurable fun x hx => hhull x hx
    refine h1.trans_eq ?_
    simp only [areaMoment, pow_zero, mul_one]
    rw [← integral_mul_const]
    simp
  · exact mul_le_mul_of_nonneg_left (hcorner _ (bar_corner hb)) (by positivity)

theorem snaps (h : OrdinaryRC th parts bars ecu eu H) : ∀ p ∈ parts,
    snap (p.law.ult false) (-ecu) = -ecu ∧ snap (p.law.ult false) eu = eu := by
  intro p hp
  have h1 := h.ecu_range
  have h2 := h.eu_range
  rw [part_ult, h.crushing p hp]
  have a1 : ¬ isclose (-ecu) 100 := by
    unfold isclose
    rw [not_le, lt_abs]
    right
    norm_num at *
    linarith
  have a2 : ¬ isclose eu 100 := by
    unfold isclose
    rw [not_le, lt_abs]
    right
    norm_num at *
    linarith
  have a3 : ¬ isclose eu (-ecu) := by
    unfold isclose
    rw [not_le, lt_abs, abs_neg, abs_of_nonneg (by norm_num at *; linarith)]
    left
    norm_num at *
    linarith
  constructor
  · by_cases a4 : isclose (-ecu) (-ecu) <;> simp [snap, a1, a4]
  · simp [snap, a2, a3]

/-- What the end planes of the search carry differs little from the limit loads. -/
theorem end_plane {split : Polygon → ℝ → ℝ → ShapelyResult} (h : OrdinaryRC th parts bars ecu eu H) (hok : ∀ p ∈ parts, p.Ok split th)
    {K : ℝ} (hK0 : 0 ≤ K)
    (hK : ∀ b ∈ bars, ∀ x ∈ Set.Icc (b.law.law.ult false).1 (b.law.law.ult false).2,
      ∀ y ∈ Set.Icc (b.law.law.ult false).1 (b.law.law.ult false).2, |b.law.law.stress x - b.law.law.stress y| ≤ K * |x - y|)
    {y v : ℝ} (hy : ∃ c ∈ (concreteSection parts bars).corners, height th c.1 = y)
    (ha : ∀ chi, chi = -1e-13 ∨ chi = 0 → (concreteSection parts bars).Admissible (planeThrough th y v chi)) :
    |(concreteSection parts bars).forces (planeThrough th y v (-1e-13)) 0 - (concreteSection parts bars).forces ![v, 0, 0] 0| ≤
      axialRigidity parts bars K * H * 1e-13 := by
  have e : ![v, 0, 0] = planeThrough th y v 0 := by simp [planeThrough]
  rw [e]
  refine (force_lipschitz hok hK (by norm_num) le_rfl (ha _ (Or.inl rfl)) (ha _ (Or.inr rfl))).trans ?_
  have : |(-1e-13 : ℝ) - 0| = 1e-13 := by norm_num [abs_of_pos]
  rw [this]
  exact mul_le_mul_of_nonneg_right (h.slope_le (fun p hp => ⟨(hok p hp).encloses, (hok p hp).inHull⟩) hK0 hy) (by norm_num)

end OrdinaryRC

open OrdinaryRC

variable {th : ℝ} {parts : List ConcretePart} {bars : List Bar} {ecu eu H : ℝ}

/-- **C73** (limit loads). The limit axial loads are the forces under uniform crushing of the concrete and under uniform limit strain
of the steel. -/
theorem C73_limits (split : Polygon → ℝ → ℝ → ShapelyResult) (ms : ℝ) (h : OrdinaryRC 0 parts bars ecu eu H)
    (hreg : ∀ p ∈ parts, Encloses p.polygon.ext p.polygon.ints p.region ∧ 0 < |p.eps_0| ∧ |p.eps_0| ≤ |p.eps_u|)
    (hid : SameIds (bars.map Bar.law)) (hd : EqualSizes (groupBars bars)) :
    (limits (sectionEngine split (parts.map ConcretePart.solid) bars ms) .fresh).2 =
      .ok ((concreteSection parts bars).forces ![-ecu, 0, 0] 0, (concreteSection parts bars).forces ![eu, 0, 0] 0) := by
  obtain ⟨yn, yp, st, hb, h1, h2, h3, -⟩ := h.balanced (split := split) (ms := ms) (by
    intro p hp h'
    have := (hreg p hp).1.ext_proper.2
    rw [h'] at this
    apply this
    simp [signedMoment, Spec.edges])
  have hpl : ∀ x y, planeStrain st x y = st 0 + st 1 * y := by intro x y; simp [planeStrain, h3]
  rw [neg_zero] at hb
  rw [hpl] at h1 h2
  have := C66_limits_partial split parts bars ms hreg hid hd hb (by
    intro p hp
    rw [h1, h2]
    exact h.snaps p hp)
  rwa [h1, h2] at this

/-- **C73** (strength of ordinary reinforced concrete; partial: loads within `1e-13` of the axial rigidity times the depth from a limit
load, and for the tolerance a countable set of loads). -/
theorem C73_strength_partial (split : Polygon → ℝ → ℝ → ShapelyResult) (ms : ℝ)
    (lu : Matrix (Fin 3) (Fin 3) ℝ → (Fin 3 → ℝ) → (Fin 3 → ℝ))
    {H0 : ℝ} (h0 : OrdinaryRC 0 parts bars ecu eu H0) (h : OrdinaryRC th parts bars ecu eu H)
    (hok : ∀ p ∈ parts, p.Ok split th) (hid : SameIds (bars.map Bar.law)) (hd : EqualSizes (groupBars bars))
    {K : ℝ} (hK0 : 0 ≤ K)
    (hK : ∀ b ∈ bars, ∀ x ∈ Set.Icc (b.law.law.ult false).1 (b.law.law.ult false).2,
      ∀ y ∈ Set.Icc (b.law.law.ult false).1 (b.law.law.ult false).2, |b.law.law.stress x - b.law.law.stress y| ≤ K * |x - y|)
    (hstiff : axialRigidity parts bars K * H ≤ 1e22) :
    ∃ C : Set ℝ, C.Countable ∧ ∀ (n : ℝ) (ops : List Op),
      Undisturbed (sectionEngine split (parts.map ConcretePart.solid) bars ms) lu ops .fresh →
      (n < (concreteSection parts bars).forces ![-ecu, 0, 0] 0 ∨ (concreteSection parts bars).forces ![eu, 0, 0] 0 < n →
        (bendingStrength (sectionEngine split (parts.map ConcretePart.solid) bars ms) th n
          (history (sectionEngine split (parts.map ConcretePart.solid) bars ms) lu ops .fresh)).2 = .error .valueError) ∧
      ((concreteSection parts bars).forces ![-ecu, 0, 0] 0 + axialRigidity parts bars K * H * 1e-13 < n →
        n < (concreteSection parts bars).forces ![eu, 0, 0] 0 - axialRigidity parts bars K * H * 1e-13 →
        ∃ b : BendingResult, (bendingStrength (sectionEngine split (parts.map ConcretePart.solid) bars ms) th n
          (history (sectionEngine split (parts.map ConcretePart.solid) bars ms) lu ops .fresh)).2 = .ok b ∧
          (∃ c < 0, b.chi = (c * Real.cos th, c * Real.sin th)) ∧
          (concreteSection parts bars).forces ![b.eps_a, b.chi.1, b.chi.2] = ![b.n, b.m.1, b.m.2] ∧
          (concreteSection parts bars).AtLimit ![b.eps_a, b.chi.1, b.chi.2] ∧
          (concreteSection parts bars).Admissible ![b.eps_a, b.chi.1, b.chi.2] ∧
          (n ∉ C → |b.n - n| ≤ 1e-2)) := by
  set E := sectionEngine split (parts.map ConcretePart.solid) bars ms with hEdef
  have hne : ∀ p ∈ parts, p.polygon.ext ≠ [] := fun p hp => concrete_ne hok _ (List.mem_map_of_mem hp)
  obtain ⟨yn, yp, st, hb, e1, e2, hst2, hs1, hs1', ⟨bp, hbp, ey⟩, hyn, hgov⟩ := h.balanced (split := split) (ms := ms) hne
  have hyp : ∃ c ∈ (concreteSection parts bars).corners, height th c.1 = yp := ⟨_, bar_corner hbp, ey⟩
  have hE : E.Lawful fun _ => .ok (groupBars bars) := marinEngine_lawful _ _ _ _ _ _
  have hlims : (limits E .fresh).2 =
      .ok ((concreteSection parts bars).forces ![-ecu, 0, 0] 0, (concreteSection parts bars).forces ![eu, 0, 0] 0) :=
    C73_limits split ms h0 (fun p hp => ⟨(hok p hp).encloses, (hok p hp).peak, by
      linarith [(hok p hp).plateau, abs_nonneg p.eps_u, show (0:ℝ) < 1e-6 by norm_num]⟩) hid hd
  have hcor := concrete_corners parts bars
  have hlim := h.lim
  have hflat := h.flat
  have hgov' := hgov
  rw [← hcor] at hlim hflat hgov'
  have hsteep := steep_balanced (concrete_ne hok) hlim hflat hb
  have hadm : ∀ y, y = yp ∨ y = yn → ∀ chi, chi = -1e-13 ∨ chi = 0 →
      (concreteSection parts bars).Admissible (planeThrough th y (planeStrain st 0 y) chi) := by
    intro y hy chi hchi
    rw [← concrete_admissible]
    refine search_admissible (concrete_ne hok) hlim hb hgov' hy ?_ ?_
    · rcases hchi with rfl | rfl
      · exact hsteep
      · exact hs1'
    · rcases hchi with rfl | rfl <;> norm_num
  have hn := h.end_plane hok hK0 hK hyn (hadm yn (Or.inr rfl))
  have hp := h.end_plane hok hK0 hK hyp (hadm yp (Or.inl rfl))
  rw [e2] at hn
  rw [e1] at hp
  obtain ⟨C, hC, hmain⟩ := C66_reinforced_concrete_partial split parts bars ms th lu hok hid hd h.lim h.flat hb hgov
  refine ⟨C, hC, fun n ops hops => ⟨fun hout => ?_, fun hlo hhi => ?_⟩⟩
  · have hcan := canonical_history lu hE rfl ops _ .fresh hops
    have l1 := (limits_canonical hE hcan).1
    have l2 := (limits_canonical hE (.fresh : Canonical E _ .fresh)).1
    rw [← l2, hlims] at l1
    rcases hl : limits E (history E lu ops .fresh) with ⟨s', r⟩
    rw [hl] at l1
    simp only at l1
    subst l1
    exact congrArg Prod.snd (C28_gate_rejects _ _ _ hl n hout th 0 0 0 none).1
  · have hlow : (concreteSection parts bars).forces (planeThrough th yn (planeStrain st 0 yn) (-1e-13)) 0 < n := by
      rw [e2]; linarith [(abs_le.1 hn).2]
    have hhigh : n < (concreteSection parts bars).forces (planeThrough th yp (planeStrain st 0 yp) (-1e-13)) 0 := by
      rw [e1]; linarith [(abs_le.1 hp).1]
    have hr : 0 ≤ axialRigidity parts bars K * H := by
      have : 0 ≤ axialRigidity parts bars K * H * 1e-13 := (abs_nonneg _).trans hn
      norm_num at this
      linarith
    have hcheck : (checkAxialLoad E n .fresh).2 = .ok () := by
      simp only [checkAxialLoad, CalcM.bind_def]
      rcases hl : limits E .fresh with ⟨s, r⟩
      rw [hl] at hlims
      simp only at hlims
      subst hlims
      simp only
      rw [if_neg (by push Not; norm_num at *; constructor <;> linarith)]
      rfl
    obtain ⟨b, hb'⟩ := C66_returns split parts bars ms th n lu ops hops hok hid hd h.lim h.flat hb hgov hK (by
      intro y hy
      have hs : forceSlope parts bars K th y ≤ 1e22 := by
        refine (h.slope_le (fun p hp => ⟨(hok p hp).encloses, (hok p hp).inHull⟩) hK0 ?_).trans hstiff
        rcases hy with rfl | rfl
        · exact hyp
        · exact hyn
      have ha : |-1e-13 - st 1| ≤ 1e5 := by
        rw [abs_le]
        constructor <;> norm_num at * <;> linarith
      calc forceSlope parts bars K th y * |-1e-13 - st 1| ≤ 1e22 * 1e5 :=
            mul_le_mul hs ha (abs_nonneg _) (by norm_num)
        _ ≤ _ := by norm_num) hcheck hlow hhigh
    obtain ⟨a1, a2, a3, a4, a5⟩ := hmain n ops b hops hb'
    exact ⟨b, hb', a1, a2, a3, a4, fun hnC => a5 hnC hlow hhigh⟩

end SC
