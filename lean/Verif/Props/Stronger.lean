import Verif.Props.LoadSlope

/-! # C82: stronger concrete -/

set_option autoImplicit false

namespace SC

open Spec MeasureTheory

/-! ### The parabola-rectangle diagram -/

/-- The parabola-rectangle diagram for a unit strength, `x` the compressive strain, `a` the strain at the peak. -/
noncomputable def blockShape (a x : ℝ) : ℝ := 1 - (1 - min (max x 0) a / a) ^ 2

theorem blockShape_range {a : ℝ} (ha : 0 < a) (x : ℝ) : 0 ≤ blockShape a x ∧ blockShape a x ≤ 1 := by
  have h1 : min (max x 0) a / a ≤ 1 := by rw [div_le_one ha]; exact min_le_right _ _
  have h2 : 0 ≤ min (max x 0) a / a := div_nonneg (le_min (le_max_right _ _) ha.le) ha.le
  simp only [blockShape]
  constructor <;> nlinarith

theorem blockShape_mono {a x y : ℝ} (ha : 0 < a) (h : x ≤ y) : blockShape a x ≤ blockShape a y := by
  have h1 : min (max x 0) a / a ≤ min (max y 0) a / a :=
    div_le_div_of_nonneg_right (min_le_min_right _ (max_le_max_right _ h)) ha.le
  have h2 : min (max y 0) a / a ≤ 1 := by rw [div_le_one ha]; exact min_le_right _ _
  have h3 : 0 ≤ min (max x 0) a / a := div_nonneg (le_min (le_max_right _ _) ha.le) ha.le
  simp only [blockShape]
  nlinarith

theorem blockShape_nonpos {a x : ℝ} (ha : 0 < a) (h : x ≤ 0) : blockShape a x = 0 := by
  simp [blockShape, max_eq_right h, min_eq_left ha.le]

theorem blockShape_low {a x : ℝ} (ha : 0 < a) (h0 : 0 ≤ x) (h : x ≤ a) : blockShape a x = x * (2 * a - x) / a ^ 2 := by
  rw [blockShape, max_eq_left h0, min_eq_left h]
  field_simp
  ring

theorem blockShape_high {a x : ℝ} (ha : 0 < a) (h : a ≤ x) : blockShape a x = 1 := by
  rw [blockShape, max_eq_left (ha.le.trans h), min_eq_right h, div_self ha.ne']
  norm_num

/-- On the parabola, the gain from multiplying a strain is smaller for larger strains. -/
theorem blockShape_ratio_low {a s t k : ℝ} (ha : 0 < a) (hs : 0 ≤ s) (hst : s ≤ t) (hk : 1 ≤ k) (hkt : k * t ≤ a) :
    blockShape a (k * t) * blockShape a s ≤ blockShape a (k * s) * blockShape a t := by
  have ht : t ≤ a := by nlinarith
  rw [blockShape_low ha (by nlinarith) hkt, blockShape_low ha hs (by linarith), blockShape_low ha (by nlinarith) (by nlinarith),
    blockShape_low ha (by linarith) ht, div_mul_div_comm, div_mul_div_comm]
  refine div_le_div_of_nonneg_right ?_ (by positivity)
  have e : k * s * (2 * a - k * s) * (t * (2 * a - t)) - k * t * (2 * a - k * t) * (s * (2 * a - s)) =
      k * s * t * (2 * a * ((k - 1) * (t - s))) := by ring
  have : 0 ≤ k * s * t * (2 * a * ((k - 1) * (t - s))) := by
    have : 0 ≤ (k - 1) * (t - s) := mul_nonneg (by linarith) (by linarith)
    have : 0 ≤ t := hs.trans hst
    positivity
  linarith

/-- The gain from multiplying a strain is smaller for larger strains. -/
theorem blockShape_ratio {a s t k : ℝ} (ha : 0 < a) (hs : 0 ≤ s) (hst : s ≤ t) (hk : 1 ≤ k) :
    blockShape a (k * t) * blockShape a s ≤ blockShape a (k * s) * blockShape a t := by
  rcases le_or_gt (k * t) a with h1 | h1
  · exact blockShape_ratio_low ha hs hst hk h1
  · rcases le_or_gt a (k * s) with h2 | h2
    · rw [blockShape_high ha h1.le, blockShape_high ha h2, one_mul, one_mul]
      exact blockShape_mono ha hst
    · have hk0 : 0 < k := by linarith
      have h3 : s ≤ a / k := by rw [le_div_iff₀ hk0]; linarith
      have h4 : a / k ≤ t := by rw [div_le_iff₀ hk0]; linarith
      have h5 : k * (a / k) = a := by field_simp
      have := blockShape_ratio_low ha hs h3 hk h5.le
      rw [h5, blockShape_high ha le_rfl] at this
      rw [blockShape_high ha h1.le]
      exact this.trans (mul_le_mul_of_nonneg_left (blockShape_mono ha h4) (blockShape_range ha _).1)

/-- Two strain lines, the second nowhere more compressed between `lo` and `hi`, and neither compressed at `lo`: once the second stress
multiplied by `k` exceeds the first, it does so further up. -/
theorem block_crossing {a k v c v' c' lo hi y z : ℝ} (ha : 0 < a) (hc : c < 0) (hc' : c' < 0) (h0 : 0 ≤ v + c * lo)
    (hlo : v + c * lo ≤ v' + c' * lo) (hhi : v + c * hi ≤ v' + c' * hi) (hy : lo ≤ y) (hyz : y ≤ z) (hz : z ≤ hi)
    (h : blockShape a (-(v + c * y)) < k * blockShape a (-(v' + c' * y))) :
    blockShape a (-(v + c * z)) ≤ k * blockShape a (-(v' + c' * z)) := by
  have hle : ∀ x, lo ≤ x → x ≤ hi → v + c * x ≤ v' + c' * x := by
    intro x h1 h2
    rcases le_total c c' with hcc | hcc <;> nlinarith
  have hpos : 0 < blockShape a (-(v' + c' * y)) := by
    rcases (blockShape_range ha (-(v' + c' * y))).1.lt_or_eq with h1 | h1
    · exact h1
    · rw [← h1, mul_zero] at h
      exact absurd h (not_lt.2 (blockShape_range ha _).1)
  have hs : 0 < -(v' + c' * y) := by
    by_contra hcon
    rw [blockShape_nonpos ha (not_lt.1 hcon)] at hpos
    exact lt_irrefl _ hpos
  have hst : -(v' + c' * y) ≤ -(v + c * y) := by linarith [hle y hy (hyz.trans hz)]
  set s := -(v' + c' * y) with hsd
  set t := -(v + c * y) with htd
  have ht : 0 < t := by linarith
  set q := -(v + c * z) / t with hq
  have hqt : q * t = -(v + c * z) := by rw [hq]; field_simp
  have hq1 : 1 ≤ q := by rw [hq, le_div_iff₀ ht, htd]; nlinarith
  -- the zero of the first line
  set p := -v / c with hp
  have hpc : v + c * p = 0 := by
    have hc0 : c ≠ 0 := hc.ne
    have : c * p = -v := by rw [hp]; field_simp
    linarith
  have hp1 : lo ≤ p := by nlinarith
  have hp2 : p < y := by nlinarith
  have hpv : 0 ≤ v' + c' * p := by
    have := hle p hp1 (by linarith)
    linarith
  have hqs : q * s ≤ -(v' + c' * z) := by
    have e1 : t = -c * (y - p) := by rw [htd]; linear_combination -hpc
    have e2 : q * (y - p) = z - p := by
      have : -c * (q * (y - p) - (z - p)) = 0 := by
        have : -c * (q * (y - p)) = q * t := by rw [e1]; ring
        have h2 : -c * (z - p) = -(v + c * z) := by linear_combination hpc
        linear_combination this + hqt - h2
      have := (mul_eq_zero.1 this).resolve_left (by linarith)
      linarith
    have e3 : -(v' + c' * z) - q * s = (q - 1) * (v' + c' * p) - c' * ((z - p) - q * (y - p)) := by rw [hsd]; ring
    have e4 : 0 ≤ (q - 1) * (v' + c' * p) := mul_nonneg (by linarith) hpv
    rw [e2, sub_self, mul_zero, sub_zero] at e3
    linarith
  have r := blockShape_ratio (a := a) (s := s) (t := t) (k := q) ha hs.le hst hq1
  rw [hqt] at r
  have m := blockShape_mono ha hqs
  have hk : 0 ≤ k := by
    by_contra hcon
    push Not at hcon
    nlinarith [(blockShape_range ha t).1]
  -- multiply through
  have h1 : blockShape a (-(v + c * z)) * blockShape a s ≤ (k * blockShape a (-(v' + c' * z))) * blockShape a s := by
    have e1 : blockShape a (q * s) * blockShape a t ≤ blockShape a (q * s) * (k * blockShape a s) :=
      mul_le_mul_of_nonneg_left h.le (blockShape_range ha _).1
    have e2 : (k * blockShape a s) * blockShape a (q * s) ≤ (k * blockShape a s) * blockShape a (-(v' + c' * z)) :=
      mul_le_mul_of_nonneg_left m (mul_nonneg hk hpos.le)
    nlinarith
  exact le_of_mul_le_mul_right h1 hpos

/-- The height at which the two stress distributions cross. -/
theorem block_cross {a k v c v' c' lo hi : ℝ} (ha : 0 < a) (hc : c < 0) (hc' : c' < 0) (h0 : 0 ≤ v + c * lo)
    (hlo : v + c * lo ≤ v' + c' * lo) (hhi : v + c * hi ≤ v' + c' * hi) (hlh : lo ≤ hi) :
    ∃ g ∈ Set.Icc lo hi, ∀ y ≤ hi,
      0 ≤ (k * blockShape a (-(v' + c' * y)) - blockShape a (-(v + c * y))) * (y - g) := by
  have hbelow : ∀ y < lo, k * blockShape a (-(v' + c' * y)) - blockShape a (-(v + c * y)) = 0 := by
    intro y hy
    rw [blockShape_nonpos ha (by nlinarith), blockShape_nonpos ha (by nlinarith)]
    ring
  set A := {y | y ∈ Set.Icc lo hi ∧ blockShape a (-(v + c * y)) < k * blockShape a (-(v' + c' * y))} with hA
  by_cases hne : A.Nonempty
  · have hbdd : BddBelow A := ⟨lo, fun y hy => hy.1.1⟩
    refine ⟨sInf A, ⟨le_csInf hne fun y hy => hy.1.1, (csInf_le hbdd hne.some_mem).trans hne.some_mem.1.2⟩, fun y hy => ?_⟩
    rcases lt_or_ge y lo with h1 | h1
    · rw [hbelow y h1, zero_mul]
    rcases lt_trichotomy y (sInf A) with h2 | h2 | h2
    · have h3 : ¬ blockShape a (-(v + c * y)) < k * blockShape a (-(v' + c' * y)) := fun h =>
        absurd (csInf_le hbdd (show y ∈ A from ⟨⟨h1, hy⟩, h⟩)) (not_le.2 h2)
      exact mul_nonneg_of_nonpos_of_nonpos (by linarith [not_lt.1 h3]) (by linarith)
    · rw [h2, sub_self, mul_zero]
    · obtain ⟨w, hw, hwy⟩ := (csInf_lt_iff hbdd hne).1 h2
      have := block_crossing ha hc hc' h0 hlo hhi hw.1.1 hwy.le hy hw.2
      exact mul_nonneg (by linarith) (by linarith)
  · refine ⟨hi, ⟨hlh, le_rfl⟩, fun y hy => ?_⟩
    rcases lt_or_ge y lo with h1 | h1
    · rw [hbelow y h1, zero_mul]
    have h3 : ¬ blockShape a (-(v + c * y)) < k * blockShape a (-(v' + c' * y)) := fun h => hne ⟨y, ⟨h1, hy⟩, h⟩
    exact mul_nonneg_of_nonpos_of_nonpos (by linarith [not_lt.1 h3]) (by linarith)

/-! ### Sections -/

/-- The moment about a height, as integrals of the stresses. -/
theorem moment_about {S : CrossSection} (h : S.NonSoftening) (th h0 : ℝ) (e : Fin 3 → ℝ) :
    bendingMoment th (S.forces e) + h0 * S.forces e 0 =
      (S.plates.map fun p => ∫ x in p.region, -p.response (planeStrain e x.1 x.2) * (height th x - h0)).sum +
      (S.rods.map fun r => -(r.fibre.A * r.fibre.resp (planeStrain e r.fibre.y r.fibre.z)) *
        (height th (r.fibre.y, r.fibre.z) - h0)).sum ∧
    ∀ p ∈ S.plates, IntegrableOn (fun x : ℝ × ℝ => -p.response (planeStrain e x.1 x.2) * (height th x - h0)) p.region := by
  have hi : ∀ p ∈ S.plates, IntegrableOn (fun x : ℝ × ℝ => -p.response (planeStrain e x.1 x.2) * (height th x - h0)) p.region := by
    intro p hm
    refine Integrable.congr ((((h.integrable p hm e 1).const_mul (-Real.cos th)).add
      ((h.integrable p hm e 2).const_mul (-Real.sin th))).add ((h.integrable p hm e 0).const_mul h0))
      (Filter.Eventually.of_forall fun x => ?_)
    simp only [height, lever, Matrix.cons_val, Pi.add_apply]
    ring
  refine ⟨?_, hi⟩
  have h1 : ∀ p ∈ S.plates, ∫ x in p.region, -p.response (planeStrain e x.1 x.2) * (height th x - h0) =
      -Real.cos th * regionResultants p.region p.response e 1 + -Real.sin th * regionResultants p.region p.response e 2 +
        h0 * regionResultants p.region p.response e 0 := by
    intro p hp
    simp only [regionResultants]
    rw [← integral_const_mul, ← integral_const_mul, ← integral_const_mul,
      ← integral_add ((h.integrable p hp e 1).const_mul _) ((h.integrable p hp e 2).const_mul _),
      ← integral_add (f := fun x : ℝ × ℝ => -Real.cos th * (p.response (planeStrain e x.1 x.2) * lever x.1 x.2 1) +
          -Real.sin th * (p.response (planeStrain e x.1 x.2) * lever x.1 x.2 2))
        (((h.integrable p hp e 1).const_mul _).add ((h.integrable p hp e 2).const_mul _)) ((h.integrable p hp e 0).const_mul _)]
    congr 1
    funext x
    simp only [height, lever, Matrix.cons_val]
    ring
  rw [List.map_congr_left h1]
  have h2 : (S.rods.map fun r => -(r.fibre.A * r.fibre.resp (planeStrain e r.fibre.y r.fibre.z)) *
      (height th (r.fibre.y, r.fibre.z) - h0)) =
      S.rods.map fun r => -Real.cos th * (r.fibre.A * r.fibre.resp (planeStrain e r.fibre.y r.fibre.z) * lever r.fibre.y r.fibre.z 1) +
        -Real.sin th * (r.fibre.A * r.fibre.resp (planeStrain e r.fibre.y r.fibre.z) * lever r.fibre.y r.fibre.z 2) +
        h0 * (r.fibre.A * r.fibre.resp (planeStrain e r.fibre.y r.fibre.z) * lever r.fibre.y r.fibre.z 0) := by
    apply List.map_congr_left
    intro r _
    simp only [height, lever, Matrix.cons_val]
    ring
  rw [h2]
  simp only [List.sum_map_add, List.sum_map_mul_left, CrossSection.forces, Pi.add_apply, list_sum_apply, resultants,
    List.map_map, Function.comp_def, bendingMoment]
  ring

/-- An ultimate plane of an ordinary section with one layer of bars in tension: the top of the concrete is crushed, or the layer has
its ultimate strain. -/
theorem OrdinaryRC.single_layer {th ecu eu H zl : ℝ} {parts : List ConcretePart} {bars : List Bar}
    (h : OrdinaryRC th parts bars ecu eu H) {v c : ℝ} (hc : c < 0) (ha : (concreteSection parts bars).Admissible (planeThrough th 0 v c))
    (hu : (concreteSection parts bars).Ultimate th (planeThrough th 0 v c)) (hz : ∀ b ∈ bars, height th (b.x, b.y) = zl)
    (ht : 0 ≤ v + c * zl) :
    (∃ p ∈ parts, ∃ w ∈ p.polygon.ext, v + c * height th w = -ecu) ∨ v + c * zl = eu := by
  have hplate : ∀ p ∈ parts, (⟨p.region, p.polygon.ext, p.law.stress, (p.law.ult false).1, (p.law.ult false).2⟩ : Plate) ∈
      (concreteSection parts bars).plates := by
    intro p hp; simp only [concreteSection, List.mem_map]; exact ⟨p, hp, rfl⟩
  have hrod : ∀ b ∈ bars, (⟨b.fibre Law.stress, (b.law.law.ult false).1, (b.law.law.ult false).2⟩ : Rod) ∈
      (concreteSection parts bars).rods := by
    intro b hb; simp only [concreteSection, List.mem_map]; exact ⟨b, hb, rfl⟩
  rcases hu with ⟨k, hk, hlim, -⟩ | ⟨k, hk, hlim, -⟩
  · rw [planeThrough_at] at hlim
    rcases h.corner_cases hk with ⟨p, hp, hv, hk2⟩ | ⟨b, hb, hk1, hk2, hk3⟩
    · left
      rw [hk2] at hlim
      exact ⟨p, hp, k.1, hv, hlim⟩
    · exfalso
      rw [hk1, hz b hb] at hlim
      linarith [h.ecu_range.1, show (0:ℝ) < 1e-3 by norm_num]
  · rw [planeThrough_at] at hlim
    rcases h.corner_cases hk with ⟨p, hp, hv, hk2⟩ | ⟨b, hb, hk1, hk2, hk3⟩
    · exfalso
      rw [hk2] at hlim
      obtain ⟨b, hb, q, hq, w, hw, hd⟩ := h.depth
      have l1 := (ha.2 _ (hrod b hb)).2
      simp only [Bar.fibre, (h.rupture b hb).1] at l1
      have l2 := (ha.1 _ (hplate q hq) w (subset_convexHull ℝ _ hw)).1
      simp only [part_ult, h.crushing q hq] at l2
      have p1 := planeThrough_at th v c (b.x, b.y)
      simp only at p1
      rw [p1] at l1
      rw [planeThrough_at] at l2
      have s1 := h.span _ (OrdinaryRC.bar_corner hb) k hk
      have h1 := h.ecu_range
      have h2 := h.eu_range
      have h3 := h.size.1
      simp only at hlim s1
      have e2 : -c * (height th w - height th (b.x, b.y)) ≤ ecu + eu := by nlinarith
      have e3 : -c * H ≤ 1000 * (ecu + eu) := by nlinarith
      have e4 : -c * (height th (b.x, b.y) - height th k.1) ≤ -c * H := mul_le_mul_of_nonneg_left s1 (by linarith)
      nlinarith
    · right
      rw [hk1, hz b hb, hk2] at hlim
      exact hlim

/-- Two planes of two sections that differ in the strength of the concrete, one layer of bars, in tension in both. -/
theorem stronger_moment {th ecu eu H zl R fc fc' e0 : ℝ}
    {shapes : List (Polygon × Set (ℝ × ℝ))} {bars : List Bar}
    {P : ℝ → List ConcretePart} (hP : ∀ f, P f = shapes.map fun s => ⟨s.1, s.2, f, e0, ecu⟩) (he0 : 0 < e0)
    (h : OrdinaryRC th (P fc) bars ecu eu H) (h' : OrdinaryRC th (P fc') bars ecu eu H)
    (hok : ∀ p ∈ P fc, p.Sound) (hok' : ∀ p ∈ P fc', p.Sound) (hA : ∀ b ∈ bars, 0 ≤ b.area)
    (hmono : ∀ b ∈ bars, MonotoneOn b.law.law.stress (Set.Icc (b.law.law.ult false).1 (b.law.law.ult false).2))
    (hR : ∀ p ∈ P fc, ∀ v ∈ p.polygon.ext, |height th v| ≤ R) (hz : ∀ b ∈ bars, height th (b.x, b.y) = zl)
    (hf : |fc| ≤ |fc'|) {v c v' c' : ℝ} (hc : c < 0) (hc' : c' < 0)
    (ha : (concreteSection (P fc) bars).Admissible (planeThrough th 0 v c))
    (hu : (concreteSection (P fc) bars).Ultimate th (planeThrough th 0 v c))
    (ha' : (concreteSection (P fc') bars).Admissible (planeThrough th 0 v' c'))
    (hu' : (concreteSection (P fc') bars).Ultimate th (planeThrough th 0 v' c'))
    (ht : 0 ≤ v + c * zl) (ht' : 0 ≤ v' + c' * zl) :
    bendingMoment th ((concreteSection (P fc) bars).forces (planeThrough th 0 v c)) ≤
      bendingMoment th ((concreteSection (P fc') bars).forces (planeThrough th 0 v' c')) +
        R * |(concreteSection (P fc) bars).forces (planeThrough th 0 v c) 0 -
          (concreteSection (P fc') bars).forces (planeThrough th 0 v' c') 0| := by
  have hns := sound_nonSoftening hok hA hmono
  have hns' := sound_nonSoftening hok' hA hmono
  have hmem : ∀ s ∈ shapes, ∀ f, (⟨s.1, s.2, f, e0, ecu⟩ : ConcretePart) ∈ P f := fun s hs f => by
    rw [hP]; exact List.mem_map.2 ⟨s, hs, rfl⟩
  have hecu : 0 < ecu := by linarith [h.ecu_range.1, show (0:ℝ) < 1e-3 by norm_num]
  have habs : |ecu| = ecu := abs_of_pos hecu
  have habs0 : |e0| = e0 := abs_of_pos he0
  -- heights of the section
  have hull : ∀ s ∈ shapes, ∀ x ∈ convexHull ℝ {v | v ∈ s.1.ext}, |height th x| ≤ R := by
    intro s hs x hx
    obtain ⟨a, ha, h1⟩ := OrdinaryRC.hull_height (th := th) hx
    obtain ⟨b, hb, h2⟩ := hull_low (th := th) hx
    have e1 := abs_le.1 (hR _ (hmem s hs fc) a ha)
    have e2 := abs_le.1 (hR _ (hmem s hs fc) b hb)
    exact abs_le.2 ⟨by linarith, by linarith⟩
  have hreg : ∀ s ∈ shapes, s.2 ⊆ convexHull ℝ {v | v ∈ s.1.ext} := fun s hs => (hok _ (hmem s hs fc)).inHull
  obtain ⟨b0, hb0, p0, hp0, w0, hw0, hdepth⟩ := h.depth
  have hzw : zl < height th w0 := by
    rw [hz b0 hb0] at hdepth
    linarith [h.size.1, show (0:ℝ) < 1e-3 by norm_num]
  have hzR : |zl| ≤ R := by
    obtain ⟨p, hp, hx⟩ := h.inside b0 hb0
    rw [hP, List.mem_map] at hp
    obtain ⟨s, hs, rfl⟩ := hp
    have := hull s hs _ hx
    rwa [hz b0 hb0] at this
  have hR0 : 0 ≤ R := (abs_nonneg _).trans hzR
  have hw0R := hR p0 hp0 w0 hw0
  -- strains at the corners
  have hcorner : ∀ s ∈ shapes, ∀ x ∈ convexHull ℝ {v | v ∈ s.1.ext}, -ecu ≤ v + c * height th x ∧ -ecu ≤ v' + c' * height th x := by
    intro s hs x hx
    have m1 := (ha.1 ⟨_, s.1.ext, _, _, _⟩ (by
      simp only [concreteSection, List.mem_map]; exact ⟨_, hmem s hs fc, rfl⟩) x hx).1
    have m2 := (ha'.1 ⟨_, s.1.ext, _, _, _⟩ (by
      simp only [concreteSection, List.mem_map]; exact ⟨_, hmem s hs fc', rfl⟩) x hx).1
    simp only [part_ult, planeThrough_at, habs] at m1 m2
    exact ⟨m1, m2⟩
  have hbar : v + c * zl ≤ eu ∧ v' + c' * zl ≤ eu := by
    have m1 := (ha.2 ⟨b0.fibre Law.stress, (b0.law.law.ult false).1, (b0.law.law.ult false).2⟩ (by
      simp only [concreteSection, List.mem_map]; exact ⟨b0, hb0, rfl⟩)).2
    have m2 := (ha'.2 ⟨b0.fibre Law.stress, (b0.law.law.ult false).1, (b0.law.law.ult false).2⟩ (by
      simp only [concreteSection, List.mem_map]; exact ⟨b0, hb0, rfl⟩)).2
    have p1 := planeThrough_at th v c (b0.x, b0.y)
    have p2 := planeThrough_at th v' c' (b0.x, b0.y)
    simp only [hz b0 hb0] at p1 p2
    simp only [Bar.fibre, (h.rupture b0 hb0).1] at m1 m2
    rw [p1] at m1
    rw [p2] at m2
    exact ⟨m1, m2⟩
  -- the stresses
  have hst : ∀ s ∈ shapes, ∀ x ∈ s.2, (⟨s.1, s.2, fc, e0, ecu⟩ : ConcretePart).law.stress (planeStrain (planeThrough th 0 v c) x.1 x.2) =
      -|fc| * blockShape e0 (-(v + c * height th x)) ∧
      (⟨s.1, s.2, fc', e0, ecu⟩ : ConcretePart).law.stress (planeStrain (planeThrough th 0 v' c') x.1 x.2) =
      -|fc'| * blockShape e0 (-(v' + c' * height th x)) := by
    intro s hs x hx
    obtain ⟨h1, h2⟩ := hcorner s hs x (hreg s hs hx)
    have o := hok _ (hmem s hs fc)
    constructor
    · have := pr_stress_formula fc e0 ecu o.peak o.plateau (z := v + c * height th x) (by rw [habs]; exact h1)
      rw [habs0] at this
      rw [planeThrough_at, blockShape]
      exact this
    · have := pr_stress_formula fc' e0 ecu o.peak o.plateau (z := v' + c' * height th x) (by rw [habs]; exact h2)
      rw [habs0] at this
      rw [planeThrough_at, blockShape]
      exact this
  -- it remains to find a height
  suffices hg : ∃ g, |g| ≤ R ∧ (∀ s ∈ shapes, ∀ x ∈ s.2,
      0 ≤ (|fc'| * blockShape e0 (-(v' + c' * height th x)) - |fc| * blockShape e0 (-(v + c * height th x))) * (height th x - g)) ∧
      (g = zl ∨ zl ≤ g ∧ v + c * zl ≤ v' + c' * zl) by
    obtain ⟨g, hgR, h1, h2⟩ := hg
    obtain ⟨m1, i1⟩ := moment_about hns th g (planeThrough th 0 v c)
    obtain ⟨m2, i2⟩ := moment_about hns' th g (planeThrough th 0 v' c')
    have hpl : ((concreteSection (P fc) bars).plates.map fun p => ∫ x in p.region,
          -p.response (planeStrain (planeThrough th 0 v c) x.1 x.2) * (height th x - g)).sum ≤
        ((concreteSection (P fc') bars).plates.map fun p => ∫ x in p.region,
          -p.response (planeStrain (planeThrough th 0 v' c') x.1 x.2) * (height th x - g)).sum := by
      simp only [concreteSection, hP, List.map_map, Function.comp_def]
      refine List.sum_le_sum fun s hs => ?_
      have j1 := i1 ⟨_, s.1.ext, (⟨s.1, s.2, fc, e0, ecu⟩ : ConcretePart).law.stress, _, _⟩ (by
        simp only [concreteSection, List.mem_map]; exact ⟨_, hmem s hs fc, rfl⟩)
      have j2 := i2 ⟨_, s.1.ext, (⟨s.1, s.2, fc', e0, ecu⟩ : ConcretePart).law.stress, _, _⟩ (by
        simp only [concreteSection, List.mem_map]; exact ⟨_, hmem s hs fc', rfl⟩)
      refine setIntegral_mono_on j1 j2 (hok _ (hmem s hs fc)).encloses.measurable fun x hx => ?_
      obtain ⟨e1, e2⟩ := hst s hs x hx
      rw [e1, e2]
      have := h1 s hs x hx
      linarith
    have hrd : ((concreteSection (P fc) bars).rods.map fun r => -(r.fibre.A * r.fibre.resp (planeStrain (planeThrough th 0 v c)
          r.fibre.y r.fibre.z)) * (height th (r.fibre.y, r.fibre.z) - g)).sum ≤
        ((concreteSection (P fc') bars).rods.map fun r => -(r.fibre.A * r.fibre.resp (planeStrain (planeThrough th 0 v' c')
          r.fibre.y r.fibre.z)) * (height th (r.fibre.y, r.fibre.z) - g)).sum := by
      simp only [concreteSection, List.map_map, Function.comp_def]
      refine List.sum_le_sum fun b hb => ?_
      have p1 := planeThrough_at th v c (b.x, b.y)
      have p2 := planeThrough_at th v' c' (b.x, b.y)
      simp only [hz b hb] at p1 p2
      simp only [Bar.fibre, hz b hb]
      rw [p1, p2]
      rcases h2 with h2 | ⟨h2, h3⟩
      · rw [h2]; simp
      · have l1 := (ha.2 ⟨b.fibre Law.stress, (b.law.law.ult false).1, (b.law.law.ult false).2⟩ (by
          simp only [concreteSection, List.mem_map]; exact ⟨b, hb, rfl⟩))
        have l2 := (ha'.2 ⟨b.fibre Law.stress, (b.law.law.ult false).1, (b.law.law.ult false).2⟩ (by
          simp only [concreteSection, List.mem_map]; exact ⟨b, hb, rfl⟩))
        simp only [Bar.fibre] at l1 l2
        rw [p1] at l1
        rw [p2] at l2
        have hm := hmono b hb l1 l2 h3
        have e1 := mul_le_mul_of_nonneg_left hm (hA b hb)
        nlinarith
    have e3 : g * ((concreteSection (P fc') bars).forces (planeThrough th 0 v' c') 0 -
        (concreteSection (P fc) bars).forces (planeThrough th 0 v c) 0) ≤
        R * |(concreteSection (P fc) bars).forces (planeThrough th 0 v c) 0 -
          (concreteSection (P fc') bars).forces (planeThrough th 0 v' c') 0| := by
      refine (le_abs_self _).trans ?_
      rw [abs_mul, abs_sub_comm]
      exact mul_le_mul_of_nonneg_right hgR (abs_nonneg _)
    linarith
  -- the second plane is the more compressed one
  have caseA : ∀ top, (∀ s ∈ shapes, ∀ x ∈ s.2, height th x ≤ top) → zl ≤ top → v' + c' * zl ≤ v + c * zl →
      v' + c' * top ≤ v + c * top → ∃ g, |g| ≤ R ∧ (∀ s ∈ shapes, ∀ x ∈ s.2,
      0 ≤ (|fc'| * blockShape e0 (-(v' + c' * height th x)) - |fc| * blockShape e0 (-(v + c * height th x))) * (height th x - g)) ∧
      (g = zl ∨ zl ≤ g ∧ v + c * zl ≤ v' + c' * zl) := by
    intro top htop hzt a1 a2
    refine ⟨zl, hzR, fun s hs x hx => ?_, Or.inl rfl⟩
    rcases lt_or_ge (height th x) zl with hy | hy
    · rw [blockShape_nonpos he0 (by nlinarith), blockShape_nonpos he0 (by nlinarith)]
      simp
    · refine mul_nonneg ?_ (by linarith)
      have hx := htop s hs x hx
      have hle : v' + c' * height th x ≤ v + c * height th x := by
        rcases le_total c c' with hcc | hcc <;> nlinarith
      have e1 := blockShape_mono he0 (show -(v + c * height th x) ≤ -(v' + c' * height th x) by linarith)
      have e2 := mul_le_mul hf e1 (blockShape_range he0 _).1 (abs_nonneg _)
      linarith
  -- the first plane is the more compressed one
  have caseB : ∀ top, (∀ s ∈ shapes, ∀ x ∈ s.2, height th x ≤ top) → zl ≤ top → top ≤ R → v + c * zl ≤ v' + c' * zl →
      v + c * top ≤ v' + c' * top → ∃ g, |g| ≤ R ∧ (∀ s ∈ shapes, ∀ x ∈ s.2,
      0 ≤ (|fc'| * blockShape e0 (-(v' + c' * height th x)) - |fc| * blockShape e0 (-(v + c * height th x))) * (height th x - g)) ∧
      (g = zl ∨ zl ≤ g ∧ v + c * zl ≤ v' + c' * zl) := by
    intro top htop hzt htR a1 a2
    rcases (abs_nonneg fc).eq_or_lt with hf0 | hf0
    · refine ⟨zl, hzR, fun s hs x hx => ?_, Or.inl rfl⟩
      rw [← hf0, zero_mul, sub_zero]
      rcases lt_or_ge (height th x) zl with hy | hy
      · rw [blockShape_nonpos he0 (by nlinarith)]
        simp
      · exact mul_nonneg (mul_nonneg (abs_nonneg _) (blockShape_range he0 _).1) (by linarith)
    · obtain ⟨g, hg, hg2⟩ := block_cross (k := |fc'| / |fc|) he0 hc hc' ht a1 a2 hzt
      refine ⟨g, abs_le.2 ⟨by linarith [(abs_le.1 hzR).1, hg.1], by linarith [hg.2]⟩, fun s hs x hx => ?_, Or.inr ⟨hg.1, a1⟩⟩
      have := mul_nonneg hf0.le (hg2 _ (htop s hs x hx))
      have e : |fc| * ((|fc'| / |fc| * blockShape e0 (-(v' + c' * height th x)) - blockShape e0 (-(v + c * height th x))) *
          (height th x - g)) = (|fc'| * blockShape e0 (-(v' + c' * height th x)) - |fc| * blockShape e0 (-(v + c * height th x))) *
          (height th x - g) := by
        field_simp
      linarith
  have hRtop : ∀ s ∈ shapes, ∀ x ∈ s.2, height th x ≤ R := fun s hs x hx => (abs_le.1 (hull s hs x (hreg s hs hx))).2
  -- a crushed corner is a highest one
  have htop : ∀ w, v + c * height th w = -ecu → ∀ s ∈ shapes, ∀ x ∈ convexHull ℝ {v | v ∈ s.1.ext}, height th x ≤ height th w := by
    intro w hw s hs x hx
    have := (hcorner s hs x hx).1
    nlinarith
  have htop' : ∀ w, v' + c' * height th w = -ecu → ∀ s ∈ shapes, ∀ x ∈ convexHull ℝ {v | v ∈ s.1.ext}, height th x ≤ height th w := by
    intro w hw s hs x hx
    have := (hcorner s hs x hx).2
    nlinarith
  have hP0 : ∀ f, ∀ p ∈ P f, ∃ s ∈ shapes, p.polygon = s.1 := by
    intro f p hp
    rw [hP, List.mem_map] at hp
    obtain ⟨s, hs, rfl⟩ := hp
    exact ⟨s, hs, rfl⟩
  obtain ⟨s0, hs0, hps0⟩ := hP0 fc p0 hp0
  rw [hps0] at hw0
  rcases h.single_layer hc ha hu hz ht with ⟨p, hp, w, hw, hcr⟩ | hru
  · obtain ⟨s, hs, hps⟩ := hP0 fc p hp
    have hwR := (abs_le.1 (hR p hp w hw)).2
    rw [hps] at hw
    have t1 := htop w hcr
    have hzw' : zl ≤ height th w := hzw.le.trans (t1 s0 hs0 w0 (subset_convexHull ℝ _ hw0))
    rcases h'.single_layer hc' ha' hu' hz ht' with ⟨p', hp', w', hw', hcr'⟩ | hru'
    · obtain ⟨s', hs', hps'⟩ := hP0 fc' p' hp'
      rw [hps'] at hw'
      have t2 := htop' w' hcr'
      have e1 := t1 s' hs' w' (subset_convexHull ℝ _ hw')
      have e2 := t2 s hs w (subset_convexHull ℝ _ hw)
      have e3 : height th w' = height th w := le_antisymm e1 e2
      rw [e3] at hcr'
      have hr : ∀ s ∈ shapes, ∀ x ∈ s.2, height th x ≤ height th w := fun s hs x hx => t1 s hs x (hreg s hs hx)
      rcases le_total c c' with hcc | hcc
      · exact caseA _ hr hzw' (by nlinarith) (by linarith)
      · exact caseB _ hr hzw' hwR (by nlinarith) (by linarith)
    · exact caseB _ (fun s hs x hx => t1 s hs x (hreg s hs hx)) hzw' hwR (by linarith [hbar.1])
        (by linarith [(hcorner s hs w (subset_convexHull ℝ _ hw)).2])
  · rcases h'.single_layer hc' ha' hu' hz ht' with ⟨p', hp', w', hw', hcr'⟩ | hru'
    · obtain ⟨s', hs', hps'⟩ := hP0 fc' p' hp'
      rw [hps'] at hw'
      have t2 := htop' w' hcr'
      exact caseA _ (fun s hs x hx => t2 s hs x (hreg s hs hx)) (hzw.le.trans (t2 s0 hs0 w0 (subset_convexHull ℝ _ hw0)))
        (by linarith [hbar.2]) (by linarith [(hcorner s' hs' w' (subset_convexHull ℝ _ hw')).1])
    · have hzR' := (abs_le.1 hzR).2
      rcases le_total c c' with hcc | hcc
      · exact caseB R hRtop hzR' le_rfl (by linarith) (by nlinarith)
      · exact caseA R hRtop hzR' (by linarith) (by nlinarith)

/-- **C82** (bending strength). Stronger concrete does not reduce the bending strength of a section with one layer of bars in tension:
two sections that differ only in the strength of the concrete, whatever the loads and the calls before, up to the difference of the
axial forces of the two results times the distance `R` of the farthest corner from the axis through the origin. -/
theorem C82_strength {split : Polygon → ℝ → ℝ → ShapelyResult} {ms ms' th ecu eu H zl R fc fc' e0 : ℝ}
    {shapes : List (Polygon × Set (ℝ × ℝ))} {bars : List Bar} {lu lu' : Matrix (Fin 3) (Fin 3) ℝ → (Fin 3 → ℝ) → (Fin 3 → ℝ)}
    {P : ℝ → List ConcretePart} (hP : ∀ f, P f = shapes.map fun s => ⟨s.1, s.2, f, e0, ecu⟩) (he0 : 0 < e0)
    (h : OrdinaryRC th (P fc) bars ecu eu H) (h' : OrdinaryRC th (P fc') bars ecu eu H)
    (hok : ∀ p ∈ P fc, p.Ok split th) (hok' : ∀ p ∈ P fc', p.Ok split th)
    (hid : SameIds (bars.map Bar.law)) (hd : EqualSizes (groupBars bars)) (hA : ∀ b ∈ bars, 0 ≤ b.area)
    (hmono : ∀ b ∈ bars, MonotoneOn b.law.law.stress (Set.Icc (b.law.law.ult false).1 (b.law.law.ult false).2))
    (hR : ∀ p ∈ P fc, ∀ v ∈ p.polygon.ext, |height th v| ≤ R) (hz : ∀ b ∈ bars, height th (b.x, b.y) = zl)
    (hf : |fc| ≤ |fc'|) (n n' : ℝ) (ops ops' : List Op) (b b' : BendingResult)
    (hops : Undisturbed (sectionEngine split ((P fc).map ConcretePart.solid) bars ms) lu ops .fresh)
    (hrun : (bendingStrength (sectionEngine split ((P fc).map ConcretePart.solid) bars ms) th n
      (history (sectionEngine split ((P fc).map ConcretePart.solid) bars ms) lu ops .fresh)).2 = .ok b)
    (hops' : Undisturbed (sectionEngine split ((P fc').map ConcretePart.solid) bars ms') lu' ops' .fresh)
    (hrun' : (bendingStrength (sectionEngine split ((P fc').map ConcretePart.solid) bars ms') th n'
      (history (sectionEngine split ((P fc').map ConcretePart.solid) bars ms') lu' ops' .fresh)).2 = .ok b')
    (htens : ∀ x ∈ bars, 0 ≤ planeStrain ![b.eps_a, b.chi.1, b.chi.2] x.x x.y ∧ 0 ≤ planeStrain ![b'.eps_a, b'.chi.1, b'.chi.2] x.x x.y) :
    bendingMoment th ![b.n, b.m.1, b.m.2] ≤ bendingMoment th ![b'.n, b'.m.1, b'.m.2] + R * |b.n - b'.n| := by
  obtain ⟨c, hc, hpl, ha, hu, hfo⟩ := strength_plane' h hok hid hd hmono n ops b hops hrun
  obtain ⟨c', hc', hpl', ha', hu', hfo'⟩ := strength_plane' h' hok' hid hd hmono n' ops' b' hops' hrun'
  obtain ⟨x, hx, -⟩ := h.depth
  obtain ⟨t1, t2⟩ := htens x hx
  have p1 := planeThrough_at th b.eps_a c (x.x, x.y)
  have p2 := planeThrough_at th b'.eps_a c' (x.x, x.y)
  simp only [hz x hx] at p1 p2
  rw [hpl, p1] at t1
  rw [hpl', p2] at t2
  have key := stronger_moment hP he0 h h' (fun p hp => (hok p hp).sound) (fun p hp => (hok' p hp).sound) hA hmono hR hz hf hc hc' ha hu ha' hu' t1 t2
  rw [hfo, hfo'] at key
  exact key

end SC
