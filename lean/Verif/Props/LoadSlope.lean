import Verif.Props.Added

/-! # C81: how the bending strength depends on the axial load -/

set_option autoImplicit false

namespace SC

open Spec MeasureTheory

/-- Stresses that are nowhere larger, in a section between the heights `lo` and `hi`. -/
theorem tilt_below {S : CrossSection} (h : S.NonSoftening) {th lo hi : ℝ}
    (hp' : ∀ p ∈ S.plates, ∀ x ∈ p.region, lo ≤ height th x ∧ height th x ≤ hi)
    (hr' : ∀ r ∈ S.rods, lo ≤ height th (r.fibre.y, r.fibre.z) ∧ height th (r.fibre.y, r.fibre.z) ≤ hi) (e e' : Fin 3 → ℝ)
    (hp : ∀ p ∈ S.plates, ∀ x ∈ p.region, p.response (planeStrain e' x.1 x.2) ≤ p.response (planeStrain e x.1 x.2))
    (hr : ∀ r ∈ S.rods, r.fibre.resp (planeStrain e' r.fibre.y r.fibre.z) ≤ r.fibre.resp (planeStrain e r.fibre.y r.fibre.z)) :
    bendingMoment th (S.forces e') ≤ bendingMoment th (S.forces e) - hi * (S.forces e' 0 - S.forces e 0) ∧
    bendingMoment th (S.forces e) ≤ bendingMoment th (S.forces e') - lo * (S.forces e 0 - S.forces e' 0) := by
  constructor
  · have := moment_tilt h th hi e e' (fun p hm x hx =>
      mul_nonneg_of_nonpos_of_nonpos (by linarith [hp p hm x hx]) (by linarith [hp' p hm x hx])) (fun r hm =>
      mul_nonneg_of_nonpos_of_nonpos (by linarith [hr r hm]) (by linarith [hr' r hm]))
    linarith
  · have := moment_tilt h th lo e' e (fun p hm x hx => mul_nonneg (by linarith [hp p hm x hx]) (by linarith [hp' p hm x hx]))
      (fun r hm => mul_nonneg (by linarith [hr r hm]) (by linarith [hr' r hm]))
    linarith

/-- An admissible plane has at most the moment of an ultimate one, both taken about an axis through some height of the section. -/
theorem ultimate_tilt {S : CrossSection} (h : S.NonSoftening) {th lo hi : ℝ} (hlh : lo ≤ hi)
    (hp' : ∀ p ∈ S.plates, ∀ x ∈ p.region, lo ≤ height th x ∧ height th x ≤ hi)
    (hr' : ∀ r ∈ S.rods, lo ≤ height th (r.fibre.y, r.fibre.z) ∧ height th (r.fibre.y, r.fibre.z) ≤ hi) {v c v' c' : ℝ}
    (ha : S.Admissible (planeThrough th 0 v c)) (hu : S.Ultimate th (planeThrough th 0 v c))
    (ha' : S.Admissible (planeThrough th 0 v' c')) :
    ∃ g ∈ Set.Icc lo hi, bendingMoment th (S.forces (planeThrough th 0 v' c')) ≤ bendingMoment th (S.forces (planeThrough th 0 v c)) -
      g * (S.forces (planeThrough th 0 v' c') 0 - S.forces (planeThrough th 0 v c) 0) := by
  have hpm : ∀ p ∈ S.plates, ∀ x ∈ p.region, (v' + c' * height th x ≤ v + c * height th x →
      p.response (planeStrain (planeThrough th 0 v' c') x.1 x.2) ≤ p.response (planeStrain (planeThrough th 0 v c) x.1 x.2)) ∧
      (v + c * height th x ≤ v' + c' * height th x →
      p.response (planeStrain (planeThrough th 0 v c) x.1 x.2) ≤ p.response (planeStrain (planeThrough th 0 v' c') x.1 x.2)) := by
    intro p hp x hx
    have m1 := admissible_plate h ha hp hx
    have m2 := admissible_plate h ha' hp hx
    refine ⟨fun hl => h.plates_mono p hp m2 m1 ?_, fun hl => h.plates_mono p hp m1 m2 ?_⟩ <;> rwa [planeThrough_at, planeThrough_at]
  have hrm : ∀ r ∈ S.rods, (v' + c' * height th (r.fibre.y, r.fibre.z) ≤ v + c * height th (r.fibre.y, r.fibre.z) →
      r.fibre.resp (planeStrain (planeThrough th 0 v' c') r.fibre.y r.fibre.z) ≤
        r.fibre.resp (planeStrain (planeThrough th 0 v c) r.fibre.y r.fibre.z)) ∧
      (v + c * height th (r.fibre.y, r.fibre.z) ≤ v' + c' * height th (r.fibre.y, r.fibre.z) →
      r.fibre.resp (planeStrain (planeThrough th 0 v c) r.fibre.y r.fibre.z) ≤
        r.fibre.resp (planeStrain (planeThrough th 0 v' c') r.fibre.y r.fibre.z)) := by
    intro r hr
    have p1 := planeThrough_at th v c (r.fibre.y, r.fibre.z)
    have p2 := planeThrough_at th v' c' (r.fibre.y, r.fibre.z)
    simp only at p1 p2
    refine ⟨fun hl => h.rods_mono r hr (ha'.2 r hr) (ha.2 r hr) ?_, fun hl => h.rods_mono r hr (ha.2 r hr) (ha'.2 r hr) ?_⟩ <;>
      rw [p1, p2] <;> exact hl
  have hlow : (∀ y, lo ≤ y → y ≤ hi → v' + c' * y ≤ v + c * y) → ∃ g ∈ Set.Icc lo hi,
      bendingMoment th (S.forces (planeThrough th 0 v' c')) ≤ bendingMoment th (S.forces (planeThrough th 0 v c)) -
        g * (S.forces (planeThrough th 0 v' c') 0 - S.forces (planeThrough th 0 v c) 0) := fun hl =>
    ⟨hi, ⟨hlh, le_rfl⟩, (tilt_below h hp' hr' (planeThrough th 0 v c) (planeThrough th 0 v' c')
      (fun p hp x hx => (hpm p hp x hx).1 (hl _ (hp' p hp x hx).1 (hp' p hp x hx).2))
      fun r hr => (hrm r hr).1 (hl _ (hr' r hr).1 (hr' r hr).2)).1⟩
  have hhigh : (∀ y, lo ≤ y → y ≤ hi → v + c * y ≤ v' + c' * y) → ∃ g ∈ Set.Icc lo hi,
      bendingMoment th (S.forces (planeThrough th 0 v' c')) ≤ bendingMoment th (S.forces (planeThrough th 0 v c)) -
        g * (S.forces (planeThrough th 0 v' c') 0 - S.forces (planeThrough th 0 v c) 0) := fun hl =>
    ⟨lo, ⟨le_rfl, hlh⟩, (tilt_below h hp' hr' (planeThrough th 0 v' c') (planeThrough th 0 v c)
      (fun p hp x hx => (hpm p hp x hx).2 (hl _ (hp' p hp x hx).1 (hp' p hp x hx).2))
      fun r hr => (hrm r hr).2 (hl _ (hr' r hr).1 (hr' r hr).2)).2⟩
  rcases lt_trichotomy c c' with hc | rfl | hc
  · set h0 := (v - v') / (c' - c) with hh0
    have hpos : 0 < c' - c := by linarith
    have hd : ∀ y, (v' + c' * y) - (v + c * y) = (c' - c) * (y - h0) := by
      intro y
      rw [hh0]; field_simp; ring
    by_cases hb : lo ≤ h0 ∧ h0 ≤ hi
    · refine ⟨h0, hb, ?_⟩
      have := moment_tilt h th h0 (planeThrough th 0 v c) (planeThrough th 0 v' c') (fun p hp x hx => ?_) fun r hr => ?_
      · linarith
      · have := hd (height th x)
        rcases le_total (height th x) h0 with hy | hy
        · exact mul_nonneg_of_nonpos_of_nonpos (by
            linarith [(hpm p hp x hx).1 (by nlinarith)]) (by linarith)
        · exact mul_nonneg (by linarith [(hpm p hp x hx).2 (by nlinarith)]) (by linarith)
      · have := hd (height th (r.fibre.y, r.fibre.z))
        rcases le_total (height th (r.fibre.y, r.fibre.z)) h0 with hy | hy
        · exact mul_nonneg_of_nonpos_of_nonpos (by
            linarith [(hrm r hr).1 (by nlinarith)]) (by linarith)
        · exact mul_nonneg (by linarith [(hrm r hr).2 (by nlinarith)]) (by linarith)
    · rcases le_or_gt lo h0 with hb1 | hb1
      · have hb2 : hi < h0 := lt_of_not_ge fun h => hb ⟨hb1, h⟩
        exact hlow fun y _ h2 => by
          have := hd y
          nlinarith
      · exact hhigh fun y h1 _ => by
          have := hd y
          nlinarith
  · rcases le_total v' v with hv | hv
    · exact hlow fun y _ _ => by linarith
    · exact hhigh fun y _ _ => by linarith
  · have hcor := admissible_corner ha'
    rcases hu with ⟨k, hk, hlim, hex⟩ | ⟨k, hk, hlim, hex⟩
    · have hk' := (hcor k hk).1
      rw [← hlim, planeThrough_at, planeThrough_at] at hk'
      refine ⟨lo, ⟨le_rfl, hlh⟩, (tilt_below h hp' hr' (planeThrough th 0 v' c') (planeThrough th 0 v c) (fun p hp x hx => ?_) fun r hr => ?_).2⟩
      · rcases le_or_gt (height th x) (height th k.1) with hy | hy
        · exact (hpm p hp x hx).2 (by nlinarith)
        · exact (hex _ ha').1 p hp x hx hy
      · rcases le_or_gt (height th (r.fibre.y, r.fibre.z)) (height th k.1) with hy | hy
        · exact (hrm r hr).2 (by nlinarith)
        · exact (hex _ ha').2 r hr hy
    · have hk' := (hcor k hk).2
      rw [← hlim, planeThrough_at, planeThrough_at] at hk'
      refine ⟨hi, ⟨hlh, le_rfl⟩, (tilt_below h hp' hr' (planeThrough th 0 v c) (planeThrough th 0 v' c') (fun p hp x hx => ?_) fun r hr => ?_).1⟩
      · rcases lt_or_ge (height th x) (height th k.1) with hy | hy
        · exact (hex _ ha').1 p hp x hx hy
        · exact (hpm p hp x hx).1 (by nlinarith)
      · rcases lt_or_ge (height th (r.fibre.y, r.fibre.z)) (height th k.1) with hy | hy
        · exact (hex _ ha').2 r hr hy
        · exact (hrm r hr).1 (by nlinarith)

/-- Of two ultimate planes, the one with more compression has the larger moment about the lowest point and the smaller about the
highest. -/
theorem ultimate_slope {S : CrossSection} (h : S.NonSoftening) {th lo hi : ℝ} (hlh : lo ≤ hi)
    (hp' : ∀ p ∈ S.plates, ∀ x ∈ p.region, lo ≤ height th x ∧ height th x ≤ hi)
    (hr' : ∀ r ∈ S.rods, lo ≤ height th (r.fibre.y, r.fibre.z) ∧ height th (r.fibre.y, r.fibre.z) ≤ hi) {v c v' c' : ℝ}
    (ha : S.Admissible (planeThrough th 0 v c)) (hu : S.Ultimate th (planeThrough th 0 v c))
    (ha' : S.Admissible (planeThrough th 0 v' c')) (hu' : S.Ultimate th (planeThrough th 0 v' c'))
    (hn : S.forces (planeThrough th 0 v c) 0 ≤ S.forces (planeThrough th 0 v' c') 0) :
    bendingMoment th (S.forces (planeThrough th 0 v' c')) + lo * S.forces (planeThrough th 0 v' c') 0 ≤
      bendingMoment th (S.forces (planeThrough th 0 v c)) + lo * S.forces (planeThrough th 0 v c) 0 ∧
    bendingMoment th (S.forces (planeThrough th 0 v c)) + hi * S.forces (planeThrough th 0 v c) 0 ≤
      bendingMoment th (S.forces (planeThrough th 0 v' c')) + hi * S.forces (planeThrough th 0 v' c') 0 := by
  obtain ⟨g, hg, h1⟩ := ultimate_tilt h hlh hp' hr' ha hu ha'
  obtain ⟨g', hg', h2⟩ := ultimate_tilt h hlh hp' hr' ha' hu' ha
  have e1 := mul_le_mul_of_nonneg_right hg.1 (sub_nonneg.2 hn)
  have e2 := mul_le_mul_of_nonneg_right hg'.2 (sub_nonneg.2 hn)
  constructor <;> nlinarith

/-- **C81** (axial load). Between the results of two calculations on one section, whatever the loads and the calls before: the one with
the smaller axial force (more compression) has no smaller moment about the lowest point `lo` of the section, and no larger moment about
the highest point `hi`. -/
theorem C81_load {split : Polygon → ℝ → ℝ → ShapelyResult} {ms ms' th ecu eu H lo hi : ℝ} {parts : List ConcretePart} {bars : List Bar}
    {lu lu' : Matrix (Fin 3) (Fin 3) ℝ → (Fin 3 → ℝ) → (Fin 3 → ℝ)}
    (h : OrdinaryRC th parts bars ecu eu H) (hok : ∀ p ∈ parts, p.Ok split th)
    (hid : SameIds (bars.map Bar.law)) (hd : EqualSizes (groupBars bars)) (hA : ∀ b ∈ bars, 0 ≤ b.area)
    (hmono : ∀ b ∈ bars, MonotoneOn b.law.law.stress (Set.Icc (b.law.law.ult false).1 (b.law.law.ult false).2))
    (hrange : ∀ p ∈ parts, ∀ v ∈ p.polygon.ext, lo ≤ height th v ∧ height th v ≤ hi)
    (n n' : ℝ) (ops ops' : List Op) (b b' : BendingResult)
    (hops : Undisturbed (sectionEngine split (parts.map ConcretePart.solid) bars ms) lu ops .fresh)
    (hrun : (bendingStrength (sectionEngine split (parts.map ConcretePart.solid) bars ms) th n
      (history (sectionEngine split (parts.map ConcretePart.solid) bars ms) lu ops .fresh)).2 = .ok b)
    (hops' : Undisturbed (sectionEngine split (parts.map ConcretePart.solid) bars ms') lu' ops' .fresh)
    (hrun' : (bendingStrength (sectionEngine split (parts.map ConcretePart.solid) bars ms') th n'
      (history (sectionEngine split (parts.map ConcretePart.solid) bars ms') lu' ops' .fresh)).2 = .ok b')
    (hn : b.n ≤ b'.n) :
    bendingMoment th ![b'.n, b'.m.1, b'.m.2] + lo * b'.n ≤ bendingMoment th ![b.n, b.m.1, b.m.2] + lo * b.n ∧
    bendingMoment th ![b.n, b.m.1, b.m.2] + hi * b.n ≤ bendingMoment th ![b'.n, b'.m.1, b'.m.2] + hi * b'.n := by
  obtain ⟨c, -, -, ha, hu, hf⟩ := strength_plane' h hok hid hd hmono n ops b hops hrun
  obtain ⟨c', -, -, ha', hu', hf'⟩ := strength_plane' h hok hid hd hmono n' ops' b' hops' hrun'
  have hull : ∀ p ∈ parts, ∀ x ∈ convexHull ℝ {v | v ∈ p.polygon.ext}, lo ≤ height th x ∧ height th x ≤ hi := by
    intro p hp x hx
    obtain ⟨v, hv, h1⟩ := OrdinaryRC.hull_height (th := th) hx
    obtain ⟨w, hw, h2⟩ := hull_low (th := th) hx
    exact ⟨(hrange p hp w hw).1.trans h2, h1.trans (hrange p hp v hv).2⟩
  have hlh : lo ≤ hi := by
    obtain ⟨b, hb, p, hp, v, hv, -⟩ := h.depth
    exact (hrange p hp v hv).1.trans (hrange p hp v hv).2
  have key := ultimate_slope (concrete_nonSoftening hok hA hmono) hlh (lo := lo) (hi := hi) (th := th) (by
      intro p hp x hx
      simp only [concreteSection, List.mem_map] at hp
      obtain ⟨q, hq, rfl⟩ := hp
      exact hull q hq x ((hok q hq).inHull hx)) (by
      intro r hr
      simp only [concreteSection, List.mem_map] at hr
      obtain ⟨x, hx, rfl⟩ := hr
      obtain ⟨p, hp, hin⟩ := h.inside x hx
      exact hull p hp _ hin) ha hu ha' hu' (by rw [hf, hf']; exact hn)
  rw [hf, hf'] at key
  exact key

end SC
