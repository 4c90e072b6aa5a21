import Verif.Props.OrdinaryMaterials
import Verif.Props.MaximumDomain

/-! # C67, C74: the interaction domain of ordinary reinforced concrete

The strain profiles of an ordinary reinforced concrete section exist and are the expected ones: the hypothesis `Ordinary` of C67 and
C74 follows from the material constructors and the geometry. -/

set_option autoImplicit false

namespace SC

open Spec MeasureTheory

/-- What the yield failure of the section sees: the concrete reaches its peak at `-e0`, the steel yields at `ey`. -/
structure YieldsRC (parts : List ConcretePart) (bars : List Bar) (ecu eu e0 ey : ℝ) : Prop where
  peak : ∀ p ∈ parts, |p.eps_0| = e0
  yields : ∀ b ∈ bars, (b.law.law.ult true).2 = ey
  e0_range : 1e-4 ≤ e0 ∧ e0 + 2e-6 ≤ ecu
  ey_range : 1e-4 ≤ ey ∧ ey ≤ eu

theorem part_yield (p : ConcretePart) : p.law.ult true = (-|p.eps_0|, 100) := by
  simp [ConcretePart.law, ParabolaRectangle.ult, ParabolaRectangle.new]

/-- A part of the section is a concrete part, spanning the heights of its corners, or a bar. -/
theorem sectionParts_cases {parts : List ConcretePart} {bars : List Bar} {th : ℝ} (hne : ∀ p ∈ parts, p.polygon.ext ≠ []) {g : Part}
    (hg : g ∈ sectionParts (parts.map ConcretePart.solid) bars (-th)) :
    (∃ p ∈ parts, (∃ v ∈ p.polygon.ext, height th v = g.yLow) ∧ (∃ v ∈ p.polygon.ext, height th v = g.yHigh) ∧
      (∀ v ∈ p.polygon.ext, g.yLow ≤ height th v ∧ height th v ≤ g.yHigh) ∧ g.surface = true ∧ g.concrete = true ∧ g.ult = p.law.ult) ∨
    ∃ b ∈ bars, g.yLow = height th (b.x, b.y) ∧ g.yHigh = height th (b.x, b.y) ∧ g.surface = false ∧ g.ult = b.law.law.ult := by
  simp only [sectionParts, List.mem_append, List.mem_map] at hg
  rcases hg with ⟨s, ⟨p, hp, rfl⟩, rfl⟩ | ⟨b', ⟨b, hb, rfl⟩, rfl⟩
  · left
    have hn : (p.polygon.rotate (-th)).ext ≠ [] := by simpa [Polygon.rotate] using hne p hp
    refine ⟨p, hp, ?_, ?_, fun v hv => ?_, rfl, rfl, rfl⟩
    · obtain ⟨v, hv, e⟩ := low_mem hn
      obtain ⟨w, hw, rfl⟩ := List.mem_map.1 hv
      exact ⟨w, hw, (rotPt_height th w).symm.trans e⟩
    · obtain ⟨v, hv, e⟩ := high_mem hn
      obtain ⟨w, hw, rfl⟩ := List.mem_map.1 hv
      exact ⟨w, hw, (rotPt_height th w).symm.trans e⟩
    · have hb := bounds_spec hn (v := rotPt (-th) v) (List.mem_map_of_mem hv)
      rw [rotPt_height] at hb
      exact ⟨hb.2.2.1, hb.2.2.2⟩
  · right
    have hh : height th (b.x, b.y) = (Bar.part (Bar.rotate (-th) b)).yLow := by
      simp only [Bar.part, Bar.rotate, rotPt_height]
    exact ⟨b, hb, hh.symm, hh.symm, rfl, rfl⟩

theorem part_mem {parts : List ConcretePart} {bars : List Bar} {th : ℝ} (hne : ∀ p ∈ parts, p.polygon.ext ≠ []) {p : ConcretePart}
    (hp : p ∈ parts) {v : ℝ × ℝ} (hv : v ∈ p.polygon.ext) : ∃ g ∈ sectionParts (parts.map ConcretePart.solid) bars (-th),
      g.yLow ≤ height th v ∧ height th v ≤ g.yHigh ∧ g.surface = true ∧ g.concrete = true ∧ g.ult = p.law.ult := by
  have hn : (p.polygon.rotate (-th)).ext ≠ [] := by simpa [Polygon.rotate] using hne p hp
  have hb := bounds_spec hn (v := rotPt (-th) v) (List.mem_map_of_mem hv)
  rw [rotPt_height] at hb
  refine ⟨p.solid.part (-th), ?_, hb.2.2.1, hb.2.2.2, rfl, rfl, rfl⟩
  simp only [sectionParts, List.mem_append, List.mem_map]
  exact Or.inl ⟨_, ⟨p, hp, rfl⟩, rfl⟩

theorem bar_part_mem {parts : List ConcretePart} {bars : List Bar} {th : ℝ} {b : Bar} (hb : b ∈ bars) :
    ∃ g ∈ sectionParts (parts.map ConcretePart.solid) bars (-th),
      g.yLow = height th (b.x, b.y) ∧ g.yHigh = height th (b.x, b.y) ∧ g.surface = false ∧ g.ult = b.law.law.ult := by
  have hh : (Bar.part (Bar.rotate (-th) b)).yLow = height th (b.x, b.y) := by
    simp only [Bar.part, Bar.rotate, rotPt_height]
  refine ⟨_, ?_, hh, hh, rfl, rfl⟩
  simp only [sectionParts, List.mem_append, List.mem_map]
  exact Or.inr ⟨_, ⟨b, hb, rfl⟩, rfl⟩

theorem any_concrete {parts : List ConcretePart} {p : ConcretePart} (hp : p ∈ parts) :
    (parts.map ConcretePart.solid).any Solid.concrete = true := by
  rw [List.any_eq_true]
  exact ⟨p.solid, List.mem_map_of_mem hp, rfl⟩

/-- The compression limit of the yield failure: peak strain of the concrete, ultimate strain of the steel. -/
theorem yield_limit (g : Part) : (g.surface = true → g.concrete = true → compressionLimit true true g = (g.ult true).1) ∧
    (g.surface = false → compressionLimit true true g = (g.ult false).1) := by
  rw [← negLimit_eq]
  constructor
  · intro h1 h2; simp [Part.negLimit, h1, h2]
  · intro h1; simp [Part.negLimit, h1]

/-- The yield failure: the lowest bar yields and the highest concrete reaches its peak; the plane is not flat. -/
theorem OrdinaryRC.yielding_steep {th : ℝ} {parts : List ConcretePart} {bars : List Bar} {ecu eu H e0 ey : ℝ}
    {split : Polygon → ℝ → ℝ → ShapelyResult} {ms : ℝ} (h : OrdinaryRC th parts bars ecu eu H) (hy : YieldsRC parts bars ecu eu e0 ey)
    (hne : ∀ p ∈ parts, p.polygon.ext ≠ []) :
    ∃ yn yp st, (sectionEngine split (parts.map ConcretePart.solid) bars ms).balanced (-th) true = .ok (yn, yp, st) ∧
      planeStrain st 0 yp = ey ∧ planeStrain st 0 yn = -e0 ∧ st 2 = 0 ∧ st 1 ≤ -1e-13 ∧
      (∃ b ∈ bars, height th (b.x, b.y) = yp) ∧ ∃ p ∈ parts, ∃ v ∈ p.polygon.ext, height th v = yn := by
  obtain ⟨b0, hb0, p0, hp0, v0, hv0, hd0⟩ := h.depth
  have hany := any_concrete hp0
  have h1 := h.ecu_range
  have h2 := h.eu_range
  have h3 := h.size
  have h4 := hy.e0_range
  have h5 := hy.ey_range
  have hpu : ∀ p ∈ parts, p.law.ult true = (-e0, 100) := fun p hp => by rw [part_yield, hy.peak p hp]
  change ∃ yn yp st, balancedFailure (sectionParts (parts.map ConcretePart.solid) bars (-th))
    ((parts.map ConcretePart.solid).any Solid.concrete) true = .ok (yn, yp, st) ∧ _
  rw [hany]
  have hcl : ∀ g ∈ sectionParts (parts.map ConcretePart.solid) bars (-th),
      (compressionLimit true true g = -e0 ∨ compressionLimit true true g ≤ -ecu) ∧ ey ≤ tensionLimit true g := by
    intro g hg
    rcases sectionParts_cases hne hg with ⟨p, hp, -, -, -, c1, c2, c3⟩ | ⟨b, hb, -, -, c1, c2⟩
    · rw [(yield_limit g).1 c1 c2, tensionLimit, c3, hpu p hp]
      refine ⟨Or.inl rfl, ?_⟩
      norm_num at *; linarith
    · rw [(yield_limit g).2 c1, tensionLimit, c2, hy.yields b hb]
      exact ⟨Or.inr (h.rupture b hb).2, le_rfl⟩
  have hln : ∀ g ∈ sectionParts (parts.map ConcretePart.solid) bars (-th), compressionLimit true true g ≤ 0 := by
    intro g hg
    rcases (hcl g hg).1 with e | e <;> norm_num at * <;> linarith
  have hlp : ∀ g ∈ sectionParts (parts.map ConcretePart.solid) bars (-th), 0 ≤ tensionLimit true g := by
    intro g hg
    have := (hcl g hg).2
    norm_num at *; linarith
  obtain ⟨gb, hgb, lb, lb', sb, ub⟩ := bar_part_mem (parts := parts) (th := th) hb0
  obtain ⟨gv, hgv, lv, lv', sv, sv', uv⟩ := part_mem (bars := bars) (th := th) hne hp0 hv0
  have hdpos : 1e-6 ≤ height th v0 - height th (b0.x, b0.y) := by norm_num at *; linarith
  have hex : ∃ r, balancedFailure (sectionParts (parts.map ConcretePart.solid) bars (-th)) true true = .ok r := by
    by_contra hcon
    push Not at hcon
    have hlt : gb.yLow < gv.yHigh := by norm_num at *; linarith
    have := (C22_raises_iff _ _ _).1 hcon gb hgb gv hgv hlt
    rw [tensionLimit, (yield_limit gv).1 sv sv', ub, uv, hy.yields b0 hb0, hpu p0 hp0, le_div_iff₀ (by linarith)] at this
    have e : 1e-6 ≤ gv.yHigh - gb.yLow := by linarith
    norm_num at *
    linarith
  obtain ⟨⟨yn, yp, st⟩, hb⟩ := hex
  refine ⟨yn, yp, st, hb, ?_⟩
  obtain ⟨⟨g, hgm, o, hom, hyp, hyn, hlt, htp, htn⟩, hadm, hst1, hst2⟩ := C22_balanced _ _ _ hln hlp _ _ _ hb
  have hpl : ∀ x y, planeStrain st x y = st 0 + st 1 * y := by intro x y; simp [planeStrain, hst2]
  have hcon : ∀ p ∈ parts, ∀ v ∈ p.polygon.ext, -e0 ≤ st 0 + st 1 * height th v := by
    intro p hp v hv
    obtain ⟨q, hq, l, l', s1, s2, u⟩ := part_mem (bars := bars) (th := th) hne hp hv
    have := (hadm q hq 0 _ l l').1
    rwa [(yield_limit q).1 s1 s2, u, hpu p hp, hpl] at this
  have sb1 := (hadm gb hgb 0 _ lb.le lb'.ge).2
  rw [tensionLimit, ub, hy.yields b0 hb0, hpl] at sb1
  have sv1 := hcon p0 hp0 v0 hv0
  have t1 := htp 0
  have t2 := htn 0
  rw [hpl] at t1 t2
  have hcurv : (-st 1) * (height th v0 - height th (b0.x, b0.y)) ≤ 0.095 := by norm_num at *; linarith
  -- heights of the pivots
  have hspan : yn - yp ≤ H := by
    have ho : ∃ c ∈ (concreteSection parts bars).corners, height th c.1 = yn := by
      rcases sectionParts_cases hne hom with ⟨p, hp, -, ⟨v, hv, e⟩, -⟩ | ⟨b, hb', -, e, -⟩
      · exact ⟨_, h.concrete_corner hp hv, e.trans hyn⟩
      · exact ⟨_, bar_corner hb', e.symm.trans hyn⟩
    have hg : ∃ c ∈ (concreteSection parts bars).corners, height th c.1 = yp := by
      rcases sectionParts_cases hne hgm with ⟨p, hp, ⟨v, hv, e⟩, -⟩ | ⟨b, hb', e, -⟩
      · exact ⟨_, h.concrete_corner hp hv, e.trans hyp⟩
      · exact ⟨_, bar_corner hb', e.symm.trans hyp⟩
    obtain ⟨c, hc, rfl⟩ := ho
    obtain ⟨d, hd, rfl⟩ := hg
    exact h.span c hc d hd
  have hneg : st 0 + st 1 * yn = -e0 := by
    rcases sectionParts_cases hne hom with ⟨p, hp, -, -, -, s1, s2, u⟩ | ⟨b, hb', -, e, s1, u⟩
    · rw [t2, (yield_limit o).1 s1 s2, u, hpu p hp]
    · exfalso
      rw [(yield_limit o).2 s1, u] at t2
      obtain ⟨p, hp, hin⟩ := h.inside b hb'
      obtain ⟨v, hv, hle⟩ := hull_height (th := th) hin
      have a1 := hcon p hp v hv
      have a2 := (h.rupture b hb').2
      rw [← e, hyn] at hle
      have : st 1 * height th v ≤ st 1 * yn := mul_le_mul_of_nonpos_left hle hst1
      norm_num at *
      linarith
  have hyn' : ∃ p ∈ parts, ∃ v ∈ p.polygon.ext, height th v = yn := by
    rcases sectionParts_cases hne hom with ⟨p, hp, -, ⟨v, hv, ev⟩, -⟩ | ⟨b, hb', -, e, s1, u⟩
    · exact ⟨p, hp, v, hv, ev.trans hyn⟩
    · exfalso
      rw [hneg, (yield_limit o).2 s1, u] at t2
      have a2 := (h.rupture b hb').2
      norm_num at *
      linarith
  have hpos : st 0 + st 1 * yp = ey ∧ ∃ b ∈ bars, height th (b.x, b.y) = yp := by
    rcases sectionParts_cases hne hgm with ⟨p, hp, -, -, -, s1, s2, u⟩ | ⟨b, hb', e', e, s1, u⟩
    · exfalso
      rw [tensionLimit, u, hpu p hp] at t1
      simp only at t1
      have e2 : (-st 1) * (yn - yp) ≤ (-st 1) * (1000 * (height th v0 - height th (b0.x, b0.y))) :=
        mul_le_mul_of_nonneg_left (by linarith) (by linarith)
      norm_num at *
      linarith
    · exact ⟨by rw [t1, tensionLimit, u, hy.yields b hb'], b, hb', by rw [← e', hyp]⟩
  refine ⟨by rw [hpl]; exact hpos.1, by rw [hpl]; exact hneg, hst2, ?_, hpos.2, hyn'⟩
  have e1 := hpos.1
  have e2 : (-st 1) * (yn - yp) ≤ (-st 1) * 1e9 := mul_le_mul_of_nonneg_left (by linarith) (by linarith)
  norm_num at *
  linarith

/-- The strains at the pivots of the yield failure. -/
theorem OrdinaryRC.yielding {th : ℝ} {parts : List ConcretePart} {bars : List Bar} {ecu eu H e0 ey : ℝ}
    {split : Polygon → ℝ → ℝ → ShapelyResult} {ms : ℝ} (h : OrdinaryRC th parts bars ecu eu H) (hy : YieldsRC parts bars ecu eu e0 ey)
    (hne : ∀ p ∈ parts, p.polygon.ext ≠ []) :
    ∃ yn yp st, (sectionEngine split (parts.map ConcretePart.solid) bars ms).balanced (-th) true = .ok (yn, yp, st) ∧
      planeStrain st 0 yp = ey ∧ planeStrain st 0 yn = -e0 := by
  obtain ⟨yn, yp, st, h1, h2, h3, -⟩ := h.yielding_steep (split := split) (ms := ms) hy hne
  exact ⟨yn, yp, st, h1, h2, h3⟩

/-- The heights of the corners of the concrete. -/
def cornerHeights (th : ℝ) (parts : List ConcretePart) : Set ℝ := {y | ∃ p ∈ parts, ∃ v ∈ p.polygon.ext, height th v = y}

theorem sectionMinY_eq {th lo : ℝ} {parts : List ConcretePart} (hne : ∀ p ∈ parts, p.polygon.ext ≠ [])
    (hlo : IsLeast (cornerHeights th parts) lo) (h16 : lo ≤ 1e16) :
    sectionMinY (parts.map ConcretePart.polygon) (-th) = lo := by
  apply le_antisymm
  · obtain ⟨p, hp, v, hv, e⟩ := hlo.1
    rw [← e]
    exact minY_le _ th (List.mem_map_of_mem hp) hv
  · have key : ∀ (l : List ConcretePart) (m : ℝ), (∀ p ∈ l, p ∈ parts) → lo ≤ m →
        lo ≤ (l.map ConcretePart.polygon).foldl (fun m p => min m (p.rotate (-th)).bounds.2.1) m := by
      intro l
      induction l with
      | nil => intro m _ hm; simpa using hm
      | cons p l ih =>
        intro m hl hm
        simp only [List.map_cons, List.foldl_cons]
        refine ih _ (fun q hq => hl q (List.mem_cons_of_mem _ hq)) (le_min hm ?_)
        have hp := hl p List.mem_cons_self
        have hn : (p.polygon.rotate (-th)).ext ≠ [] := by simpa [Polygon.rotate] using hne p hp
        obtain ⟨v, hv, e⟩ := low_mem hn
        obtain ⟨w, hw, rfl⟩ := List.mem_map.1 hv
        rw [← e, rotPt_height]
        exact hlo.2 ⟨p, hp, w, hw, rfl⟩
    exact key parts 1e16 (fun _ h => h) h16

/-- The section is ordinary in the sense of C67, with the expected governing ordinates: the top of the concrete and the lowest bar. -/
theorem OrdinaryRC.domain {th : ℝ} {parts : List ConcretePart} {bars : List Bar} {ecu eu H e0 ey lo hi : ℝ}
    {split : Polygon → ℝ → ℝ → ShapelyResult} {ms : ℝ} (h : OrdinaryRC th parts bars ecu eu H) (hy : YieldsRC parts bars ecu eu e0 ey)
    (hok : ∀ p ∈ parts, p.Ok split th) (hlo : IsLeast (cornerHeights th parts) lo) (hhi : IsGreatest (cornerHeights th parts) hi)
    (h16 : lo ≤ 1e16) (hcover : ∀ b ∈ bars, lo + 1e-6 * (hi - lo) ≤ height th (b.x, b.y))
    (hpivot : ∀ b ∈ bars, (∀ b' ∈ bars, height th (b.x, b.y) ≤ height th (b'.x, b'.y)) →
      height th (b.x, b.y) ≠ lo + e0 / ecu * (hi - lo)) :
    ∃ yp, (∃ b ∈ bars, height th (b.x, b.y) = yp) ∧ (∀ b ∈ bars, yp ≤ height th (b.x, b.y)) ∧ yp < hi ∧ lo < yp ∧
      Ordinary (sectionEngine split (parts.map ConcretePart.solid) bars ms).balanced parts th hi yp (-ecu) eu (-e0) ey := by
  have hne : ∀ p ∈ parts, p.polygon.ext ≠ [] := fun p hp => concrete_ne hok _ (List.mem_map_of_mem hp)
  obtain ⟨yn, yp, st, hb, e1, e2, hst2, hs1, hs1', ⟨bp, hbp, ey'⟩, ⟨kn, hkn, eyn⟩, hgov⟩ := h.balanced (split := split) (ms := ms) hne
  obtain ⟨yn', yp', st', hb', e1', e2'⟩ := h.yielding (split := split) (ms := ms) hy hne
  have hecu := h.ecu_range
  have heu := h.eu_range
  have h0 := hy.e0_range
  have hyr := hy.ey_range
  have hpl : ∀ y, planeStrain st 0 y = st 0 + st 1 * y := by intro y; simp [planeStrain]
  have hslope : st 1 < 0 := by
    rcases hs1'.eq_or_lt with h1 | h1
    · exfalso
      rw [hpl, h1] at e1 e2
      norm_num at *
      linarith
    · exact h1
  have hlt : yp < yn := by
    rw [hpl] at e1 e2
    by_contra hcon
    push Not at hcon
    have := mul_le_mul_of_nonpos_left hcon hslope.le
    norm_num at *
    linarith
  -- admissibility of the balanced state
  have hcor := concrete_corners parts bars
  have hlim := h.lim
  have hgov' := hgov
  rw [← hcor] at hlim hgov'
  have had := search_admissible (chi := st 1) (y0 := yp) (concrete_ne hok) hlim hb hgov' (Or.inl rfl) le_rfl hs1'
  rw [concrete_admissible] at had
  have hval : ∀ x : ℝ × ℝ, planeStrain (planeThrough th yp (planeStrain st 0 yp) (st 1)) x.1 x.2 = eu + st 1 * (height th x - yp) := by
    intro x; rw [planeThrough_height, e1]
  have hbars : ∀ r ∈ bars, yp ≤ height th (r.x, r.y) := by
    intro r hr
    have := (had.2 ⟨r.fibre Law.stress, (r.law.law.ult false).1, (r.law.law.ult false).2⟩ (by
      simp only [concreteSection, List.mem_map]; exact ⟨r, hr, rfl⟩)).2
    simp only [Bar.fibre, (h.rupture r hr).1] at this
    rw [hval (r.x, r.y)] at this
    by_contra hcon
    push Not at hcon
    nlinarith
  have htop : ∀ p ∈ parts, ∀ v ∈ p.polygon.ext, height th v ≤ yn := by
    intro p hp v hv
    have := (admissible_corner had _ (h.concrete_corner hp hv)).1
    simp only at this
    rw [hval] at this
    rw [hpl] at e1 e2
    by_contra hcon
    push Not at hcon
    nlinarith
  have hyn : yn = hi := by
    apply le_antisymm
    · rw [← eyn]
      rcases h.corner_cases hkn with ⟨p, hp, hw, -⟩ | ⟨b', hb', k1, -, -⟩
      · exact hhi.2 ⟨p, hp, _, hw, rfl⟩
      · obtain ⟨p, hp, hin⟩ := h.inside b' hb'
        obtain ⟨w, hw, hle⟩ := hull_height (th := th) hin
        rw [k1]
        exact hle.trans (hhi.2 ⟨p, hp, _, hw, rfl⟩)
    · obtain ⟨p, hp, v, hv, e⟩ := hhi.1
      rw [← e]
      exact htop p hp v hv
  rw [hyn] at hb e2 hlt htop
  have hmin := sectionMinY_eq hne hlo h16
  have hc := hcover bp hbp
  rw [ey'] at hc
  have hloyp : lo < yp := by
    by_contra hcon
    push Not at hcon
    have : 0 < 1e-6 * (hi - lo) := mul_pos (by norm_num) (by linarith)
    linarith
  refine ⟨yp, ⟨bp, hbp, ey'⟩, hbars, hlt, hloyp, ⟨st, hb, e2.symm, e1.symm⟩, ⟨yn', yp', st', hb', e2'.symm, e1'.symm⟩, hlt, ?_, ?_, ?_, ?_, htop,
    ?_, ?_⟩
  · norm_num at *
    refine ⟨by linarith, by linarith, by linarith, by linarith⟩
  · rw [hmin]; exact hloyp.le
  · rw [hmin, neg_div_neg_eq]
    have := hpivot bp hbp (by rw [ey']; exact hbars)
    rw [ey'] at this
    exact this.symm
  · rw [hmin]
    have hr : 1e-6 ≤ (yp - lo) / (hi - lo) := by
      rw [le_div_iff₀ (by linarith)]; linarith
    have hprod : 1e-9 ≤ ecu * ((yp - lo) / (hi - lo)) := by
      calc (1e-9:ℝ) ≤ 1e-3 * 1e-6 := by norm_num
        _ ≤ _ := mul_le_mul hecu.1 hr (by norm_num) (by norm_num at *; linarith)
    simp only [List.mem_cons, List.not_mem_nil, or_false]
    rintro e (rfl | rfl | rfl | rfl | rfl) <;> right
    · rw [abs_neg, abs_of_nonneg (by norm_num at *; linarith)]; norm_num at *; linarith
    · rw [abs_of_nonneg (by norm_num at *; linarith)]; norm_num at *; linarith
    · rw [abs_neg, abs_of_nonneg (by norm_num at *; linarith)]; norm_num at *; linarith
    · rw [abs_of_nonneg (by norm_num at *; linarith)]; norm_num at *; linarith
    · rw [neg_mul, abs_neg]
      refine le_trans ?_ (le_abs_self _)
      exact le_trans (by norm_num) hprod
  · intro p hp
    rw [h.crushing p hp]
  · intro p hp e he
    simp only [List.mem_cons, List.not_mem_nil, or_false] at he
    rcases he with rfl | rfl | rfl
    · exact (h.snaps p hp).1
    · exact (h.snaps p hp).2
    · rw [part_ult, h.crushing p hp]
      have a1 : ¬ isclose (-e0) 100 := by
        unfold isclose
        rw [not_le, lt_abs]
        right
        norm_num at *
        linarith
      have a2 : ¬ isclose (-e0) (-ecu) := by
        unfold isclose
        rw [not_le, lt_abs, abs_neg, abs_of_nonneg (by norm_num at *; linarith)]
        left
        norm_num at *
        linarith
      simp [snap, a1, a2]

/-! ### The profiles exist -/

theorem npSpace_returns {a b : ℝ} {n : ℤ} {ty : Spacing} {e : Bool} (hn : 0 ≤ n) (ht : ty ≠ .other)
    (hg : ty = .geometric → 1 ≤ n ∧ (a ≠ 0 ∨ b ≠ 0)) : ∃ l, npSpace a b n ty e = .ok l := by
  have hn' : ¬ n < 0 := by omega
  have sgn : ∀ x : ℝ, x ≠ 0 → 1e-10 * npSign x ≠ 0 := by
    intro x hx
    unfold npSign
    rcases lt_or_gt_of_ne hx with h | h
    · rw [if_neg (by linarith), if_pos h]; norm_num
    · rw [if_pos h]; norm_num
  cases ty with
  | linear => simp only [npSpace, if_neg hn']; exact ⟨_, rfl⟩
  | quadratic => simp only [npSpace, if_neg hn']; exact ⟨_, rfl⟩
  | other => exact absurd rfl ht
  | geometric =>
    obtain ⟨h1, h2⟩ := hg rfl
    simp only [npSpace, if_neg hn']
    by_cases hb : b = 0
    · have ha : a ≠ 0 := by rcases h2 with h | h; exact h; exact absurd hb h
      rw [if_neg (by simp [hb]), if_pos hb, geomspace?, if_neg (by
        push Not; exact ⟨ha, sgn a ha, by omega⟩)]
      exact ⟨_, rfl⟩
    · by_cases ha : a = 0
      · rw [if_neg (by simp [ha]), if_neg hb, geomspace?, if_neg (by
          push Not; exact ⟨sgn b hb, hb, by omega⟩)]
        exact ⟨_, rfl⟩
      · rw [if_pos ⟨hb, ha⟩, geomspace?, if_neg (by push Not; exact ⟨ha, hb, by omega⟩)]
        exact ⟨_, rfl⟩

/-- The arguments `num_i`, `type_i` that every section accepts: no negative numbers, at least one profile in field 6, known
spacings; two profiles at least where the spacing is geometric. -/
structure ProfileArgs (num : Fin 6 → ℤ) (ty : Fin 6 → Spacing) : Prop where
  nonneg : ∀ i, 0 ≤ num i
  last : 1 ≤ num 5
  known : ∀ i, ty i ≠ .other
  geometric : ∀ i, ty i = .geometric → 2 ≤ num i

theorem ultimateProfiles_returns {bal : Bool → Except PyErr (ℝ × ℝ × (Fin 3 → ℝ))} {minY : ℝ} (rc : Bool) (theta : ℝ)
    {num : Fin 6 → ℤ} {ty : Fin 6 → Spacing} {f : FieldData} (hf : fieldData bal minY = .ok f) (h : ProfileArgs num ty)
    (h1 : f.eps_p_b ≠ 0) (h2 : f.eps_n_b ≠ 0) (h3 : f.eps_p_y ≠ 0) (h5 : f.epsPLim ≠ 0) :
    ∃ planes labels, ultimateProfiles bal minY rc theta num ty = .ok (planes, labels) := by
  have hnn := h.nonneg
  have hl := h.last
  have hg := h.geometric
  obtain ⟨l0, e0⟩ := npSpace_returns (a := f.eps_p_b) (b := 0) (e := false) (hnn 0) (h.known 0) fun t => ⟨by linarith [hg 0 t], Or.inl h1⟩
  obtain ⟨l1, e1⟩ := npSpace_returns (a := 0) (b := f.eps_n_b) (e := false) (hnn 1) (h.known 1) fun t => ⟨by linarith [hg 1 t], Or.inr h2⟩
  obtain ⟨l2, e2⟩ := npSpace_returns (a := f.eps_p_b) (b := f.eps_p_y) (e := false) (hnn 2) (h.known 2)
    fun t => ⟨by linarith [hg 2 t], Or.inl h1⟩
  obtain ⟨l3, e3⟩ := npSpace_returns (a := f.eps_p_y) (b := 0) (e := false) (hnn 3) (h.known 3) fun t => ⟨by linarith [hg 3 t], Or.inl h3⟩
  obtain ⟨l4, e4⟩ := npSpace_returns (a := 0) (b := f.epsPLim) (e := false) (hnn 4) (h.known 4) fun t => ⟨by linarith [hg 4 t], Or.inr h5⟩
  obtain ⟨l5, e5⟩ := npSpace_returns (a := f.epsPLim) (b := f.eps_n_y) (n := num 5 - 1) (e := false) (by omega) (h.known 5)
    fun t => ⟨by linarith [hg 5 t], Or.inl h5⟩
  obtain ⟨l6, e6⟩ := npSpace_returns (a := f.epsPLim) (b := f.eps_n_b) (n := num 5 - 1) (e := false) (by omega) (h.known 5)
    fun t => ⟨by linarith [hg 5 t], Or.inl h5⟩
  have hfin : (List.finRange 6) = [0, 1, 2, 3, 4, 5] := by decide
  unfold ultimateProfiles
  rw [hf, hfin]
  cases rc <;>
    simp [List.mapM_cons, sixFields, fieldPos, fieldNeg, field6, e0, e1, e2, e3, e4, e5, e6, bind, Except.bind, pure, Except.pure]

theorem neutral_direction {v : Fin 3 → ℝ} {th : ℝ} (h : v 1 * Real.sin th = v 2 * Real.cos th) (hv : v 1 ≠ 0 ∨ v 2 ≠ 0) :
    Real.sin (neutralAngle v + th) = 0 := by
  have hz : (⟨v 1, v 2⟩ : ℂ) ≠ 0 := by
    intro h0
    rw [Complex.ext_iff] at h0
    rcases hv with h | h
    · exact h h0.1
    · exact h h0.2
  rw [neutralAngle, atan2, Real.sin_add, Real.sin_neg, Real.cos_neg, Complex.sin_arg, Complex.cos_arg hz]
  simp only
  rw [neg_mul, div_mul_eq_mul_div, div_mul_eq_mul_div, ← h]
  ring

theorem dropEndsRev_zip {α β : Type} {l : List α} {k : List β} (h : l.length = k.length) {q : α × β}
    (hq : q ∈ (dropEndsRev l).zip (dropEndsRev k)) : q ∈ l.zip k := by
  obtain ⟨i, hi, e⟩ := List.mem_iff_getElem.1 hq
  rw [List.getElem_zip] at e
  simp only [dropEndsRev, List.length_zip, List.length_reverse, List.length_drop, List.length_dropLast, lt_inf_iff] at hi
  rw [List.mem_iff_getElem]
  simp only [dropEndsRev, List.getElem_reverse, List.getElem_drop, List.getElem_dropLast, List.length_drop, List.length_dropLast] at e
  refine ⟨1 + (l.length - 1 - 1 - 1 - i), ?_, ?_⟩
  · rw [List.length_zip]; omega
  · rw [List.getElem_zip, ← e]
    congr 2
    omega

/-- The profiles of an ordinary section exist, none exceeds a limit strain, those of fields 1 to 5 are at a limit strain; they begin
with uniform tension `eu` and end with uniform compression `-e0`. -/
theorem OrdinaryRC.ultimate_profiles {split : Polygon → ℝ → ℝ → ShapelyResult} {ms th ecu eu H e0 ey yn yp : ℝ} {parts : List ConcretePart}
    {bars : List Bar} (h : OrdinaryRC th parts bars ecu eu H) (hok : ∀ p ∈ parts, p.Ok split th)
    (hord : Ordinary (sectionEngine split (parts.map ConcretePart.solid) bars ms).balanced parts th yn yp (-ecu) eu (-e0) ey)
    (hlo : sectionMinY (parts.map ConcretePart.polygon) (-th) < yp) {num : Fin 6 → ℤ} {ty : Fin 6 → Spacing} (ha : ProfileArgs num ty) :
    ∃ planes labels, ultimateProfiles ((sectionEngine split (parts.map ConcretePart.solid) bars ms).balanced (-th))
      (sectionMinY (parts.map ConcretePart.polygon) (-th)) true th num ty = .ok (planes, labels) ∧
      (∀ v ∈ planes, (concreteSection parts bars).Admissible v) ∧
      (∀ q ∈ planes.zip labels, q.2 ≤ 5 → (concreteSection parts bars).AtLimit q.1) ∧
      (ty 0 = .linear → 1 ≤ num 0 → planes.head? = some ![eu, 0, 0]) ∧ planes.getLast? = some ![-e0, 0, 0] := by
  obtain ⟨s, hb, e1, e2⟩ := hord.ultimate
  obtain ⟨yn', yp', s', hb', e3, e4⟩ := hord.yielding
  obtain ⟨o1, o2, o3, o4⟩ := hord.order
  have hlt := hord.below
  have hecu := h.ecu_range.1
  have hf : fieldData ((sectionEngine split (parts.map ConcretePart.solid) bars ms).balanced (-th))
      (sectionMinY (parts.map ConcretePart.polygon) (-th)) =
      .ok ⟨yn, yp, eu, -ecu, ey, -e0, sectionMinY (parts.map ConcretePart.polygon) (-th)⟩ := by
    unfold fieldData
    rw [hb, hb']
    simp only [e1, e2, e3, e4, planeStrain]
    simp only [mul_zero, sub_zero]
  obtain ⟨planes, labels, hrun⟩ := ultimateProfiles_returns true th hf ha (by linarith) (by norm_num at *; linarith) (by linarith) (by
    simp only [FieldData.epsPLim]
    refine div_ne_zero (mul_ne_zero (by norm_num at *; linarith) (by linarith)) (by linarith))
  obtain ⟨k1, k2⟩ := h.profiles hok hrun hord
  refine ⟨planes, labels, hrun, fun v hv => (k1 v hv).2, k2, ?_, ?_⟩
  · intro ht hn
    obtain ⟨f, F, hf', hF, hpl, -⟩ := ultimateProfiles_ok hrun
    rw [hf, Except.ok.injEq] at hf'
    subst hf'
    have h0 := hF 0
    simp only [sixFields, Matrix.cons_val, fieldPos, npSpace, ht, if_neg (not_lt.2 (ha.nonneg 0))] at h0
    have hh : F 0 = (linspace eu 0 (num 0).toNat false).map fun x => (x, eu) := by
      simpa using h0.symm
    obtain ⟨m, hm⟩ : ∃ m, (num 0).toNat = m + 1 := ⟨(num 0).toNat - 1, by omega⟩
    rw [hpl]
    rw [List.ofFn_succ, List.flatten_cons, hh, hm]
    simp only [linspace, List.range_succ_eq_map]
    simp [profilePlane, rot2, rotPt]
  · obtain ⟨f, F, hf', hF, hpl, -⟩ := ultimateProfiles_ok hrun
    rw [hf, Except.ok.injEq] at hf'
    subst hf'
    have h5 := hF 5
    simp only [sixFields, Matrix.cons_val, field6, if_true] at h5
    split at h5
    · cases h5
    · rename_i l hl
      simp only [Except.ok.injEq] at h5
      have : (List.ofFn F).flatten = ((List.ofFn fun i : Fin 5 => F i.castSucc).flatten) ++ F 5 := by
        simp [List.ofFn_succ]
      rw [hpl, this, ← h5]
      simp [profilePlane, rot2, rotPt]

/-- The geometry of a reinforced concrete section seen in the direction `th`: the concrete extends from height `lo` to `hi`, the bars
are covered by concrete, one lies at least a thousandth of the depth below the top, and the lowest one does not lie exactly at the
pivot of the compressive strains (4/7 of the depth above the bottom). -/
structure RCDirection (th : ℝ) (shapes : List (Polygon × Set (ℝ × ℝ))) (bars : List (ℝ × ℝ)) (lo hi : ℝ) : Prop where
  inside : ∀ b ∈ bars, ∃ s ∈ shapes, b ∈ convexHull ℝ {v | v ∈ s.1.ext}
  low : IsLeast {y | ∃ s ∈ shapes, ∃ v ∈ s.1.ext, height th v = y} lo
  high : IsGreatest {y | ∃ s ∈ shapes, ∃ v ∈ s.1.ext, height th v = y} hi
  size : 1e-3 ≤ hi - lo ∧ hi - lo ≤ 1e9
  position : lo ≤ 1e16
  depth : ∃ b ∈ bars, hi - lo ≤ 1000 * (hi - height th b)
  cover : ∀ b ∈ bars, lo + 1e-6 * (hi - lo) ≤ height th b
  pivot : ∀ b ∈ bars, (∀ b' ∈ bars, height th b ≤ height th b') → height th b ≠ lo + 4 / 7 * (hi - lo)

theorem RCDirection.geometry {th lo hi : ℝ} {shapes : List (Polygon × Set (ℝ × ℝ))} {bars : List (ℝ × ℝ)}
    (h : RCDirection th shapes bars lo hi) : RCGeometry th shapes bars (hi - lo) := by
  refine ⟨h.inside, ?_, h.size, ?_⟩
  · intro s hs v hv t ht w hw
    have := h.high.2 ⟨s, hs, v, hv, rfl⟩
    have := h.low.2 ⟨t, ht, w, hw, rfl⟩
    linarith
  · obtain ⟨b, hb, hle⟩ := h.depth
    obtain ⟨s, hs, v, hv, e⟩ := h.high.1
    exact ⟨b, hb, s, hs, v, hv, by rw [e]; exact hle⟩

theorem cornerHeights_normal (th fc : ℝ) (shapes : List (Polygon × Set (ℝ × ℝ))) :
    cornerHeights th (normalParts fc shapes) = {y | ∃ s ∈ shapes, ∃ v ∈ s.1.ext, height th v = y} := by
  ext y
  simp only [cornerHeights, normalParts, List.mem_map, Set.mem_ofPred_eq]
  constructor
  · rintro ⟨_, ⟨s, hs, rfl⟩, v, hv, e⟩
    exact ⟨s, hs, v, hv, e⟩
  · rintro ⟨s, hs, v, hv, e⟩
    exact ⟨_, ⟨s, hs, rfl⟩, v, hv, e⟩

/-- The polygons, turned by `-th` or by `-th - pi`, are cut exactly. -/
def CutsExactly (split : Polygon → ℝ → ℝ → ShapelyResult) (th : ℝ) (shapes : List (Polygon × Set (ℝ × ℝ))) : Prop :=
  ∀ p ∈ shapes, ∀ a, Real.sin (a + th) = 0 → SplitsExactly split (p.1.rotate a) (rotPt a '' p.2)

theorem CutsExactly.twice {split : Polygon → ℝ → ℝ → ShapelyResult} {th : ℝ} {shapes : List (Polygon × Set (ℝ × ℝ))}
    (h : CutsExactly split th shapes) {p : Polygon × Set (ℝ × ℝ)} (hp : p ∈ shapes) :
    SplitsExactly split ((p.1.rotate (-th)).rotate (-Real.pi)) (rotPt (-Real.pi) '' (rotPt (-th) '' p.2)) := by
  have := h p hp (-Real.pi + -th) (by rw [show -Real.pi + -th + th = -Real.pi by ring, Real.sin_neg, Real.sin_pi, neg_zero])
  have e1 : (p.1.rotate (-th)).rotate (-Real.pi) = p.1.rotate (-Real.pi + -th) := by
    simp only [Polygon.rotate, List.map_map, Function.comp_def, rotPt_add]
  have e2 : rotPt (-Real.pi) '' (rotPt (-th) '' p.2) = rotPt (-Real.pi + -th) '' p.2 := by
    rw [Set.image_image]
    simp only [rotPt_add]
  rw [e1, e2]
  exact this

theorem CutsExactly.half_turn {split : Polygon → ℝ → ℝ → ShapelyResult} {th : ℝ} {shapes : List (Polygon × Set (ℝ × ℝ))}
    (h : CutsExactly split th shapes) : CutsExactly split (th + Real.pi) shapes := by
  intro p hp a ha
  refine h p hp a ?_
  rw [← add_assoc, Real.sin_add_pi, neg_eq_zero] at ha
  exact ha

/-- A steel with the law `elasticperfectlyplastic` yields at its design yield strain. -/
theorem steel_yield {lower : String → String} (hl : PyLower lower) (cls : SteelClass) (a : SteelArgs) (b : Built Steel)
    (h : newSteel lower cls a = some (.ok b)) (hn : a.law = .name "elasticperfectlyplastic")
    (hi1 : a.initialStrain = none) (hi2 : a.initialStress = none) : (b.mat.law.ult true).2 = designYield a := by
  obtain ⟨hE, law, hm, hx⟩ := C48_law hl cls a b _ h hn
  simp only [String.reduceEq, false_and, true_and, false_or, or_false] at hx
  obtain ⟨g, gs, hlaw⟩ := hx
  rw [hi1, hi2, C15_none] at hm
  simp only [Option.some.injEq, Except.ok.injEq] at hm
  have hml : b.mat.law = law := by rw [← hm]
  rw [hml, hlaw]
  simp [ElasticPlastic.law, ElasticPlastic.ult, ElasticPlastic.eps_sy, designYield, designStrength]

/-- One direction of the domain of a section with bars of one steel: everything C67 and C74 need. -/
theorem RCDirection.profiles {th lo hi fc eu ey ms : ℝ} {split : Polygon → ℝ → ℝ → ShapelyResult}
    {shapes : List (Polygon × Set (ℝ × ℝ))} {bars : List Bar} {L : LawObj}
    (h : RCDirection th shapes (bars.map fun b => (b.x, b.y)) lo hi) (hb : ∀ b ∈ bars, b.law = L) (hu : L.law.ult false = (-eu, eu))
    (hy : (L.law.ult true).2 = ey) (heu : 0.0035 ≤ eu) (heu' : eu ≤ 0.09) (hey : 1e-4 ≤ ey) (hey' : ey ≤ eu)
    (henc : ∀ p ∈ shapes, Encloses p.1.ext p.1.ints p.2) (hull : ∀ p ∈ shapes, p.2 ⊆ convexHull ℝ {v | v ∈ p.1.ext})
    (hcut : CutsExactly split th shapes) {num : Fin 6 → ℤ} {ty : Fin 6 → Spacing} (ha : ProfileArgs num ty) :
    (∃ yp, Ordinary (sectionEngine split ((normalParts fc shapes).map ConcretePart.solid) bars ms).balanced (normalParts fc shapes) th hi yp
      (-0.0035) eu (-0.002) ey) ∧ (∀ p ∈ normalParts fc shapes, p.Ok split th) ∧
    ∃ planes labels, ultimateProfiles ((sectionEngine split ((normalParts fc shapes).map ConcretePart.solid) bars ms).balanced (-th))
      (sectionMinY ((normalParts fc shapes).map ConcretePart.polygon) (-th)) true th num ty = .ok (planes, labels) ∧
      (∀ v ∈ planes, (concreteSection (normalParts fc shapes) bars).Admissible v) ∧
      (∀ q ∈ planes.zip labels, q.2 ≤ 5 → (concreteSection (normalParts fc shapes) bars).AtLimit q.1) ∧
      (ty 0 = .linear → 1 ≤ num 0 → planes.head? = some ![eu, 0, 0]) ∧ planes.getLast? = some ![-0.002, 0, 0] := by
  have hok : ∀ p ∈ normalParts fc shapes, p.Ok split th := by
    intro p hp
    obtain ⟨q, hq, rfl⟩ := List.mem_map.1 hp
    exact ⟨henc q hq, hull q hq, hcut.twice hq, by norm_num, by norm_num [abs_of_pos]⟩
  have hO := h.geometry.ordinary (fc := fc) hb hu heu heu'
  have hY : YieldsRC (normalParts fc shapes) bars 0.0035 eu 0.002 ey := by
    refine ⟨?_, ?_, by norm_num, hey, hey'⟩
    · intro p hp
      obtain ⟨q, hq, rfl⟩ := List.mem_map.1 hp
      norm_num [abs_of_pos]
    · intro b hb'
      rw [hb b hb', hy]
  have hne : ∀ p ∈ normalParts fc shapes, p.polygon.ext ≠ [] := fun p hp => concrete_ne hok _ (List.mem_map_of_mem hp)
  have hlo := h.low
  have hhi := h.high
  rw [← cornerHeights_normal th fc] at hlo hhi
  obtain ⟨yp, -, -, h1, h2, hord⟩ := hO.domain (ms := ms) hY hok hlo hhi h.position
    (fun b hb' => h.cover _ (List.mem_map_of_mem hb'))
    (fun b hb' hmin => by
      have := h.pivot _ (List.mem_map_of_mem hb') (by
        intro b' hb''
        obtain ⟨r, hr, rfl⟩ := List.mem_map.1 hb''
        exact hmin r hr)
      rwa [show (0.002:ℝ) / 0.0035 = 4 / 7 by norm_num])
  exact ⟨⟨yp, hord⟩, hok, hO.ultimate_profiles hok hord (by rw [sectionMinY_eq hne hlo h.position]; exact h2) ha⟩

variable {lower : String → String}

/-- **C67** (N-M domain of a designed section; partial: normal strength concrete with the parabola-rectangle law, bars of one
perfectly plastic steel, Marin integrator). From the arguments of the material constructors and the geometry, whatever was calculated
before: `calculate_nm_interaction_domain` returns; its points are exactly `(N, My, Mz)` of the section under its strain profiles; no
profile exceeds a limit strain; those of fields 1 to 5 are at a limit strain; the first profile is uniform tension at the design
ultimate strain, and the last one uniform compression at `-0.002`. -/
theorem C67_design_partial (hl : PyLower lower) (ccls : ConcClass) (ca : ConcArgs) (c : Built Conc)
    (hc : newConcrete lower ccls ca = some (.ok c)) (hcn : ca.law = .name "parabolarectangle")
    (hci : ca.initialStrain = none ∧ ca.initialStress = none) (hce : ca.eps_c2 = none ∧ ca.eps_cu2 = none ∧ ca.n = none)
    (hcf : ccls ≠ .ec2_2023 → |ca.fck| ≤ 50)
    (scls : SteelClass) (sa : SteelArgs) (s : Built Steel)
    (hs : newSteel lower scls sa = some (.ok s)) (hsn : sa.law = .name "elasticperfectlyplastic")
    (hsi : sa.initialStrain = none ∧ sa.initialStress = none)
    (hgap : designYield sa + 1e-6 + 1e-5 * designUltimate scls sa ≤ designUltimate scls sa) (hey : 1e-4 ≤ designYield sa)
    (heu : 0.0035 ≤ designUltimate scls sa ∧ designUltimate scls sa ≤ 0.09)
    (split : Polygon → ℝ → ℝ → ShapelyResult) (ms th : ℝ) (lu : Matrix (Fin 3) (Fin 3) ℝ → (Fin 3 → ℝ) → (Fin 3 → ℝ))
    (shapes : List (Polygon × Set (ℝ × ℝ))) (bars : List Bar) (id : ℕ) (hbars : ∀ b ∈ bars, b.law = ⟨id, s.mat.law⟩)
    (henc : ∀ p ∈ shapes, Encloses p.1.ext p.1.ints p.2) (hull : ∀ p ∈ shapes, p.2 ⊆ convexHull ℝ {v | v ∈ p.1.ext})
    (hcut : CutsExactly split th shapes) {lo hi : ℝ} (hdir : RCDirection th shapes (bars.map fun b => (b.x, b.y)) lo hi)
    (complete : Bool) {lo' hi' : ℝ}
    (hdir' : complete = true → RCDirection (th + Real.pi) shapes (bars.map fun b => (b.x, b.y)) lo' hi')
    (num : Fin 6 → ℤ) (ty : Fin 6 → Spacing) (hnum : ProfileArgs num ty)
    (fc : ℝ) (hfc : fc = designConcrete ccls ca) (S : CrossSection) (hS : S = concreteSection (normalParts fc shapes) bars)
    (E : Engine) (hE : E = sectionEngine split ((normalParts fc shapes).map ConcretePart.solid) bars ms)
    (ops : List Op) (hops : Undisturbed E lu ops .fresh) :
    (∀ p ∈ normalParts fc shapes, p.law.law = c.mat.law) ∧
    ∃ planes labels,
      nmProfiles E.balanced (sectionMinY (shapes.map Prod.fst)) true th num ty complete = .ok (planes, labels) ∧
      (nmDomain E ((nmProfiles E.balanced (sectionMinY (shapes.map Prod.fst)) true th num ty complete).map Prod.fst)
        (history E lu ops .fresh)).2 = .ok (planes.map fun v => .forces (S.forces v)) ∧
      planes.length = (∑ i, num i).toNat + (if complete then (∑ i, num i).toNat - 2 else 0) ∧
      (∀ v ∈ planes, S.Admissible v) ∧ (∀ q ∈ planes.zip labels, q.2 ≤ 5 → S.AtLimit q.1) ∧
      (ty 0 = .linear → 1 ≤ num 0 → planes.head? = some ![designUltimate scls sa, 0, 0]) ∧
      (complete = false → planes.getLast? = some ![-0.002, 0, 0]) := by
  have hlaw := C73_concrete hl ccls ca c hc hcn hci.1 hci.2 hce.1 hce.2.1 hce.2.2 hcf
  obtain ⟨hult, -, -⟩ := C73_steel hl scls sa s hs hsn hsi.1 hsi.2 hgap
  have hyield := steel_yield hl scls sa s hs hsn hsi.1 hsi.2
  refine ⟨?_, ?_⟩
  · intro p hp
    obtain ⟨q, -, rfl⟩ := List.mem_map.1 hp
    rw [hlaw, hfc]
    rfl
  have hey' : designYield sa ≤ designUltimate scls sa := by
    have := heu.1
    norm_num at *
    linarith
  have hpoly : shapes.map Prod.fst = (normalParts fc shapes).map ConcretePart.polygon := by
    simp only [normalParts, List.map_map, Function.comp_def]
  rw [hpoly]
  subst hS
  subst hE
  obtain ⟨⟨yp, hord⟩, hok, q, k, hrun, k1, k2, k3, k4⟩ := hdir.profiles (fc := fc) (ms := ms) hbars hult hyield heu.1 heu.2 hey hey' henc hull
    hcut hnum
  have hsplit : ∀ p ∈ normalParts fc shapes, ∀ v : Fin 3 → ℝ, v 1 * Real.sin th = v 2 * Real.cos th → v 1 ≠ 0 ∨ v 2 ≠ 0 →
      SplitsExactly split (p.polygon.rotate (neutralAngle v)) (rotPt (neutralAngle v) '' p.region) := by
    intro p hp v h1 h2
    obtain ⟨r, hr, rfl⟩ := List.mem_map.1 hp
    exact hcut r hr _ (neutral_direction h1 h2)
  have hsound : ∀ p ∈ normalParts fc shapes, p.Sound := fun p hp =>
    ⟨(hok p hp).encloses, (hok p hp).inHull, (hok p hp).peak, (hok p hp).plateau⟩
  cases complete with
  | false =>
    have hprof : nmProfiles (sectionEngine split ((normalParts fc shapes).map ConcretePart.solid) bars ms).balanced
        (sectionMinY ((normalParts fc shapes).map ConcretePart.polygon)) true th num ty false = .ok (q, k) := by
      simp only [nmProfiles, hrun, Bool.false_eq_true, if_false]
    refine ⟨q, k, hprof, ?_, (C38_domain_count _ _ _ _ _ _ _ _ _ hprof).2, k1, k2, k3, fun _ => k4⟩
    exact C67_nm_partial split _ bars ms th lu ops hops (single_ids hbars) (single_sizes hbars) hsound true num ty false hprof hord
      (by simp) (yn' := 0) (yp' := 0) (a' := 0) (b' := 0) (c' := 0) (d' := 0) hsplit
  | true =>
    obtain ⟨⟨yp', hord'⟩, hok', q', k', hrun', k1', k2', k3', k4'⟩ := (hdir' rfl).profiles (fc := fc) (ms := ms) hbars hult hyield heu.1 heu.2
      hey hey' henc hull hcut.half_turn hnum
    have hprof : nmProfiles (sectionEngine split ((normalParts fc shapes).map ConcretePart.solid) bars ms).balanced
        (sectionMinY ((normalParts fc shapes).map ConcretePart.polygon)) true th num ty true =
        .ok (q ++ dropEndsRev q', k ++ dropEndsRev k') := by
      simp only [nmProfiles, hrun, hrun', if_true]
    have hlen := (C38_count _ _ _ _ _ _ _ _ hrun).2.2.2.1
    have hlen' := (C38_count _ _ _ _ _ _ _ _ hrun').2.2.2.1
    refine ⟨_, _, hprof, ?_, (C38_domain_count _ _ _ _ _ _ _ _ _ hprof).2, ?_, ?_, ?_, by simp⟩
    · exact C67_nm_partial split _ bars ms th lu ops hops (single_ids hbars) (single_sizes hbars) hsound true num ty true hprof hord
        (fun _ => hord') hsplit
    · intro v hv
      rcases List.mem_append.1 hv with hv | hv
      · exact k1 v hv
      · exact k1' v (mem_dropEndsRev hv)
    · intro r hr
      rw [List.zip_append hlen.symm] at hr
      rcases List.mem_append.1 hr with hr | hr
      · exact k2 r hr
      · exact k2' r (dropEndsRev_zip hlen'.symm hr)
    · intro h1 h2
      rw [List.head?_append, k3 h1 h2]
      rfl

end SC
