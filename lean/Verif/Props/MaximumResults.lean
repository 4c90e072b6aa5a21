import Verif.Props.Maximum

/-! # C74: the strength is the largest moment - results of the calculator -/

set_option autoImplicit false

namespace SC

open Spec MeasureTheory

theorem OrdinaryRC.sound_within {th ecu eu H R : ℝ} {parts : List ConcretePart} {bars : List Bar}
    (h : OrdinaryRC th parts bars ecu eu H) (hok : ∀ p ∈ parts, p.Sound)
    (hR : ∀ p ∈ parts, ∀ v ∈ p.polygon.ext, |height th v| ≤ R) : (concreteSection parts bars).Within th R ∧ 0 ≤ R := by
  have key : ∀ p ∈ parts, ∀ x ∈ convexHull ℝ {v | v ∈ p.polygon.ext}, |height th x| ≤ R := by
    intro p hp x hx
    obtain ⟨v, hv, h1⟩ := OrdinaryRC.hull_height (th := th) hx
    obtain ⟨w, hw, h2⟩ := hull_low (th := th) hx
    have := (abs_le.1 (hR p hp v hv)).2
    have := (abs_le.1 (hR p hp w hw)).1
    exact abs_le.2 ⟨by linarith, by linarith⟩
  refine ⟨⟨fun p hp x hx => ?_, fun r hr => ?_⟩, ?_⟩
  · simp only [concreteSection, List.mem_map] at hp
    obtain ⟨q, hq, rfl⟩ := hp
    exact key q hq x ((hok q hq).inHull hx)
  · simp only [concreteSection, List.mem_map] at hr
    obtain ⟨b, hb, rfl⟩ := hr
    obtain ⟨p, hp, hx⟩ := h.inside b hb
    exact key p hp _ hx
  · obtain ⟨b, hb, p, hp, v, hv, -⟩ := h.depth
    exact (abs_nonneg _).trans (hR p hp v hv)

theorem OrdinaryRC.within {split : Polygon → ℝ → ℝ → ShapelyResult} {th ecu eu H R : ℝ} {parts : List ConcretePart} {bars : List Bar}
    (h : OrdinaryRC th parts bars ecu eu H) (hok : ∀ p ∈ parts, p.Ok split th)
    (hR : ∀ p ∈ parts, ∀ v ∈ p.polygon.ext, |height th v| ≤ R) : (concreteSection parts bars).Within th R ∧ 0 ≤ R :=
  h.sound_within (fun p hp => (hok p hp).sound) hR

theorem planeThrough_curvature (th v c : ℝ) : planeThrough th 0 v c = ![v, c * Real.cos th, c * Real.sin th] := by
  funext i
  fin_cases i <;> simp [planeThrough]

/-- **C74** (bending strength). No strain plane about an axis parallel to that of the calculation, within the limit strains of all
materials, has a larger moment than the bending strength, up to the difference of the axial forces times the distance `R` of the
farthest corner from the axis through the origin. -/
theorem C74_strength {split : Polygon → ℝ → ℝ → ShapelyResult} {ms th ecu eu H R : ℝ} {parts : List ConcretePart} {bars : List Bar}
    {lu : Matrix (Fin 3) (Fin 3) ℝ → (Fin 3 → ℝ) → (Fin 3 → ℝ)}
    (h : OrdinaryRC th parts bars ecu eu H) (hok : ∀ p ∈ parts, p.Ok split th)
    (hid : SameIds (bars.map Bar.law)) (hd : EqualSizes (groupBars bars)) (hA : ∀ b ∈ bars, 0 ≤ b.area)
    (hmono : ∀ b ∈ bars, MonotoneOn b.law.law.stress (Set.Icc (b.law.law.ult false).1 (b.law.law.ult false).2))
    (hR : ∀ p ∈ parts, ∀ v ∈ p.polygon.ext, |height th v| ≤ R) (n : ℝ) (ops : List Op) (b : BendingResult)
    (hops : Undisturbed (sectionEngine split (parts.map ConcretePart.solid) bars ms) lu ops .fresh)
    (hrun : (bendingStrength (sectionEngine split (parts.map ConcretePart.solid) bars ms) th n
      (history (sectionEngine split (parts.map ConcretePart.solid) bars ms) lu ops .fresh)).2 = .ok b)
    (v c : ℝ) (ha : (concreteSection parts bars).Admissible (planeThrough th 0 v c)) :
    bendingMoment th ((concreteSection parts bars).forces (planeThrough th 0 v c)) ≤
      bendingMoment th ![b.n, b.m.1, b.m.2] + R * |(concreteSection parts bars).forces (planeThrough th 0 v c) 0 - b.n| := by
  have hne : ∀ p ∈ parts, p.polygon.ext ≠ [] := fun p hp => concrete_ne hok _ (List.mem_map_of_mem hp)
  obtain ⟨yn, yp, st, hb, -, -, -, -, -, -, -, hgov⟩ := h.balanced (split := split) (ms := ms) hne
  obtain ⟨C, -, hmain⟩ := C66_reinforced_concrete_partial split parts bars ms th lu hok hid hd h.lim h.flat hb hgov
  obtain ⟨⟨cu, hcu, e⟩, hf, hl, had, -⟩ := hmain n ops b hops hrun
  have hpl : ![b.eps_a, b.chi.1, b.chi.2] = planeThrough th 0 b.eps_a cu := by rw [planeThrough_curvature, e]
  rw [hpl] at hf hl had
  obtain ⟨hw, hR0⟩ := h.within hok hR
  have := ultimate_maximal (concrete_nonSoftening hok hA hmono) hw hR0 had (h.ultimate hok hmono hcu.le had hl) ha
  rw [hf] at this
  exact this

/-- **C74** (bending strength under a given axial load, partial: the loads of C73). The strength is the largest moment any admissible
plane about an axis parallel to that of the calculation carries together with the axial load `n`, up to `R` times the tolerance
`1e-2` of the search. -/
theorem C74_load_partial (split : Polygon → ℝ → ℝ → ShapelyResult) (ms : ℝ) {th ecu eu H H0 R : ℝ} {parts : List ConcretePart} {bars : List Bar}
    (lu : Matrix (Fin 3) (Fin 3) ℝ → (Fin 3 → ℝ) → (Fin 3 → ℝ))
    (h0 : OrdinaryRC 0 parts bars ecu eu H0) (h : OrdinaryRC th parts bars ecu eu H) (hok : ∀ p ∈ parts, p.Ok split th)
    (hid : SameIds (bars.map Bar.law)) (hd : EqualSizes (groupBars bars)) (hA : ∀ b ∈ bars, 0 ≤ b.area)
    (hmono : ∀ b ∈ bars, MonotoneOn b.law.law.stress (Set.Icc (b.law.law.ult false).1 (b.law.law.ult false).2))
    {K : ℝ} (hK0 : 0 ≤ K)
    (hK : ∀ b ∈ bars, ∀ x ∈ Set.Icc (b.law.law.ult false).1 (b.law.law.ult false).2,
      ∀ y ∈ Set.Icc (b.law.law.ult false).1 (b.law.law.ult false).2, |b.law.law.stress x - b.law.law.stress y| ≤ K * |x - y|)
    (hstiff : OrdinaryRC.axialRigidity parts bars K * H ≤ 1e22)
    (hR : ∀ p ∈ parts, ∀ v ∈ p.polygon.ext, |height th v| ≤ R) :
    ∃ C : Set ℝ, C.Countable ∧ ∀ (n : ℝ) (ops : List Op), n ∉ C →
      Undisturbed (sectionEngine split (parts.map ConcretePart.solid) bars ms) lu ops .fresh →
      (concreteSection parts bars).forces ![-ecu, 0, 0] 0 + OrdinaryRC.axialRigidity parts bars K * H * 1e-13 < n →
      n < (concreteSection parts bars).forces ![eu, 0, 0] 0 - OrdinaryRC.axialRigidity parts bars K * H * 1e-13 →
      ∃ b : BendingResult, (bendingStrength (sectionEngine split (parts.map ConcretePart.solid) bars ms) th n
          (history (sectionEngine split (parts.map ConcretePart.solid) bars ms) lu ops .fresh)).2 = .ok b ∧ |b.n - n| ≤ 1e-2 ∧
        (∃ v c, (concreteSection parts bars).Admissible (planeThrough th 0 v c) ∧
          (concreteSection parts bars).forces (planeThrough th 0 v c) = ![b.n, b.m.1, b.m.2]) ∧
        ∀ v c, (concreteSection parts bars).Admissible (planeThrough th 0 v c) →
          (concreteSection parts bars).forces (planeThrough th 0 v c) 0 = n →
          bendingMoment th ((concreteSection parts bars).forces (planeThrough th 0 v c)) ≤
            bendingMoment th ![b.n, b.m.1, b.m.2] + R * 1e-2 := by
  obtain ⟨C, hC, hmain⟩ := C73_strength_partial split ms lu h0 h hok hid hd hK0 hK hstiff
  refine ⟨C, hC, fun n ops hn hops hlo hhi => ?_⟩
  obtain ⟨b, hb, ⟨cu, hcu, e⟩, hf, -, had, htol⟩ := (hmain n ops hops).2 hlo hhi
  have hpl : ![b.eps_a, b.chi.1, b.chi.2] = planeThrough th 0 b.eps_a cu := by rw [planeThrough_curvature, e]
  rw [hpl] at hf had
  refine ⟨b, hb, htol hn, ⟨_, _, had, hf⟩, fun v c ha hN => ?_⟩
  have := C74_strength h hok hid hd hA hmono hR n ops b hops hb v c ha
  rw [hN] at this
  have h1 := htol hn
  rw [abs_sub_comm] at h1
  have h2 := mul_le_mul_of_nonneg_left h1 (h.within hok hR).2
  linarith

/-! ### Moment-curvature diagrams -/

/-- Curvature about the axis inclined by `th`. -/
noncomputable def MCPoint.curvature (th : ℝ) (p : MCPoint) : ℝ := p.2.2.1 * Real.cos th + p.2.2.2 * Real.sin th

/-- What C74 says of the points `pts` of a diagram of the section `S`. -/
structure MomentsGrow (S : CrossSection) (th R : ℝ) (pts : List MCPoint) : Prop where
  /-- of two points within the limit strains, the one with the larger curvature has at least the moment of the other -/
  grows : ∀ p ∈ pts, ∀ q ∈ pts, S.Admissible p.plane → S.Admissible q.plane → q.curvature th ≤ p.curvature th →
    bendingMoment th ![0, p.2.1.1, p.2.1.2] ≤ bendingMoment th ![0, q.2.1.1, q.2.1.2] + R * |S.forces p.plane 0 - S.forces q.plane 0|
  /-- no point within the limit strains has a larger moment than a bending strength -/
  below : ∀ p ∈ pts, S.Admissible p.plane → ∀ v c, S.Admissible (planeThrough th 0 v c) → S.Ultimate th (planeThrough th 0 v c) →
    bendingMoment th ![0, p.2.1.1, p.2.1.2] ≤ bendingMoment th (S.forces (planeThrough th 0 v c)) +
      R * |S.forces p.plane 0 - S.forces (planeThrough th 0 v c) 0|

theorem moments_grow {S : CrossSection} (h : S.NonSoftening) {th R : ℝ} (hR : S.Within th R) (hR0 : 0 ≤ R) {pts : List MCPoint}
    {chis : List ℝ} (h1 : pts.map (fun p => p.2.2) = chis.map (fun c => (c * Real.cos th, c * Real.sin th)))
    (h2 : ∀ p ∈ pts, S.Admissible p.plane → (S.forces p.plane 1, S.forces p.plane 2) = p.2.1) : MomentsGrow S th R pts := by
  have hp : ∀ p ∈ pts, p.plane = planeThrough th 0 p.1 (p.curvature th) := by
    intro p hp
    have : p.2.2 ∈ pts.map (fun p => p.2.2) := List.mem_map_of_mem hp
    rw [h1] at this
    obtain ⟨c, -, e⟩ := List.mem_map.1 this
    have hc : p.curvature th = c := by
      rw [MCPoint.curvature, ← e]
      have hsq := Real.sin_sq_add_cos_sq th
      simp only
      linear_combination c * hsq
    rw [hc, planeThrough_curvature, MCPoint.plane, ← e]
  have hm : ∀ p ∈ pts, S.Admissible p.plane → bendingMoment th ![0, p.2.1.1, p.2.1.2] = bendingMoment th (S.forces p.plane) := by
    intro p hp ha
    rw [← h2 p hp ha]
    simp [bendingMoment]
  refine ⟨fun p hp' q hq' hpa hqa hc => ?_, fun p hp' hpa v c ha hu => ?_⟩
  · rw [hm p hp' hpa, hm q hq' hqa]
    rw [hp p hp'] at hpa ⊢
    rw [hp q hq'] at hqa ⊢
    exact moment_curvature_mono h hR hR0 hc hqa hpa
  · rw [hm p hp' hpa]
    rw [hp p hp'] at hpa ⊢
    exact ultimate_maximal h hR hR0 ha hu hpa

/-- The strain plane of a bending strength, for comparison with other planes. -/
theorem strength_plane {split : Polygon → ℝ → ℝ → ShapelyResult} {ms th ecu eu H : ℝ} {parts : List ConcretePart} {bars : List Bar}
    {lu : Matrix (Fin 3) (Fin 3) ℝ → (Fin 3 → ℝ) → (Fin 3 → ℝ)}
    (h : OrdinaryRC th parts bars ecu eu H) (hok : ∀ p ∈ parts, p.Ok split th)
    (hid : SameIds (bars.map Bar.law)) (hd : EqualSizes (groupBars bars))
    (hmono : ∀ b ∈ bars, MonotoneOn b.law.law.stress (Set.Icc (b.law.law.ult false).1 (b.law.law.ult false).2))
    (n : ℝ) (ops : List Op) (b : BendingResult)
    (hops : Undisturbed (sectionEngine split (parts.map ConcretePart.solid) bars ms) lu ops .fresh)
    (hrun : (bendingStrength (sectionEngine split (parts.map ConcretePart.solid) bars ms) th n
      (history (sectionEngine split (parts.map ConcretePart.solid) bars ms) lu ops .fresh)).2 = .ok b) :
    ∃ v c, (concreteSection parts bars).Admissible (planeThrough th 0 v c) ∧
      (concreteSection parts bars).Ultimate th (planeThrough th 0 v c) ∧
      (concreteSection parts bars).forces (planeThrough th 0 v c) = ![b.n, b.m.1, b.m.2] := by
  have hne : ∀ p ∈ parts, p.polygon.ext ≠ [] := fun p hp => concrete_ne hok _ (List.mem_map_of_mem hp)
  obtain ⟨yn, yp, st, hb, -, -, -, -, -, -, -, hgov⟩ := h.balanced (split := split) (ms := ms) hne
  obtain ⟨C, -, hmain⟩ := C66_reinforced_concrete_partial split parts bars ms th lu hok hid hd h.lim h.flat hb hgov
  obtain ⟨⟨cu, hcu, e⟩, hf, hl, had, -⟩ := hmain n ops b hops hrun
  have hpl : ![b.eps_a, b.chi.1, b.chi.2] = planeThrough th 0 b.eps_a cu := by rw [planeThrough_curvature, e]
  rw [hpl] at hf hl had
  exact ⟨_, _, had, h.ultimate hok hmono hcu.le had hl, hf⟩

/-- **C74** (moment-curvature diagram, partial: curvatures other than zero, axial forces outside the countable set of C70). In the
diagram for curvatures given by the caller, the moment never falls with growing curvature, and never exceeds the bending strength, as
long as the strains stay within the limits of the materials; both up to the difference of the axial forces times `R`. -/
theorem C74_curvature_partial (split : Polygon → ℝ → ℝ → ShapelyResult) (ms : ℝ) {th ecu eu H R : ℝ} {parts : List ConcretePart}
    {bars : List Bar} (lu : Matrix (Fin 3) (Fin 3) ℝ → (Fin 3 → ℝ) → (Fin 3 → ℝ))
    (h : OrdinaryRC th parts bars ecu eu H) (hok : ∀ p ∈ parts, p.Ok split th)
    (hid : SameIds (bars.map Bar.law)) (hd : EqualSizes (groupBars bars)) (hA : ∀ b ∈ bars, 0 ≤ b.area)
    (hmono : ∀ b ∈ bars, MonotoneOn b.law.law.stress (Set.Icc (b.law.law.ult false).1 (b.law.law.ult false).2))
    (hR : ∀ p ∈ parts, ∀ v ∈ p.polygon.ext, |height th v| ≤ R) (chis : List ℝ) (hne : ∀ c ∈ chis, c ≠ 0)
    (hup : (∃ c ∈ chis, 0 < c) → ∀ p ∈ parts, SplitsExactly split (p.polygon.rotate (-th)) (rotPt (-th) '' p.region)) :
    ∃ C : Set ℝ, C.Countable ∧ ∀ n ∉ C, ∀ (cf : ℝ) (a b : ℕ) (ops : List Op) (pts : List MCPoint),
      Undisturbed (sectionEngine split (parts.map ConcretePart.solid) bars ms) lu ops .fresh →
      (momentCurvature (sectionEngine split (parts.map ConcretePart.solid) bars ms) th n cf a b (some chis)
        (history (sectionEngine split (parts.map ConcretePart.solid) bars ms) lu ops .fresh)).2 = .ok pts →
      (∀ p ∈ pts, ∀ q ∈ pts, (concreteSection parts bars).Admissible p.plane → (concreteSection parts bars).Admissible q.plane →
        q.curvature th ≤ p.curvature th →
        bendingMoment th ![0, p.2.1.1, p.2.1.2] ≤ bendingMoment th ![0, q.2.1.1, q.2.1.2] +
          R * |(concreteSection parts bars).forces p.plane 0 - (concreteSection parts bars).forces q.plane 0|) ∧
      ∀ p ∈ pts, (concreteSection parts bars).Admissible p.plane → ∀ (n' : ℝ) (ops' : List Op) (r : BendingResult),
        Undisturbed (sectionEngine split (parts.map ConcretePart.solid) bars ms) lu ops' .fresh →
        (bendingStrength (sectionEngine split (parts.map ConcretePart.solid) bars ms) th n'
          (history (sectionEngine split (parts.map ConcretePart.solid) bars ms) lu ops' .fresh)).2 = .ok r →
        bendingMoment th ![0, p.2.1.1, p.2.1.2] ≤ bendingMoment th ![r.n, r.m.1, r.m.2] +
          R * |(concreteSection parts bars).forces p.plane 0 - r.n| := by
  obtain ⟨C, hC, hmain⟩ := C70_reinforced_concrete_partial split parts bars ms th lu hok hid hd chis hne hup
  refine ⟨C, hC, fun n hn cf a b ops pts hops hrun => ?_⟩
  obtain ⟨h1, -, h2, -⟩ := hmain n hn cf a b ops pts hops hrun
  obtain ⟨hw, hR0⟩ := h.within hok hR
  have hg := moments_grow (concrete_nonSoftening hok hA hmono) hw hR0 h1 h2
  refine ⟨hg.grows, fun p hp hpa n' ops' r hops' hrun' => ?_⟩
  obtain ⟨v, c, ha, hu, hf⟩ := strength_plane h hok hid hd hmono n' ops' r hops' hrun'
  have := hg.below p hp hpa v c ha hu
  rw [hf] at this
  exact this

/-- **C74** (moment-curvature diagram with the default curvatures, partial as C70). The points come in the order of growing curvature,
so among the points within the limit strains each moment is at least every earlier one; and none exceeds the bending strength. -/
theorem C74_default_partial (split : Polygon → ℝ → ℝ → ShapelyResult) (ms : ℝ) {th ecu eu H R : ℝ} {parts : List ConcretePart}
    {bars : List Bar} (lu : Matrix (Fin 3) (Fin 3) ℝ → (Fin 3 → ℝ) → (Fin 3 → ℝ))
    (h : OrdinaryRC th parts bars ecu eu H) (hok : ∀ p ∈ parts, p.Ok split th)
    (hid : SameIds (bars.map Bar.law)) (hd : EqualSizes (groupBars bars)) (hA : ∀ b ∈ bars, 0 ≤ b.area)
    (hmono : ∀ b ∈ bars, MonotoneOn b.law.law.stress (Set.Icc (b.law.law.ult false).1 (b.law.law.ult false).2))
    (hR : ∀ p ∈ parts, ∀ v ∈ p.polygon.ext, |height th v| ≤ R) {yn yp yn' yp' : ℝ} {st sty : Fin 3 → ℝ}
    (hbal : (sectionEngine split (parts.map ConcretePart.solid) bars ms).balanced (-th) false = .ok (yn, yp, st))
    (hbaly : (sectionEngine split (parts.map ConcretePart.solid) bars ms).balanced (-th) true = .ok (yn', yp', sty))
    (hst : st 1 ≤ -1e-13) (hsty : sty 1 ≤ -1e-13) (cf : ℝ) (hcf : cf ≠ 0) (a b : ℕ) (ha : 2 ≤ a) (hb : 1 ≤ b) :
    ∃ C : Set ℝ, C.Countable ∧ ∀ n ∉ C, ∀ (ops : List Op) (pts : List MCPoint),
      Undisturbed (sectionEngine split (parts.map ConcretePart.solid) bars ms) lu ops .fresh →
      (momentCurvature (sectionEngine split (parts.map ConcretePart.solid) bars ms) th n cf a b none
        (history (sectionEngine split (parts.map ConcretePart.solid) bars ms) lu ops .fresh)).2 = .ok pts →
      pts.Pairwise (fun p q => (concreteSection parts bars).Admissible p.plane → (concreteSection parts bars).Admissible q.plane →
        bendingMoment th ![0, p.2.1.1, p.2.1.2] ≤ bendingMoment th ![0, q.2.1.1, q.2.1.2] +
          R * |(concreteSection parts bars).forces p.plane 0 - (concreteSection parts bars).forces q.plane 0|) ∧
      ∀ p ∈ pts, (concreteSection parts bars).Admissible p.plane → ∀ (n' : ℝ) (ops' : List Op) (r : BendingResult),
        Undisturbed (sectionEngine split (parts.map ConcretePart.solid) bars ms) lu ops' .fresh →
        (bendingStrength (sectionEngine split (parts.map ConcretePart.solid) bars ms) th n'
          (history (sectionEngine split (parts.map ConcretePart.solid) bars ms) lu ops' .fresh)).2 = .ok r →
        bendingMoment th ![0, p.2.1.1, p.2.1.2] ≤ bendingMoment th ![r.n, r.m.1, r.m.2] +
          R * |(concreteSection parts bars).forces p.plane 0 - r.n| := by
  obtain ⟨C, hC, hmain⟩ := C70_concrete_default_partial split parts bars ms th lu hok hid hd hbal hbaly hst hsty cf hcf a b ha hb
  refine ⟨C, hC, fun n hn ops pts hops hrun => ?_⟩
  obtain ⟨-, -, -, -, -, -, -, ⟨chis, h1, hord, -⟩, -, h2, -⟩ := hmain n hn ops pts hops hrun
  obtain ⟨hw, hR0⟩ := h.within hok hR
  have hg := moments_grow (concrete_nonSoftening hok hA hmono) hw hR0 h1 h2
  refine ⟨?_, fun p hp hpa n' ops' r hops' hrun' => ?_⟩
  · have hcurv : pts.map (MCPoint.curvature th) = chis := by
      have e := congrArg (List.map fun x : ℝ × ℝ => x.1 * Real.cos th + x.2 * Real.sin th) h1
      rw [List.map_map, List.map_map] at e
      have e2 : chis.map ((fun x : ℝ × ℝ => x.1 * Real.cos th + x.2 * Real.sin th) ∘ fun c => (c * Real.cos th, c * Real.sin th)) = chis := by
        refine (List.map_congr_left fun c _ => ?_).trans (List.map_id _)
        have hsq := Real.sin_sq_add_cos_sq th
        simp only [Function.comp, id]
        linear_combination c * hsq
      rw [e2] at e
      exact e
    rw [← hcurv, List.pairwise_map] at hord
    exact hord.imp_of_mem fun hp hq hlt hpa hqa => hg.grows _ hp _ hq hpa hqa hlt.le
  · obtain ⟨v, c, ha, hu, hf⟩ := strength_plane h hok hid hd hmono n' ops' r hops' hrun'
    have := hg.below p hp hpa v c ha hu
    rw [hf] at this
    exact this

end SC
