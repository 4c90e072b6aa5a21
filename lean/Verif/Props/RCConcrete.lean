import Verif.Props.RCStrength

/-! # C66 for reinforced concrete: parabola-rectangle surfaces and bars -/

set_option autoImplicit false

namespace SC

open Spec MeasureTheory

theorem neutralAngle_neg {e chi : ℝ} (h : chi < 0) : neutralAngle ![e, chi, 0] = -Real.pi := by
  have : (⟨chi, 0⟩ : ℂ) = ((chi : ℝ) : ℂ) := by apply Complex.ext <;> simp
  simp only [neutralAngle, atan2, Matrix.cons_val, this]
  rw [Complex.arg_ofReal_of_neg h]

/-- Without the snapping of strains, the Marin pieces are the law for all strains. -/
theorem pr_core_pieces (fc e0' u e0 e1 : ℝ) (h0 : 0 < |e0'|) (hu : |e0'| ≤ |u|) (he : e1 ≠ 0) :
    let l := ParabolaRectangle.new fc e0' u 2
    ∃ rs, (l.marin e0 e1).1.ranges = some rs ∧
      PiecesMatch l.core e0 e1 (fun _ => True) rs (l.marin e0 e1).1.coeffs := by
  intro l
  simp only [l, ParabolaRectangle.marin, if_neg he]
  refine ⟨_, rfl, rfl, ⟨by simp; grind, by simp <;> grind⟩, ?_, ?_⟩
  · intro rc hrc y hok hlo hhi
    simp only [List.zip_cons_cons, List.zip_nil_right, List.mem_cons, List.not_mem_nil, or_false] at hrc
    simp only [ParabolaRectangle.core]
    rcases hrc with rfl | rfl <;> simp only [] at hlo hhi
    · have b : ¬ e0 + e1 * y < -|e0'| := by linarith
      rw [if_neg (fun h => b h.2), if_pos ⟨hlo, hhi⟩]
      rw [show (2:ℝ) = ((2:ℕ):ℝ) by norm_num, Real.rpow_natCast]
      have : -|e0'| ≠ 0 := by linarith
      simp only [evalPoly]
      push_cast
      field_simp
      ring
    · rcases hhi.eq_or_lt with hhi | hhi
      · rw [hhi, if_neg (fun h => lt_irrefl _ h.2), if_pos ⟨le_rfl, by linarith⟩,
          div_self (by linarith : -|e0'| ≠ 0)]
        simp [evalPoly]
      · rw [if_pos ⟨hlo, hhi⟩]; simp [evalPoly]
  · intro y hok hout
    have a := hout (-|e0'|, 0) (by simp)
    have b := hout (-|u|, -|e0'|) (by simp)
    simp only [ParabolaRectangle.core]
    simp only at a b
    generalize e0 + e1 * y = x at *
    have c1 : ¬ (-|u| ≤ x ∧ x < -|e0'|) := by rintro ⟨p, q⟩; rcases b with b | b <;> linarith
    have c2 : ¬ (-|e0'| ≤ x ∧ x ≤ 0) := by rintro ⟨p, q⟩; rcases a with a | a <;> linarith
    rw [if_neg c1, if_neg c2]

/-- Within the limit strains the snapping of strains does not change the stress. -/
theorem pr_stress_core (fc e0 u : ℝ) (hu : |e0| + 1e-6 + 1e-5 * |u| < |u|) {x : ℝ} (hx : -|u| ≤ x) :
    (ParabolaRectangle.new fc e0 u 2).stress x = (ParabolaRectangle.new fc e0 u 2).core x := by
  have ha := abs_nonneg e0
  have hb := abs_nonneg u
  have hcore : ∀ y, 0 < y → (ParabolaRectangle.new fc e0 u 2).core y = 0 := by
    intro y hy
    simp only [ParabolaRectangle.core]
    rw [if_neg (fun h => by linarith [h.2]), if_neg (fun h => by linarith [h.2])]
  have hs : (ParabolaRectangle.new fc e0 u 2).stress x =
    (ParabolaRectangle.new fc e0 u 2).core (snap (-|u|, 100) x) := rfl
  rw [hs]
  by_cases h1 : isclose x 100
  · have : snap (-|u|, 100) x = 100 := by simp [snap, h1]
    rw [this, hcore 100 (by norm_num)]
    simp only [isclose, abs_le] at h1
    norm_num at h1
    rw [hcore x (by linarith [h1.1])]
  · by_cases h2 : isclose x (-|u|)
    · have : snap (-|u|, 100) x = -|u| := by simp [snap, h1, h2]
      rw [this]
      simp only [isclose, abs_neg, abs_abs] at h2
      have h3 := (abs_le.1 h2).2
      simp only [ParabolaRectangle.core]
      rw [if_pos ⟨le_rfl, by linarith [show (0:ℝ) < 1e-6 by norm_num]⟩, if_pos ⟨hx, by linarith⟩]
    · have : snap (-|u|, 100) x = x := by simp [snap, h1, h2]
      rw [this]

/-- A concrete part: polygon, the region it bounds, and the parameters of its parabola-rectangle law. -/
structure ConcretePart where
  polygon : Polygon
  region : Set (ℝ × ℝ)
  fc : ℝ
  eps_0 : ℝ
  eps_u : ℝ

/-- Its law (materials/concrete: `constitutive_law='parabolarectangle'`, exponent 2). -/
noncomputable def ConcretePart.law (p : ConcretePart) : ParabolaRectangle := ParabolaRectangle.new p.fc p.eps_0 p.eps_u 2

/-- What the integrator reads of it. -/
noncomputable def ConcretePart.surf (p : ConcretePart) : Surf := Surf.ofMarin p.polygon p.law.marin p.law.marinT

/-- With the unsnapped law as response. -/
noncomputable def ConcretePart.solid (p : ConcretePart) : Solid :=
  ⟨⟨p.surf, p.region, p.law.core⟩, true, p.law.ult⟩

/-- The cross-section: stresses by `get_stress`, limit strains by `get_ultimate_strain`. -/
noncomputable def concreteSection (parts : List ConcretePart) (bars : List Bar) : CrossSection where
  plates := parts.map fun p => ⟨p.region, p.polygon.ext, p.law.stress, (p.law.ult false).1, (p.law.ult false).2⟩
  rods := bars.map fun b => ⟨b.fibre Law.stress, (b.law.law.ult false).1, (b.law.law.ult false).2⟩

theorem concrete_corners (parts : List ConcretePart) (bars : List Bar) :
    (crossSection (parts.map ConcretePart.solid) bars).corners = (concreteSection parts bars).corners := by
  simp only [CrossSection.corners, crossSection, concreteSection, List.map_map, List.flatMap_map, Function.comp_def]
  rfl

theorem concrete_admissible (parts : List ConcretePart) (bars : List Bar) (e : Fin 3 → ℝ) :
    (crossSection (parts.map ConcretePart.solid) bars).Admissible e ↔ (concreteSection parts bars).Admissible e := by
  simp only [CrossSection.Admissible, crossSection, concreteSection, List.map_map, List.forall_mem_map]
  rfl

/-- What is assumed of a concrete part. -/
structure ConcretePart.Ok (split : Polygon → ℝ → ℝ → ShapelyResult) (th : ℝ) (p : ConcretePart) : Prop where
  encloses : Encloses p.polygon.ext p.polygon.ints p.region
  inHull : p.region ⊆ convexHull ℝ {v | v ∈ p.polygon.ext}
  splits : SplitsExactly split ((p.polygon.rotate (-th)).rotate (-Real.pi)) (rotPt (-Real.pi) '' (rotPt (-th) '' p.region))
  peak : 0 < |p.eps_0|
  plateau : |p.eps_0| + 1e-6 + 1e-5 * |p.eps_u| < |p.eps_u|

theorem concrete_good {split : Polygon → ℝ → ℝ → ShapelyResult} {th : ℝ} {p : ConcretePart} (h : p.Ok split th) (e chi : ℝ)
    (hchi : chi < 0) : (p.solid.spec.turn (-th)).Good split .stress ![e, chi, 0] := by
  have hg : (![e, chi, 0] : Fin 3 → ℝ) 1 ≠ 0 ∨ (![e, chi, 0] : Fin 3 → ℝ) 2 ≠ 0 := Or.inl hchi.ne
  have hp := gradient_pos hg
  have hu : |p.eps_0| ≤ |p.eps_u| := by
    linarith [h.plateau, abs_nonneg p.eps_u, show (0:ℝ) < 1e-6 by norm_num]
  obtain ⟨rs, hrs, hm⟩ := pr_core_pieces p.fc p.eps_0 p.eps_u ((![e, chi, 0] : Fin 3 → ℝ) 0) (gradient ![e, chi, 0]) h.peak hu hp.ne'
  have e2 : ∀ e0 e1, e1 ≠ 0 → (p.law.marin e0 e1).2 = e0 := by
    intro a b hb; simp [ParabolaRectangle.marin, hb]
  have e2' : ∀ e0 e1, e1 ≠ 0 → (p.law.marinT e0 e1).2 = e0 := by
    intro a b hb; simp [ParabolaRectangle.marinT, hb]
  exact (good_of_pieces split ![e, chi, 0] hg (p.polygon.rotate (-th)) (rotPt (-th) '' p.region)
    (encloses_rot (-th) h.encloses) (by rw [neutralAngle_neg hchi]; exact h.splits) p.law.marin p.law.marinT p.law.core _
    (fun _ _ => trivial) e2 e2').1 ⟨rs, hrs, piecesMatch_interior hm⟩

/-- In an admissible state the snapped and the unsnapped law give the same forces. -/
theorem concrete_forces {split : Polygon → ℝ → ℝ → ShapelyResult} {th : ℝ} {parts : List ConcretePart} (bars : List Bar)
    (hok : ∀ p ∈ parts, p.Ok split th) {e : Fin 3 → ℝ} (ha : (concreteSection parts bars).Admissible e) :
    (crossSection (parts.map ConcretePart.solid) bars).forces e = (concreteSection parts bars).forces e := by
  simp only [CrossSection.forces, crossSection, concreteSection, List.map_map, Function.comp_def]
  congr 2
  apply List.map_congr_left
  intro p hp
  funext i
  simp only [regionResultants]
  refine setIntegral_congr_fun (hok p hp).encloses.measurable fun x hx => ?_
  have := (ha.1 ⟨p.region, p.polygon.ext, p.law.stress, (p.law.ult false).1, (p.law.ult false).2⟩
    (by simp only [concreteSection, List.mem_map]; exact ⟨p, hp, rfl⟩) x ((hok p hp).inHull hx)).1
  change p.law.core _ * _ = p.law.stress _ * _
  rw [ConcretePart.law, pr_stress_core _ _ _ (hok p hp).plateau this]

/-- The planes of the pivot search are admissible. -/
theorem pivot_plane_admissible {parts : List Part} {rc : Bool}
    (hn : ∀ g ∈ parts, compressionLimit false rc g ≤ 0) (hp : ∀ g ∈ parts, 0 ≤ tensionLimit false g)
    {yn yp : ℝ} {strain : Fin 3 → ℝ} (hb : balancedFailure parts rc false = .ok (yn, yp, strain))
    (hweakp : ∀ g ∈ parts, planeStrain strain 0 yp ≤ tensionLimit false g)
    (hweakn : ∀ g ∈ parts, compressionLimit false rc g ≤ planeStrain strain 0 yn)
    {y0 chi : ℝ} (hy0 : y0 = yp ∨ y0 = yn) (h1 : strain 1 ≤ chi) (h3 : chi ≤ 0) :
    ∀ g ∈ parts, ∀ y, g.yLow ≤ y → y ≤ g.yHigh →
      compressionLimit false rc g ≤ strain 0 + strain 1 * y0 - chi * y0 + chi * y ∧
      strain 0 + strain 1 * y0 - chi * y0 + chi * y ≤ tensionLimit false g := by
  obtain ⟨⟨g', hg', o', ho', -, -, -, hp', hn'⟩, hadm, -, h2⟩ := C22_balanced parts rc false hn hp yn yp strain hb
  intro g hg y hlo hhi
  have hbal := hadm g hg 0 y hlo hhi
  have hwp := hweakp g hg
  have hwn := hweakn g hg
  have hst : ∀ x y, planeStrain strain x y = strain 0 + strain 1 * y := by
    intro x y; simp [planeStrain, h2]
  rw [hst] at hbal hwp hwn
  have hnn : (0:ℝ) ≤ strain 0 + strain 1 * yp := by
    have := hp' 0
    rw [hst] at this
    rw [this]; exact hp g' hg'
  have hnp : strain 0 + strain 1 * yn ≤ 0 := by
    have := hn' 0
    rw [hst] at this
    rw [this]; exact hn o' ho'
  have hng := hn g hg
  have hpg := hp g hg
  rcases hy0 with rfl | rfl
  · rcases le_total y0 y with hy | hy
    · constructor <;> nlinarith
    · constructor <;> nlinarith
  · rcases le_total y y0 with hy | hy
    · constructor <;> nlinarith
    · constructor <;> nlinarith

/-- Every plane of the search is admissible. -/
theorem search_admissible {solids : List Solid} {bars : List Bar} {th : ℝ} {rc : Bool}
    (hne : ∀ s ∈ solids, s.spec.surf.polygon.ext ≠ [])
    (hlim : ∀ c ∈ (crossSection solids bars).corners, c.2.1 ≤ 0 ∧ 0 ≤ c.2.2) {yn yp : ℝ} {st : Fin 3 → ℝ}
    (hb : balancedFailure (sectionParts solids bars (-th)) rc false = .ok (yn, yp, st))
    (hgov : ∀ c ∈ (crossSection solids bars).corners, planeStrain st 0 yp ≤ c.2.2 ∧ c.2.1 ≤ planeStrain st 0 yn)
    {y0 chi : ℝ} (hy0 : y0 = yp ∨ y0 = yn) (h1 : st 1 ≤ chi) (h3 : chi ≤ 0) :
    (crossSection solids bars).Admissible (planeThrough th y0 (planeStrain st 0 y0) chi) := by
  have hln : ∀ g ∈ sectionParts solids bars (-th), compressionLimit false rc g ≤ 0 := by
    intro g hg'
    obtain ⟨c, hc, -, h2⟩ := (part_corner hne hg').1
    rw [compressionLimit_ultimate, ← h2]
    exact (hlim c hc).1
  have hlp : ∀ g ∈ sectionParts solids bars (-th), 0 ≤ tensionLimit false g := by
    intro g hg'
    obtain ⟨c, hc, -, h2⟩ := (part_corner hne hg').1
    rw [tensionLimit, ← h2]
    exact (hlim c hc).2
  have hwp : ∀ g ∈ sectionParts solids bars (-th), planeStrain st 0 yp ≤ tensionLimit false g := by
    intro g' hg'
    obtain ⟨d, hd', -, h5⟩ := (part_corner hne hg').1
    have := (hgov d hd').1
    rw [tensionLimit, ← h5]
    exact this
  have hwn : ∀ g ∈ sectionParts solids bars (-th), compressionLimit false rc g ≤ planeStrain st 0 yn := by
    intro g' hg'
    obtain ⟨d, hd', -, h5⟩ := (part_corner hne hg').1
    have := (hgov d hd').2
    rw [compressionLimit_ultimate, ← h5]
    exact this
  have hst2 := (C22_balanced _ _ _ hln hlp _ _ _ hb).2.2.2
  have hpl : ∀ x y, planeStrain st x y = st 0 + st 1 * y := by intro x y; simp [planeStrain, hst2]
  have hpp := pivot_plane_admissible hln hlp hb hwp hwn hy0 h1 h3
  have hc : ∀ d ∈ (crossSection solids bars).corners,
      d.2.1 ≤ planeStrain (planeThrough th y0 (planeStrain st 0 y0) chi) d.1.1 d.1.2 ∧
      planeStrain (planeThrough th y0 (planeStrain st 0 y0) chi) d.1.1 d.1.2 ≤ d.2.2 := by
    intro d hd'
    obtain ⟨g', hg', h4, h5, h6⟩ := corner_part (th := th) hne hd'
    have := hpp g' hg' _ h5 h6
    rw [compressionLimit_ultimate, tensionLimit, h4] at this
    rw [planeThrough_height, hpl]
    constructor <;> linarith [this.1, this.2]
  refine ⟨fun p hp => plane_hull fun v hv => ?_, fun r hr => ?_⟩
  · exact hc (v, p.lo, p.hi) (by
      simp only [CrossSection.corners, List.mem_append, List.mem_flatMap, List.mem_map]
      exact Or.inl ⟨p, hp, v, hv, rfl⟩)
  · exact hc ((r.fibre.y, r.fibre.z), r.lo, r.hi) (by
      simp only [CrossSection.corners, List.mem_append, List.mem_map]
      exact Or.inr ⟨r, hr, rfl⟩)

theorem concrete_ne {split : Polygon → ℝ → ℝ → ShapelyResult} {th : ℝ} {parts : List ConcretePart}
    (hok : ∀ p ∈ parts, p.Ok split th) : ∀ s ∈ parts.map ConcretePart.solid, s.spec.surf.polygon.ext ≠ [] := by
  intro s hs h
  obtain ⟨p, hp, rfl⟩ := List.mem_map.1 hs
  have := (hok p hp).encloses.ext_proper.2
  have h' : p.polygon.ext = [] := h
  rw [h'] at this
  apply this
  simp [signedMoment, Spec.edges]

/-- **C66** for reinforced concrete (partial: `hgov`, and for the last clause `n ∉ C` and the bracket). -/
theorem C66_reinforced_concrete_partial (split : Polygon → ℝ → ℝ → ShapelyResult) (parts : List ConcretePart) (bars : List Bar)
    (ms th : ℝ) (lu : Matrix (Fin 3) (Fin 3) ℝ → (Fin 3 → ℝ) → (Fin 3 → ℝ))
    (hok : ∀ p ∈ parts, p.Ok split th)
    (hid : SameIds (bars.map Bar.law)) (hd : EqualSizes (groupBars bars))
    (hlim : ∀ c ∈ (concreteSection parts bars).corners, c.2.1 ≤ 0 ∧ 0 ≤ c.2.2)
    (hflat : ∀ c ∈ (concreteSection parts bars).corners, ∀ d ∈ (concreteSection parts bars).corners,
      1e-13 * (height th d.1 - height th c.1) ≤ c.2.2 - d.2.1)
    {yn yp : ℝ} {st : Fin 3 → ℝ}
    (hbal : (sectionEngine split (parts.map ConcretePart.solid) bars ms).balanced (-th) false = .ok (yn, yp, st))
    (hgov : ∀ c ∈ (concreteSection parts bars).corners, planeStrain st 0 yp ≤ c.2.2 ∧ c.2.1 ≤ planeStrain st 0 yn) :
    ∃ C : Set ℝ, C.Countable ∧ ∀ (n : ℝ) (ops : List Op) (b : BendingResult),
      Undisturbed (sectionEngine split (parts.map ConcretePart.solid) bars ms) lu ops .fresh →
      (bendingStrength (sectionEngine split (parts.map ConcretePart.solid) bars ms) th n
        (history (sectionEngine split (parts.map ConcretePart.solid) bars ms) lu ops .fresh)).2 = .ok b →
      (∃ c < 0, b.chi = (c * Real.cos th, c * Real.sin th)) ∧
      (concreteSection parts bars).forces ![b.eps_a, b.chi.1, b.chi.2] = ![b.n, b.m.1, b.m.2] ∧
      (concreteSection parts bars).AtLimit ![b.eps_a, b.chi.1, b.chi.2] ∧
      (concreteSection parts bars).Admissible ![b.eps_a, b.chi.1, b.chi.2] ∧
      (n ∉ C →
        (concreteSection parts bars).forces (planeThrough th yn (planeStrain st 0 yn) (-1e-13)) 0 < n →
        n < (concreteSection parts bars).forces (planeThrough th yp (planeStrain st 0 yp) (-1e-13)) 0 →
        |b.n - n| ≤ 1e-2) := by
  set solids := parts.map ConcretePart.solid with hsol
  have hgood : ∀ s ∈ solids, MeasurableSet s.spec.region ∧
      ∀ e chi, chi < 0 → (s.spec.turn (-th)).Good split .stress ![e, chi, 0] := by
    intro s hs
    obtain ⟨p, hp, rfl⟩ := List.mem_map.1 hs
    exact ⟨(hok p hp).encloses.measurable, fun e chi h => concrete_good (hok p hp) e chi h⟩
  have hcor := concrete_corners parts bars
  rw [← hsol] at hcor
  rw [← hcor] at hlim hflat hgov
  have hne := concrete_ne hok
  rw [← hsol] at hne
  obtain ⟨C, hC, hmain⟩ := C66_strength_partial split solids bars ms th lu hid hd hgood hlim hflat hbal
  refine ⟨C, hC, fun n ops b hops hrun => ?_⟩
  obtain ⟨h1, h2, h3, h4, h5⟩ := hmain n ops b hops hrun
  have hadm := h4 hgov
  have hadm' : (concreteSection parts bars).Admissible ![b.eps_a, b.chi.1, b.chi.2] :=
    (concrete_admissible parts bars _).1 hadm
  refine ⟨h1, (concrete_forces bars hok hadm').symm.trans h2, ?_, hadm', ?_⟩
  · obtain ⟨c, hc, h⟩ := h3
    exact ⟨c, hcor ▸ hc, h⟩
  · -- the two end planes are admissible too
    have hb : balancedFailure (sectionParts solids bars (-th)) (solids.any Solid.concrete) false = .ok (yn, yp, st) := hbal
    have hend : ∀ y0, y0 = yp ∨ y0 = yn →
        (concreteSection parts bars).Admissible (planeThrough th y0 (planeStrain st 0 y0) (-1e-13)) := by
      intro y0 hy0
      rw [← concrete_admissible, ← hsol]
      exact search_admissible hne hlim hb hgov hy0 (steep_balanced hne hlim hflat hb) (by norm_num)
    rw [← concrete_forces bars hok (hend yn (Or.inr rfl)), ← concrete_forces bars hok (hend yp (Or.inl rfl))]
    exact h5

end SC
