import Verif.Props.AnyLawCurvature
import Verif.Props.SarginExample

/-! # C87: moment–curvature diagrams with the concrete laws of the library -/

set_option autoImplicit false

namespace SC

open Spec MeasureTheory

/-! ### The laws crush -/

theorem bilinear_crushes {fc ec u : ℝ} {l : Bilinear} (hl : Bilinear.new? fc ec (some u) = .ok l) (hfc : fc ≠ 0) : Crushes l.core := by
  refine ⟨fun s => (bilinear_core_range hl s).2, fun s hs h t ht => ?_⟩
  obtain ⟨h0, rfl⟩ := bilinear_new hl
  have hu : s < -|u| := by
    by_contra hc
    push Not at hc
    rw [bilinear_spec hl hc, bilinearDiagram] at h
    have h1 : 0 < |ec| := abs_pos.2 h0
    have h2 : 0 < |fc| := abs_pos.2 hfc
    have h3 : 0 < min (max (-s) 0) |ec| := lt_min (lt_max_of_lt_left (by linarith)) h1
    have := mul_pos h2 (div_pos h3 h1)
    linarith
  simp only [Bilinear.core]
  rw [if_pos (Or.inr (by linarith))]

theorem parabola_crushes {fc e0 u : ℝ} (hfc : fc ≠ 0) (h0 : 0 < |e0|) (hu0 : |e0| ≤ |u|) :
    Crushes (ParabolaRectangle.new fc e0 u 2).core := by
  have h2 : 0 < |fc| := abs_pos.2 hfc
  have hval : ∀ s, -|e0| ≤ s → s ≤ 0 → (1 - s / -|e0|) ^ (2:ℝ) ≤ 1 ∧ (s < 0 → (1 - s / -|e0|) ^ (2:ℝ) < 1) := by
    intro s h3 h4
    have e : s / -|e0| = -s / |e0| := by rw [div_neg, neg_div]
    have h5 : 0 ≤ -s / |e0| := div_nonneg (by linarith) h0.le
    have h6 : -s / |e0| ≤ 1 := (div_le_one h0).2 (by linarith)
    rw [e, Real.rpow_two]
    refine ⟨by nlinarith, fun h7 => ?_⟩
    have h8 : 0 < -s / |e0| := div_pos (by linarith) h0
    nlinarith
  constructor
  · intro s
    simp only [ParabolaRectangle.core]
    split_ifs with a b
    · linarith
    · nlinarith [(hval s b.1 b.2).1]
    · exact le_rfl
  · intro s hs h t ht
    have hu : s < -|u| := by
      by_contra hc
      push Not at hc
      simp only [ParabolaRectangle.core] at h
      split_ifs at h with a b
      · linarith
      · have := (hval s b.1 b.2).2 hs
        nlinarith
      · rcases lt_or_ge s (-|e0|) with h' | h'
        · exact a ⟨hc, h'⟩
        · exact b ⟨h', hs.le⟩
    simp only [ParabolaRectangle.core]
    rw [if_neg (fun h' => by linarith [h'.1]), if_neg (fun h' => by linarith [h'.1])]

theorem polygonal_crushes {stress : ℝ → ℝ} {u fc : ℝ} (hu : 0 < u) (hc : CompressionOnly stress fc u) (h0 : stress 0 = 0)
    (hneg : ∀ i < 10, stress (tenth u i) < 0) : Crushes (polygonal stress u) := by
  refine ⟨fun s => (polygonal_bounded hu hc s).2, fun s hs h t ht => ?_⟩
  have hout : s < -u := by
    by_contra hcon
    push Not at hcon
    obtain ⟨i, hi, t, t0, t1, rfl⟩ := tenth_cover hu hcon hs.le
    rw [polygonal_chord stress hu i hi t t0 t1] at h
    have h1 := hneg i hi
    have h2 : stress (tenth u (i + 1)) ≤ 0 := (hc.bounded _).2
    have h3 : t = 1 := by
      by_contra hne
      have : 0 < 1 - t := by
        rcases t1.lt_or_eq with h | h
        · linarith
        · exact absurd h hne
      nlinarith [mul_nonneg t0 (neg_nonneg.2 h2)]
    subst h3
    rcases Nat.lt_or_ge (i + 1) 10 with h4 | h4
    · have := hneg (i + 1) h4
      linarith
    · have h5 : i + 1 = 10 := by omega
      have h6 := tenth_ten u
      rw [← h5, tenth_succ] at h6
      linarith
  exact polygonal_outside stress hu (.inl (by linarith))

/-! ### Diagrams -/

section Diagrams

variable {split : Polygon → ℝ → ℝ → ShapelyResult} {shapes : List (Polygon × Set (ℝ × ℝ))} {bars : List Bar} {th : ℝ}

/-- **C87** (bilinear law, given curvatures). Each point of the diagram is in equilibrium in the sense of `DiagramPoint`, for every axial
force, zero included, and all curvatures, zero included; in a plane within the limits the forces are those of the bilinear design diagram.
Partial: the last two cases of `DiagramPoint.balance`; those driven away, and those in which the search met the force exactly. -/
theorem C87_bilinear_partial (ms : ℝ) (lu : Matrix (Fin 3) (Fin 3) ℝ → (Fin 3 → ℝ) → (Fin 3 → ℝ)) {fc ec u : ℝ} {l : Bilinear}
    (hl : Bilinear.new? fc ec (some u) = .ok l) (hu0 : |ec| ≤ |u|) (hne : shapes ≠ [])
    (henc : ∀ p ∈ shapes, Encloses p.1.ext p.1.ints p.2) (hull : ∀ p ∈ shapes, p.2 ⊆ convexHull ℝ {v | v ∈ p.1.ext})
    (hdown : ∀ p ∈ shapes,
      SplitsExactly split ((p.1.rotate (-th)).rotate (-Real.pi)) (rotPt (-Real.pi) '' (rotPt (-th) '' p.2)))
    (hid : SameIds (bars.map Bar.law)) (hd : EqualSizes (groupBars bars)) (chis : List ℝ)
    (hup : (∃ c ∈ chis, 0 < c) → ∀ p ∈ shapes, SplitsExactly split (p.1.rotate (-th)) (rotPt (-th) '' p.2))
    {E : Engine} (hE : E = sectionEngine split (bilinearSolids l shapes) bars ms)
    {S T : CrossSection} (hS : S = plateSection shapes bars l.core |u|) (hT : T = plateSection shapes bars (bilinearDiagram |fc| |ec|) |u|)
    (n c : ℝ) (a b : ℕ) (ops : List Op) (pts : List MCPoint) (hops : Undisturbed E lu ops .fresh)
    (hrun : (momentCurvature E th n c a b (some chis) (history E lu ops .fresh)).2 = .ok pts) :
    List.Forall₂ (DiagramPoint S (-|u|, 100) th n) chis ((0 :: pts.map Prod.fst).zip pts) ∧
    ∀ e, T.Admissible e → S.forces e = T.forces e := by
  subst hE hS hT
  constructor
  · have := law_diagram (concrete := true) (ult := l.ult) ms lu (bilinear_exact hl hu0) hne henc hdown hid hd chis hup n c a b ops pts hops hrun
    change List.Forall₂ (DiagramPoint (crossSection (bilinearSolids l shapes) bars) _ _ _) _ _ at this
    rw [bilinear_section] at this
    have h2 : -l.eps_cu = |u| := by rw [(bilinear_new hl).2]; simp
    rwa [h2] at this
  · intro e he
    refine plate_congr henc hull (fun x hx => bilinear_spec hl hx) ((plate_admissible _ _ e).1 he)

/-- **C87** (laws replaced by ten straight pieces: Sargin's, Popovics', the parabola with an exponent other than two; given curvatures).
As `C87_bilinear_partial`; in a plane within the limits the forces are within `d` times the area (times the distance) of those of the
exact diagram `g`. -/
theorem C87_pieces_partial (ms : ℝ) (lu : Matrix (Fin 3) (Fin 3) ℝ → (Fin 3 → ℝ) → (Fin 3 → ℝ)) {stress : ℝ → ℝ} {ult : Bool → ℝ × ℝ}
    {g : ℝ → ℝ} {u fc Lc d : ℝ} (h : Pieces stress ult g u fc Lc d) (hu : 1e-3 ≤ u) (hne : shapes ≠ [])
    (henc : ∀ p ∈ shapes, Encloses p.1.ext p.1.ints p.2) (hull : ∀ p ∈ shapes, p.2 ⊆ convexHull ℝ {v | v ∈ p.1.ext})
    (hdown : ∀ p ∈ shapes,
      SplitsExactly split ((p.1.rotate (-th)).rotate (-Real.pi)) (rotPt (-Real.pi) '' (rotPt (-th) '' p.2)))
    (hid : SameIds (bars.map Bar.law)) (hd : EqualSizes (groupBars bars)) (chis : List ℝ)
    (hup : (∃ c ∈ chis, 0 < c) → ∀ p ∈ shapes, SplitsExactly split (p.1.rotate (-th)) (rotPt (-th) '' p.2))
    {E : Engine} (hE : E = sectionEngine split ((softParts stress ult u shapes).map PolyPart.solid) bars ms)
    {S T : CrossSection} (hS : S = plateSection shapes bars (polygonal stress u) u) (hT : T = plateSection shapes bars g u)
    (n c : ℝ) (a b : ℕ) (ops : List Op) (pts : List MCPoint) (hops : Undisturbed E lu ops .fresh)
    (hrun : (momentCurvature E th n c a b (some chis) (history E lu ops .fresh)).2 = .ok pts) :
    List.Forall₂ (DiagramPoint S (-u, 0) th n) chis ((0 :: pts.map Prod.fst).zip pts) ∧
    ∀ e, T.Admissible e → |S.forces e 0 - T.forces e 0| ≤ d * grossArea shapes ∧
      ∀ th R, (∀ p ∈ shapes, ∀ x ∈ p.2, |height th x| ≤ R) →
        |bendingMoment th (S.forces e) - bendingMoment th (T.forces e)| ≤ R * (d * grossArea shapes) := by
  subst hE hS hT
  constructor
  · have hs : (softParts stress ult u shapes).map PolyPart.solid = lawSolids (UserDefined.mk (nodes stress u) (-u) 0).marin
        (UserDefined.mk (nodes stress u) (-u) 0).marinT (polygonal stress u) true ult shapes := by
      simp only [softParts, lawSolids, List.map_map, Function.comp_def]
      rfl
    rw [← soft_section h.limits]
    rw [hs] at hops hrun ⊢
    exact law_diagram ms lu (polygonal_exact stress (le_trans (by norm_num) hu)) hne henc hdown hid hd chis hup n c a b ops pts hops hrun
  · intro e he
    have hpos : 0 < u := lt_of_lt_of_le (by norm_num) hu
    have hcl : Measurable fun e : ℝ => max e (-u) := measurable_id.max measurable_const
    have hae : (plateSection shapes bars (polygonal stress u) u).Admissible e := (plate_admissible _ _ e).1 he
    obtain ⟨c1, -, c3⟩ := plate_near (bars := bars) (g := fun e => g (max e (-u))) (δ := d) (measurable_polygonal stress u)
      (h.measurable.comp hcl) (polygonal_bounded hpos h.compression) (fun e => h.bounds _ (le_max_right _ _)) henc hull
      (fun x hx => by simpa only [max_eq_left hx] using h.near x hx) hae
    have e1 := plate_congr (bars := bars) (f := fun e => g (max e (-u))) (g := g) henc hull (fun x hx => by simp only [max_eq_left hx])
      ((plate_admissible _ _ e).1 he)
    rw [e1] at c1 c3
    exact ⟨c1, c3⟩

/-- **C70** (given curvatures, zero included), for one concrete with the parabola-rectangle law of exponent two. As
`C87_bilinear_partial`. -/
theorem C70_zero_partial (ms : ℝ) (lu : Matrix (Fin 3) (Fin 3) ℝ → (Fin 3 → ℝ) → (Fin 3 → ℝ)) {fc e0 u : ℝ}
    (h0 : 0 < |e0|) (hu0 : |e0| ≤ |u|) (hne : shapes ≠ [])
    (henc : ∀ p ∈ shapes, Encloses p.1.ext p.1.ints p.2) (hull : ∀ p ∈ shapes, p.2 ⊆ convexHull ℝ {v | v ∈ p.1.ext})
    (hdown : ∀ p ∈ shapes,
      SplitsExactly split ((p.1.rotate (-th)).rotate (-Real.pi)) (rotPt (-Real.pi) '' (rotPt (-th) '' p.2)))
    (hid : SameIds (bars.map Bar.law)) (hd : EqualSizes (groupBars bars)) (chis : List ℝ)
    (hup : (∃ c ∈ chis, 0 < c) → ∀ p ∈ shapes, SplitsExactly split (p.1.rotate (-th)) (rotPt (-th) '' p.2))
    {E : Engine} (hE : E = sectionEngine split ((shapes.map fun s => ⟨s.1, s.2, fc, e0, u⟩).map ConcretePart.solid) bars ms)
    {S T : CrossSection} (hS : S = plateSection shapes bars (ParabolaRectangle.new fc e0 u 2).core |u|)
    (hT : T = plateSection shapes bars (parabolaRectangle |fc| |e0| 2) |u|)
    (n c : ℝ) (a b : ℕ) (ops : List Op) (pts : List MCPoint) (hops : Undisturbed E lu ops .fresh)
    (hrun : (momentCurvature E th n c a b (some chis) (history E lu ops .fresh)).2 = .ok pts) :
    List.Forall₂ (DiagramPoint S (-|u|, 100) th n) chis ((0 :: pts.map Prod.fst).zip pts) ∧
    ∀ e, T.Admissible e → S.forces e = T.forces e := by
  subst hE hS hT
  constructor
  · have hs : (shapes.map fun s => (⟨s.1, s.2, fc, e0, u⟩ : ConcretePart)).map ConcretePart.solid =
        lawSolids (ParabolaRectangle.new fc e0 u 2).marin (ParabolaRectangle.new fc e0 u 2).marinT (ParabolaRectangle.new fc e0 u 2).core
          true (ParabolaRectangle.new fc e0 u 2).ult shapes := by
      simp only [lawSolids, List.map_map, Function.comp_def]
      rfl
    have hsec : plateSection shapes bars (ParabolaRectangle.new fc e0 u 2).core |u| = crossSection (lawSolids
        (ParabolaRectangle.new fc e0 u 2).marin (ParabolaRectangle.new fc e0 u 2).marinT (ParabolaRectangle.new fc e0 u 2).core
          true (ParabolaRectangle.new fc e0 u 2).ult shapes) bars := by
      simp only [crossSection, plateSection, lawSolids, List.map_map, Function.comp_def]
      rfl
    rw [hsec]
    rw [hs] at hops hrun
    exact law_diagram ms lu (parabola_exact fc e0 u h0 hu0) hne henc hdown hid hd chis hup n c a b ops pts hops hrun
  · intro e he
    refine plate_congr henc hull (fun x hx => parabola_spec fc e0 u 2 h0 (by norm_num) hx) ((plate_admissible _ _ e).1 he)

/-- **C87** (default curvatures), for one material whose law the Marin integrator integrates exactly (`bilinear_exact`, `parabola_exact`,
`polygonal_exact`): the diagram goes from the first curvature through the yield curvature to the curvature of
`calculate_bending_strength`, and each point is in equilibrium in the sense of `DiagramPoint`, for every axial force, zero included; for
all but countably many axial forces, each of which acts in some state that is not broken, the third case does not occur.
Partial: see `C87_bilinear_partial`. -/
theorem C87_default_partial (ms : ℝ) (lu : Matrix (Fin 3) (Fin 3) ℝ → (Fin 3 → ℝ) → (Fin 3 → ℝ)) {M MT : ℝ → ℝ → MarinOut × ℝ}
    {f : ℝ → ℝ} {lim : ℝ × ℝ} {concrete : Bool} {ult : Bool → ℝ × ℝ} (hlaw : Exact M MT f lim)
    (henc : ∀ p ∈ shapes, Encloses p.1.ext p.1.ints p.2)
    (hdown : ∀ p ∈ shapes,
      SplitsExactly split ((p.1.rotate (-th)).rotate (-Real.pi)) (rotPt (-Real.pi) '' (rotPt (-th) '' p.2)))
    (hid : SameIds (bars.map Bar.law)) (hd : EqualSizes (groupBars bars)) {yn yp yn' yp' : ℝ} {st sty : Fin 3 → ℝ}
    {E : Engine} (hE : E = sectionEngine split (lawSolids M MT f concrete ult shapes) bars ms)
    {S : CrossSection} (hS : S = crossSection (lawSolids M MT f concrete ult shapes) bars)
    (hbal : E.balanced (-th) false = .ok (yn, yp, st)) (hbaly : E.balanced (-th) true = .ok (yn', yp', sty))
    (hst : st 1 ≤ -1e-13) (hsty : sty 1 ≤ -1e-13) (cf : ℝ) (hcf : cf ≠ 0) (a b : ℕ) (ha : 2 ≤ a) (hb : 1 ≤ b) :
    ∃ C : Set ℝ, C.Countable ∧
      (∀ n ∈ C, ∃ e c, S.forces ![e, c * Real.cos th, c * Real.sin th] 0 = n ∧
        ∀ u, S.Tied th c u → ¬ S.Broken ![e, c * Real.cos th, c * Real.sin th]) ∧
      ∀ n (ops : List Op) (pts : List MCPoint), Undisturbed E lu ops .fresh →
      (momentCurvature E th n cf a b none (history E lu ops .fresh)).2 = .ok pts →
      ∃ cy < 0, ∃ cu < 0, AtPivot yn' yp' sty cy ∧ AtPivot yn yp st cu ∧
        (∀ (ops' : List Op) (r : BendingResult), Undisturbed E lu ops' .fresh →
          (bendingStrength E th n (history E lu ops' .fresh)).2 = .ok r → r.chi = (cu * Real.cos th, cu * Real.sin th)) ∧
        ∃ chis : List ℝ, DefaultCurvatures chis a b cy cu ∧
          List.Forall₂ (DiagramPoint S lim th n) chis ((0 :: pts.map Prod.fst).zip pts) ∧
          (n ∉ C → ∀ q ∈ (0 :: pts.map Prod.fst).zip pts, |S.forces q.2.plane 0 - n| ≤ 1e-2 ∨ DrivenAway S n q.2 q.1) := by
  subst hE hS
  obtain ⟨K, hK, h⟩ := law_default (ult := ult) (concrete := concrete) ms lu hlaw henc hdown hid hd hbal hbaly hst hsty cf hcf a b ha hb
  refine ⟨metWorking (crossSection (lawSolids M MT f concrete ult shapes) bars) lim th K, metWorking_countable _ lim th hK, ?_, ?_⟩
  · rintro n ⟨x, -, c, -, h1, h2⟩
    exact ⟨heldStrain lim c x, c, h1, h2⟩
  intro n ops pts hops hrun
  obtain ⟨cy, hy, cu, hu, p1, p2, h1, chis, hchis, hcK, hpts⟩ := h n ops pts hops hrun
  refine ⟨cy, hy, cu, hu, p1, p2, h1, chis, hchis, hpts, fun hn q hq => ?_⟩
  obtain ⟨c, hc, hcq⟩ : ∃ c ∈ chis, DiagramPoint (crossSection (lawSolids M MT f concrete ult shapes) bars) lim th n c q := by
    clear hchis hcK h hrun
    generalize (0 :: pts.map Prod.fst).zip pts = qs at hpts hq
    induction hpts with
    | nil => simp at hq
    | @cons c q' cs qs hq' hqs ih =>
      rcases List.mem_cons.1 hq with rfl | hq
      · exact ⟨c, by simp, hq'⟩
      · obtain ⟨c', hc', h⟩ := ih hq
        exact ⟨c', by simp [hc'], h⟩
  have hc0 : c ≠ 0 := (hchis.negative c hc).ne
  have hw := hcq.working (hcK c hc) hn
  have hpl : q.2.plane = ![q.2.1, c * Real.cos th, c * Real.sin th] := by
    simp only [MCPoint.plane, hcq.curvature]
  simp only [bentPlane_curved lim th hc0] at hw
  rw [hpl]
  refine hw.imp id ?_
  rintro ⟨x, hx⟩
  refine ⟨x, ?_⟩
  simp only [hcq.curvature]
  exact hx

end Diagrams

end SC
