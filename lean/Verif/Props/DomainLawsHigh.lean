import Verif.Props.DomainLawsExample
import Verif.Props.PolyDesign

/-! # C88: interaction domains of sections of high-strength concrete -/

set_option autoImplicit false

namespace SC

open Spec MeasureTheory

/-- The ten straight pieces that stand for a parabola with an exponent other than two. -/
theorem parabola_pieces {fc e0 u n : ℝ} (h0 : 0 < |e0|) (hu0 : |e0| ≤ |u|) (hu : 2e-5 ≤ |u|) (hn : 1 ≤ n) :
    Pieces (ParabolaRectangle.new fc e0 u n).stress (ParabolaRectangle.new fc e0 u n).ult (parabolaRectangle |fc| |e0| n) |u| |fc|
      (n * |fc| / |e0|) (chordError fc e0 u n) := by
  have hpos : 0 < |u| := by linarith
  refine ⟨rfl, C08_parabola_rectangle fc e0 u n h0 hu0 (by linarith) (by linarith),
    (C09_parabola_rectangle fc e0 u n h0 hu0 (by linarith) (by linarith)).2, ?_, measurable_parabolaRectangle |fc| |e0| n,
    fun e _ => parabolaRectangle_bounds (abs_nonneg fc) h0 (by linarith) e, fun e he => parabolaRectangle_tension h0.le he, ?_, ?_⟩
  · intro i hi
    rw [parabola_node h0 hn hu i (by omega), parabola_node h0 hn hu (i + 1) (by omega)]
    have := parabola_steps (fc := fc) (u := u) h0 hn (tenth_mem hpos (show i ≤ 10 by omega)).1 (tenth_lt hpos (Nat.lt_succ_self i)).le
      (tenth_mem hpos (show i + 1 ≤ 10 by omega)).2
    rw [abs_of_nonneg (sub_nonneg.2 this.1)]
    refine this.2.trans_eq ?_
    rw [tenth_succ]; ring
  · have e1 := parabola_node (fc := fc) h0 hn hu 0 (by norm_num)
    rwa [tenth_zero] at e1
  · intro e he
    obtain ⟨h1, h2⟩ := parabola_polygon (fc := fc) h0 hn hu he
    rw [abs_of_nonneg h1]
    exact h2

theorem high_gap {f : ℝ} (h1 : 50 < f) (h2 : f ≤ 89) : plateauStrain f + 2e-6 ≤ crushingStrain f := by
  have a0 : (0:ℝ) ≤ (90 - f) / 100 := by linarith
  have p0 : 0 ≤ ((90 - f) / 100) ^ 4 := by positivity
  have r1 : (f - 50) ^ (0.53:ℝ) ≤ 7 := by
    have hle : (f - 50) ^ (0.53:ℝ) ≤ (39:ℝ) ^ (0.53:ℝ) := Real.rpow_le_rpow (by linarith) (by linarith) (by norm_num)
    refine hle.trans ?_
    have : (39:ℝ) ^ (0.53:ℝ) = ((39:ℝ) ^ (53:ℕ)) ^ ((1:ℝ) / 100) := by
      rw [← Real.rpow_natCast, ← Real.rpow_mul (by norm_num)]; norm_num
    rw [this]
    have h7 : (7:ℝ) = ((7:ℝ) ^ (100:ℕ)) ^ ((1:ℝ) / 100) := by
      rw [← Real.rpow_natCast, ← Real.rpow_mul (by norm_num)]; norm_num
    conv_rhs => rw [h7]
    exact Real.rpow_le_rpow (by positivity) (by norm_num) (by norm_num)
  unfold plateauStrain crushingStrain
  norm_num at *
  linarith

section Design

variable {lower : String → String}

/-- **C88** (design, concrete above C50). From the arguments of the material constructors and the geometry, for concrete above C50 and
up to 89 MPa with its parabola-rectangle diagram, which has an exponent below two: the points of the domain are those of the exact
diagram up to `A` (times the distance, for the moment). Partial: see `C88_pieces_partial`. -/
theorem C88_high_strength_design_partial (hl : PyLower lower) (ccls : ConcClass) (hcls : ccls ≠ .ec2_2023) (ca : ConcArgs)
    (c : Built Conc) (hc : newConcrete lower ccls ca = some (.ok c)) (hcn : ca.law = .name "parabolarectangle")
    (hci : ca.initialStrain = none ∧ ca.initialStress = none) (hce : ca.eps_c2 = none ∧ ca.eps_cu2 = none ∧ ca.n = none)
    (hcf : 50 < |ca.fck| ∧ |ca.fck| ≤ 89)
    (scls : SteelClass) (sa : SteelArgs) (s : Built Steel)
    (hs : newSteel lower scls sa = some (.ok s)) (hsn : sa.law = .name "elasticperfectlyplastic")
    (hsi : sa.initialStrain = none ∧ sa.initialStress = none)
    (hgap : designYield sa + 1e-6 + 1e-5 * designUltimate scls sa ≤ designUltimate scls sa) (hey : 1e-4 ≤ designYield sa)
    (heu : 0.0035 ≤ designUltimate scls sa ∧ designUltimate scls sa ≤ 0.09)
    (split : Polygon → ℝ → ℝ → ShapelyResult) (ms th : ℝ) (lu : Matrix (Fin 3) (Fin 3) ℝ → (Fin 3 → ℝ) → (Fin 3 → ℝ))
    (shapes : List (Polygon × Set (ℝ × ℝ))) (bars : List Bar) (id : ℕ) (hbars : ∀ b ∈ bars, b.law = ⟨id, s.mat.law⟩)
    (henc : ∀ p ∈ shapes, Encloses p.1.ext p.1.ints p.2) (hull : ∀ p ∈ shapes, p.2 ⊆ convexHull ℝ {v | v ∈ p.1.ext})
    (hcut : CutsExactly split th shapes) {A fc e0 u k lo hi lo' hi' : ℝ}
    (hfc : fc = designConcrete ccls ca) (hfc0 : 0 < fc) (he0 : e0 = plateauStrain |ca.fck|) (hu : u = crushingStrain |ca.fck|)
    (hk : k = parabolaExponent |ca.fck|) (hA : A = k * fc / e0 * u / 40 * grossArea shapes)
    (hdir : RCSide th (e0 / u) shapes (bars.map fun b => (b.x, b.y)) lo hi) (complete : Bool)
    (hdir' : complete = true → RCSide (th + Real.pi) (e0 / u) shapes (bars.map fun b => (b.x, b.y)) lo' hi')
    (num : Fin 6 → ℤ) (ty : Fin 6 → Spacing) (ha : ProfileArgs num ty)
    {T : CrossSection} (hT : T = plateSection shapes bars (parabolaRectangle fc e0 k) u)
    {E : Engine} (hE : E = sectionEngine split ((parabolaParts fc e0 u k shapes).map PolyPart.solid) bars ms)
    (ops : List Op) (hops : Undisturbed E lu ops .fresh) :
    c.mat.law = (ParabolaRectangle.new fc e0 u k).law ∧
    (∀ p ∈ parabolaParts fc e0 u k shapes, ∀ a b, (ParabolaRectangle.new fc e0 u k).marinAny a b = .ok (p.law.marin a b)) ∧
    ∃ planes labels, ∃ points : List (Fin 3 → ℝ),
      nmProfiles E.balanced (sectionMinY (shapes.map Prod.fst)) true th num ty complete = .ok (planes, labels) ∧
      (nmDomain E ((nmProfiles E.balanced (sectionMinY (shapes.map Prod.fst)) true th num ty complete).map Prod.fst)
        (history E lu ops .fresh)).2 = .ok (points.map .forces) ∧
      planes.length = (∑ i, num i).toNat + (if complete then (∑ i, num i).toNat - 2 else 0) ∧
      List.Forall₂ (fun v r => T.Admissible v ∧ |r 0 - T.forces v 0| ≤ A ∧
        ∀ a R, (∀ p ∈ shapes, ∀ x ∈ p.2, |height a x| ≤ R) → |bendingMoment a r - bendingMoment a (T.forces v)| ≤ R * A) planes points ∧
      (∀ q ∈ planes.zip labels, q.2 ≤ 5 → T.AtLimit q.1) ∧
      (ty 0 = .linear → 1 ≤ num 0 → planes.head? = some ![designUltimate scls sa, 0, 0]) ∧
      (complete = false → planes.getLast? = some ![-e0, 0, 0]) := by
  obtain ⟨r1, r2, r3, r4, r5, r6⟩ := high_ranges hcf.1 hcf.2
  have r7 := high_gap hcf.1 hcf.2
  rw [← he0] at r1 r2
  rw [← hu] at r2 r3 r4
  rw [← hk] at r5 r6
  rw [← hu, ← he0] at r7
  have q1 : 0 < e0 := by norm_num at *; linarith
  have q2 : 0 < u := by norm_num at *; linarith
  have a1 : |fc| = fc := abs_of_pos hfc0
  have a2 : |e0| = e0 := abs_of_pos q1
  have a3 : |u| = u := abs_of_pos q2
  have hk1 : 1 ≤ k := by norm_num at *; linarith
  have hu2 : 2e-5 ≤ |u| := by rw [a3]; norm_num at *; linarith
  refine ⟨?_, fun p hp a b => parabola_marin hfc0.ne' (by rw [a2]; exact q1) (by rw [a2, a3]; exact r2) hu2 hk1 r6.ne hp a b, ?_⟩
  · rw [C84_concrete hl ccls hcls ca c hc hcn hci.1 hci.2 hce.1 hce.2.1 hce.2.2 hcf.1, hfc, he0, hu, hk]
  have hce' : chordError fc e0 u k = k * fc / e0 * u / 40 := by rw [chordError, a1, a2, a3]
  have hP := parabola_pieces (fc := fc) (e0 := e0) (u := u) (n := k) (by rw [a2]; exact q1) (by rw [a2, a3]; exact r2) hu2 hk1
  rw [a1, a2, a3, hce'] at hP
  have hS := design_strains hl scls sa s hs hsn hsi hgap hey heu hbars (e0 := e0) (u := u) ⟨by norm_num at *; linarith, r4⟩
    ⟨by norm_num at *; linarith, r7⟩
  obtain ⟨planes, labels, h1, h2, h3, h4, h5, h6⟩ := C88_pieces_partial (ms := ms) lu hP (e0 := e0) (by
      show ((-|e0|, 100) : ℝ × ℝ) = _
      rw [a2]) hS henc hull hcut hdir complete hdir' ha (E := E) (by
      rw [hE, parabolaParts, softParts, a3]) rfl (T := T) hT ops hops
  refine ⟨planes, labels, planes.map (plateSection shapes bars (polygonal (ParabolaRectangle.new fc e0 u k).stress u) u).forces,
    h1, ?_, h3, ?_, h5, h6⟩
  · rw [h2, List.map_map]; rfl
  · rw [List.forall₂_map_right_iff, List.forall₂_same]
    intro v hv
    have := h4 v hv
    rw [← hA] at this
    exact this

end Design

namespace OrdinaryBeam

variable {lower : String → String}

/-- C60 and B500: the complete domain of the beam has 68 points and begins with uniform tension at the rupture strain. -/
example (hl : PyLower lower) (ccls : ConcClass) (hcls : ccls ≠ .ec2_2023) (scls : SteelClass) :
    ∃ c s, newConcrete lower ccls (defaultArgs 60) = some (.ok c) ∧ newSteel lower scls sargs = some (.ok s) ∧
    ∃ E : Engine, E = sectionEngine RCBeam.split ((parabolaParts (designConcrete ccls (defaultArgs 60))
      (plateauStrain 60) (crushingStrain 60) (parabolaExponent 60) shapes).map PolyPart.solid) (bars s.mat.law) 0.01 ∧
    ∃ planes labels, ∃ points : List (Fin 3 → ℝ), nmProfiles E.balanced (sectionMinY (shapes.map Prod.fst)) true 0 defaultNum
        ![.linear, .linear, .geometric, .linear, .linear, .linear] true = .ok (planes, labels) ∧ planes.length = 68 ∧
      planes.head? = some ![designUltimate scls sargs, 0, 0] ∧
      (nmDomain E ((nmProfiles E.balanced (sectionMinY (shapes.map Prod.fst)) true 0 defaultNum
        ![.linear, .linear, .geometric, .linear, .linear, .linear] true).map Prod.fst) .fresh).2 = .ok (points.map .forces) ∧
      List.Forall₂ (fun v r => |r 0 - (plateSection shapes (bars s.mat.law) (parabolaRectangle (designConcrete ccls (defaultArgs 60))
        (plateauStrain 60) (parabolaExponent 60)) (crushingStrain 60)).forces v 0| ≤ 0.1 * 40 * 150000) planes points := by
  obtain ⟨-, s, -, hs⟩ := accepted hl ccls scls
  obtain ⟨c, hc⟩ := (C47_accepts hl ccls hcls (defaultArgs 60) rfl rfl rfl).2 (by simp [Inconsistent, defaultArgs])
  refine ⟨c, s, hc, hs, _, rfl, ?_⟩
  have hu := ultimate_range scls
  have hy := yield_range
  have h60 : |(defaultArgs 60).fck| = 60 := abs_of_pos (by norm_num [defaultArgs])
  obtain ⟨r1, r2, r3, r4, r5, r6⟩ := high_ranges (f := 60) (by norm_num) (by norm_num)
  have hfc : designConcrete ccls (defaultArgs 60) = 40 := by
    cases ccls
    · simp [designConcrete, defaultArgs, factor]; norm_num
    · simp [designConcrete, defaultArgs, factor]; norm_num
    · exact absurd rfl hcls
  have k1 : parabolaExponent 60 * 40 / plateauStrain 60 ≤ 40000 := by
    rw [div_le_iff₀ (by norm_num at *; linarith)]
    norm_num at *
    nlinarith
  have herr : parabolaExponent 60 * 40 / plateauStrain 60 * crushingStrain 60 / 40 ≤ 0.1 * 40 := by
    have : parabolaExponent 60 * 40 / plateauStrain 60 * crushingStrain 60 ≤ 40000 * 0.0035 :=
      mul_le_mul k1 r4 (by norm_num at *; linarith) (by norm_num)
    norm_num at *
    linarith
  have hr : 0.2 ≤ plateauStrain 60 / crushingStrain 60 := by
    rw [le_div_iff₀ (by norm_num at *; linarith)]; norm_num at *; linarith
  obtain ⟨-, -, planes, labels, points, h1, h2, h3, h4, -, h5, -⟩ := C88_high_strength_design_partial hl ccls hcls (defaultArgs 60) c hc rfl
    ⟨rfl, rfl⟩ ⟨rfl, rfl, rfl⟩ (by rw [h60]; norm_num) scls sargs s hs rfl ⟨rfl, rfl⟩ (gap scls) (by norm_num at *; linarith)
    ⟨by norm_num at *; linarith [hu.1], by norm_num at *; linarith [hu.2]⟩ RCBeam.split 0.01 0 (fun _ _ => 0) shapes (bars s.mat.law) 1
    (one_steel _) shapes_enclosed shapes_hull cuts rfl (by rw [hfc]; norm_num) rfl rfl rfl rfl
    (by rw [h60]; simpa using side s.mat.law true hr) true (fun _ => by rw [h60]; simpa using side s.mat.law false hr)
    defaultNum ![.linear, .linear, .geometric, .linear, .linear, .linear] default_args rfl rfl [] trivial
  rw [h60] at h1 h2 h4
  refine ⟨planes, labels, points, h1, ?_, h5 rfl (by simp [defaultNum]), h2, h4.imp fun v r h => h.2.1.trans ?_⟩
  · rw [h3]
    simp [Fin.sum_univ_succ, defaultNum]
  · rw [gross_shapes, hfc]
    exact mul_le_mul_of_nonneg_right herr (by norm_num)

end OrdinaryBeam

end SC
