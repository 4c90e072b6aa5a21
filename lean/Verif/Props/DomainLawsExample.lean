import Verif.Props.DomainLawsDesign
import Verif.Props.SarginExample

/-! # C88: examples -/

set_option autoImplicit false

namespace SC

open Spec MeasureTheory

namespace OrdinaryBeam

variable {lower : String → String}

/-- Both faces of the beam, for a pivot not a tenth of the depth above the bottom. -/
theorem side (L : Law) (up : Bool) {r : ℝ} (hr : 0.2 ≤ r) :
    RCSide (if up then 0 else 0 + Real.pi) r shapes ((bars L).map fun b => (b.x, b.y)) (-250) 250 := by
  obtain ⟨a1, a2, a3, a4, a5, a6, a7, -⟩ := direction L up
  refine ⟨a1, a2, a3, a4, a5, a6, a7, fun b hb hmin => ?_⟩
  have hlow : height (if up then 0 else 0 + Real.pi) b ≤ -200 := by
    cases up
    · refine (hmin (-110, 200) (by simp [bars, bar])).trans ?_
      simp [height]
    · refine (hmin (-110, -200) (by simp [bars, bar])).trans ?_
      simp [height]
  intro h
  rw [h] at hlow
  norm_num at *
  linarith

/-- C30 with the bilinear diagram and B500: the complete domain of the beam has 68 points, the forces of its planes. -/
example (hl : PyLower lower) (ccls : ConcClass) (hcls : ccls ≠ .ec2_2023) (scls : SteelClass) :
    ∃ c s, newConcrete lower ccls bilinearArgs = some (.ok c) ∧ newSteel lower scls sargs = some (.ok s) ∧
    ∃ E : Engine, E = sectionEngine RCBeam.split (bilinearSolids ⟨-20, -0.00175, -0.0035⟩ shapes) (bars s.mat.law) 0.01 ∧
    ∃ planes labels, nmProfiles E.balanced (sectionMinY (shapes.map Prod.fst)) true 0 defaultNum
        ![.linear, .linear, .geometric, .linear, .linear, .linear] true = .ok (planes, labels) ∧ planes.length = 68 ∧
      (nmDomain E ((nmProfiles E.balanced (sectionMinY (shapes.map Prod.fst)) true 0 defaultNum
        ![.linear, .linear, .geometric, .linear, .linear, .linear] true).map Prod.fst) .fresh).2 =
        .ok (planes.map fun v => .forces ((plateSection shapes (bars s.mat.law) (bilinearDiagram 20 0.00175) 0.0035).forces v)) := by
  obtain ⟨-, s, -, hs⟩ := accepted hl ccls scls
  obtain ⟨c, hc⟩ := (C85_accepts hl ccls hcls bilinearArgs rfl rfl rfl rfl).2 (by simp [Inconsistent, bilinearArgs, defaultArgs])
  refine ⟨c, s, hc, hs, _, rfl, ?_⟩
  have hu := ultimate_range scls
  have hy := yield_range
  have h30 : |bilinearArgs.fck| = 30 := abs_of_pos (by norm_num [bilinearArgs, defaultArgs])
  have hfc : designConcrete ccls bilinearArgs = 20 := by
    cases ccls
    · simp [designConcrete, bilinearArgs, defaultArgs, factor]; norm_num
    · simp [designConcrete, bilinearArgs, defaultArgs, factor]; norm_num
    · exact absurd rfl hcls
  have hy0 : yieldStrain |bilinearArgs.fck| = 0.00175 := by rw [h30, yieldStrain, if_pos (by norm_num)]
  have hu0 : ultimateStrain |bilinearArgs.fck| = 0.0035 := by rw [h30, ultimateStrain, if_pos (by norm_num)]
  obtain ⟨l, hnew, -, h⟩ := C88_bilinear_design_partial hl ccls hcls bilinearArgs c hc rfl ⟨rfl, rfl⟩ ⟨rfl, rfl⟩
    (by rw [h30]; norm_num) scls sargs s hs rfl ⟨rfl, rfl⟩ (gap scls) (by norm_num at *; linarith)
    ⟨by norm_num at *; linarith [hu.1], by norm_num at *; linarith [hu.2]⟩ RCBeam.split 0.01 0 (fun _ _ => 0) shapes (bars s.mat.law) 1
    (one_steel _) shapes_enclosed shapes_hull cuts rfl rfl rfl
    (by simpa using side s.mat.law true (by rw [hy0, hu0]; norm_num)) true
    (fun _ => by simpa using side s.mat.law false (by rw [hy0, hu0]; norm_num))
    defaultNum ![.linear, .linear, .geometric, .linear, .linear, .linear] default_args rfl
  have hform : l = ⟨-20, -0.00175, -0.0035⟩ := by
    rw [hfc, hy0, hu0] at hnew
    rw [(bilinear_new hnew).2]
    norm_num [abs_of_pos]
  subst hform
  obtain ⟨planes, labels, h1, h2, h3, -⟩ := h _ rfl [] trivial
  refine ⟨planes, labels, h1, ?_, ?_⟩
  · rw [h3]
    simp [Fin.sum_univ_succ, defaultNum]
  · rw [hy0, hu0, hfc, show |(20:ℝ)| = 20 by norm_num] at h2
    exact h2

/-- C30 with Sargin's diagram and B500: the domain of the beam begins with uniform tension at the rupture strain. -/
example (hl : PyLower lower) (scls : SteelClass) :
    ∃ c s, newConcrete lower .ec2_2004 sarginArgs = some (.ok c) ∧ newSteel lower scls sargs = some (.ok s) ∧
    ∃ e1 k : ℝ, c.mat.law = (Sargin.new 38 e1 0.0035 k).law ∧
    ∃ planes labels, nmProfiles (sectionEngine RCBeam.split
        ((softParts (Sargin.new 38 e1 0.0035 k).stress (Sargin.new 38 e1 0.0035 k).ult 0.0035 shapes).map PolyPart.solid)
          (bars s.mat.law) 0.01).balanced (sectionMinY (shapes.map Prod.fst)) true 0 defaultNum
        ![.linear, .linear, .geometric, .linear, .linear, .linear] true = .ok (planes, labels) ∧ planes.length = 68 ∧
      planes.head? = some ![designUltimate scls sargs, 0, 0] := by
  obtain ⟨-, s, -, hs⟩ := accepted hl .ec2_2004 scls
  obtain ⟨c, hc⟩ := (C86_accepts hl sarginArgs rfl rfl rfl).2 (by simp [Inconsistent, sarginArgs, defaultArgs])
  refine ⟨c, s, hc, hs, peakStrain 38, plasticity 38, ?_⟩
  have hu := ultimate_range scls
  have hy := yield_range
  have h30 : |sarginArgs.fck| = 30 := abs_of_pos (by norm_num [sarginArgs, defaultArgs])
  have hfr : fractureStrain 30 = 0.0035 := by rw [fractureStrain, if_pos (by norm_num)]
  have hp : 0.0007 ≤ peakStrain 38 := by
    have := (sargin_ranges (f := 30) (by norm_num) (by norm_num)).1
    rwa [show (30:ℝ) + 8 = 38 by norm_num] at this
  have hr : 0.2 ≤ peakStrain 38 / 0.0035 := by rw [le_div_iff₀ (by norm_num)]; norm_num at *; linarith
  obtain ⟨hlaw, -, planes, labels, points, h1, -, h3, -, -, h4, -⟩ := C88_sargin_design_partial hl sarginArgs c hc rfl ⟨rfl, rfl⟩
    ⟨rfl, rfl, rfl, rfl, rfl⟩ (by rw [h30]; norm_num) scls sargs s hs rfl ⟨rfl, rfl⟩ (gap scls) (by norm_num at *; linarith)
    ⟨by norm_num at *; linarith [hu.1], by norm_num at *; linarith [hu.2]⟩ RCBeam.split 0.01 0 (fun _ _ => 0) shapes (bars s.mat.law) 1
    (one_steel _) shapes_enclosed shapes_hull cuts (fc := 38) (by rw [h30]; norm_num) rfl (by rw [h30, hfr]) rfl rfl rfl
    (by simpa using side s.mat.law true hr) true (fun _ => by simpa using side s.mat.law false hr)
    defaultNum ![.linear, .linear, .geometric, .linear, .linear, .linear] default_args rfl rfl rfl [] trivial
  refine ⟨hlaw, planes, labels, h1, ?_, h4 rfl (by simp [defaultNum])⟩
  rw [h3]
  simp [Fin.sum_univ_succ, defaultNum]

end OrdinaryBeam

open OrdinaryBeam in
/-- **C88** (violated). The N-M domain contains points that `calculate_bending_strength` refuses: for a concrete of 38 MPa with Sargin's law and a plasticity
number of two, the last plane of the domain (uniform compression at the peak strain) carries over a meganewton more than the limit of
`calculate_limit_axial_load`, and the strength under that load is refused. -/
theorem C88_limit_violated {lower : String → String} (hl : PyLower lower) (scls : SteelClass) :
    ∃ s, newSteel lower scls sargs = some (.ok s) ∧
    ∃ lo hi E, E = sectionEngine RCBeam.split
        ((softParts (Sargin.new 38 0.0022 0.0035 2).stress (Sargin.new 38 0.0022 0.0035 2).ult 0.0035 shapes).map PolyPart.solid)
          (bars s.mat.law) 0.01 ∧ (limits E .fresh).2 = .ok (lo, hi) ∧
      ∃ (points : List (Fin 3 → ℝ)) (p : Fin 3 → ℝ), (nmDomain E ((nmProfiles E.balanced (sectionMinY (shapes.map Prod.fst)) true 0 defaultNum
        ![.linear, .linear, .geometric, .linear, .linear, .linear] false).map Prod.fst) .fresh).2 = .ok (points.map .forces) ∧
      points.getLast? = some p ∧ p 0 < lo - 1000000 ∧ (bendingStrength E 0 (p 0) .fresh).2 = .error .valueError := by
  obtain ⟨-, s, -, hs⟩ := accepted hl .ec2_2004 scls
  refine ⟨s, hs, ?_⟩
  have hu := ultimate_range scls
  have hyr := yield_range
  have hy : designYield sargs = 500 / 1.15 / 200000 := by simp [designYield, sargs, steelArgs, gammaS, factorOf]
  have hEs : |sargs.Es| = 200000 := by norm_num [sargs, steelArgs]
  obtain ⟨hult, hst, hlip⟩ := C73_steel hl scls sargs s hs rfl rfl rfl (gap scls)
  have a1 : |(38:ℝ)| = 38 := abs_of_pos (by norm_num)
  have a2 : |(0.0022:ℝ)| = 0.0022 := abs_of_pos (by norm_num)
  have a3 : |(0.0035:ℝ)| = 0.0035 := abs_of_pos (by norm_num)
  have hL : max (sarginSlope 38 0.0022 0.0035 2 1) |sargs.Es| = 200000 := by
    rw [hEs, sarginSlope, a1, a2, a3, max_eq_right (by norm_num)]
  have hsteel : s.mat.law.stress (-0.0022) = s.mat.law.stress (-0.0035) := by
    rw [hst _ (by rw [abs_neg, a2]; norm_num at *; linarith [hu.1]), hst _ (by rw [abs_neg, a3]; norm_num at *; linarith [hu.1]), hy]
    norm_num
  have hK : ∀ x ∈ Set.Icc (-designUltimate scls sargs) (designUltimate scls sargs),
      ∀ y ∈ Set.Icc (-designUltimate scls sargs) (designUltimate scls sargs),
      |s.mat.law.stress x - s.mat.law.stress y| ≤ |sargs.Es| * |x - y| := by
    rw [hult] at hlip; exact hlip
  have hheu : (0.0035:ℝ) ≤ designUltimate scls sargs ∧ designUltimate scls sargs ≤ 0.09 := by
    constructor <;> norm_num at * <;> linarith [hu.1, hu.2]
  obtain ⟨-, r2, ⟨C, -, r3⟩, -⟩ := C86_sargin_partial RCBeam.split 0.01 (fun _ _ => 0) shapes (bars s.mat.law)
    (fc := 38) (e1 := 0.0022) (u := 0.0035) (k := 2) (m := 1) (th := 0) (by norm_num) (by rw [a2]; norm_num)
    (by rw [a3]; norm_num) (by norm_num) (by rw [a2, a3]; norm_num) (by norm_num) le_rfl (by norm_num)
    (by rw [a1, a2, a3, sarginDiagram, neg_neg, max_eq_left (by norm_num)]; norm_num) (one_steel _) hult (by rw [a3]; exact ⟨hheu.1, le_trans (by norm_num) hheu.1, hheu.2⟩)
    hK shapes_enclosed shapes_hull shapes_split (geometry _) (geometry _) shapes_radius rfl rfl
    (by rw [hL, gross_shapes, bars_abs]; norm_num) rfl rfl (by rw [a3]) rfl
  rw [a1, a2, a3] at r2 r3
  refine ⟨_, _, _, rfl, r2, ?_⟩
  have hP := sargin_pieces (fc := 38) (e1 := 0.0022) (u := 0.0035) (k := 2) (m := 1) (by rw [a2]; norm_num)
    (by rw [a3]; norm_num) (by norm_num) (by rw [a2, a3]; norm_num) (by norm_num) le_rfl (by norm_num)
  rw [a1, a2, a3] at hP
  have hS := design_strains hl scls sargs s hs rfl ⟨rfl, rfl⟩ (gap scls) (by norm_num at *; linarith) hheu (one_steel s.mat.law)
    (e0 := 0.0022) (u := 0.0035) (by norm_num) (by norm_num)
  obtain ⟨planes, labels, h1, h2, -, h4, -, -, h6⟩ := C88_pieces_partial (ms := 0.01) (fun _ _ => 0) hP (e0 := 0.0022) (by
      show ((-|0.0022|, 100) : ℝ × ℝ) = _
      rw [a2]) hS shapes_enclosed shapes_hull cuts (by simpa using side s.mat.law true (r := 0.0022 / 0.0035) (by norm_num)) false (by simp)
      default_args rfl rfl rfl [] trivial (lo' := 0) (hi' := 0)
  have hlast := h6 rfl
  have hmem : (![-0.0022, 0, 0] : Fin 3 → ℝ) ∈ planes := List.mem_of_getLast? hlast
  obtain ⟨-, hd, -⟩ := h4 _ hmem
  have e1 := plate_uniform_force shapes (bars s.mat.law) (one_steel _) (sarginDiagram 38 0.0022 2) 0.0035 (-0.0022)
  have e2 := plate_uniform_force shapes (bars s.mat.law) (one_steel _) (sarginDiagram 38 0.0022 2) 0.0035 (-0.0035)
  dsimp only at e1 e2
  rw [hsteel] at e1
  have d1 : sarginDiagram 38 0.0022 2 (-0.0022) = -38 := by
    rw [sarginDiagram, neg_neg, max_eq_left (by norm_num)]; norm_num
  have d2 : sarginDiagram 38 0.0022 2 (-0.0035) = -38 + 38 * (13 / 22) ^ 2 := by
    rw [sarginDiagram, neg_neg, max_eq_left (by norm_num)]; norm_num
  rw [d1, gross_shapes] at e1
  rw [d2, gross_shapes] at e2
  rw [sarginError, a1, a2, a3, gross_shapes, e1] at hd
  have hlt : (plateSection shapes (bars s.mat.law) (polygonal (Sargin.new 38 0.0022 0.0035 2).stress 0.0035) 0.0035).forces
      ![-0.0022, 0, 0] 0 < (plateSection shapes (bars s.mat.law) (sarginDiagram 38 0.0022 2) 0.0035).forces ![-0.0035, 0, 0] 0 - 1000000 := by
    rw [e2]
    have := (abs_le.1 hd).2
    norm_num at *
    linarith
  refine ⟨planes.map (plateSection shapes (bars s.mat.law) (polygonal (Sargin.new 38 0.0022 0.0035 2).stress 0.0035) 0.0035).forces, _, ?_, ?_,
    hlt, (r3 _ [] trivial).1 (Or.inl (by linarith))⟩
  · rw [List.map_map]; exact h2
  · rw [List.getLast?_map, hlast]; rfl

end SC
