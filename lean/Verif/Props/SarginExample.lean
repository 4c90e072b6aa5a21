import Verif.Props.SarginDesign
import Verif.Props.PopovicsStrength

/-! # C86: concrete cases -/

set_option autoImplicit false

namespace SC

open Spec MeasureTheory

variable {lower : String → String}

namespace OrdinaryBeam

theorem gross_shapes : grossArea shapes = 150000 := by
  have harea : areaMoment 0 0 (Set.Icc (-150:ℝ) 150 ×ˢ Set.Icc (-250:ℝ) 250) = 150000 := by
    simp only [areaMoment, pow_zero, mul_one]
    rw [setIntegral_const, Measure.real, Measure.volume_eq_prod, Measure.prod_prod, Real.volume_Icc, Real.volume_Icc]
    norm_num
  simp only [grossArea, shapes, List.map_cons, List.map_nil, List.sum_cons, List.sum_nil, harea, add_zero]

theorem bars_abs (L : Law) : ((bars L).map fun b => |b.area|).sum = 2000 := by
  simp only [bars, bar, List.map_cons, List.map_nil, List.sum_cons, List.sum_nil]; norm_num

theorem bars_area (L : Law) : ((bars L).map Bar.area).sum = 2000 := by
  simp only [bars, bar, List.map_cons, List.map_nil, List.sum_cons, List.sum_nil]; norm_num

theorem shapes_enclosed : ∀ p ∈ shapes, Encloses p.1.ext p.1.ints p.2 := by
  intro p hp; rw [List.mem_singleton.1 hp]; exact RCBeam.ok.encloses

theorem shapes_hull : ∀ p ∈ shapes, p.2 ⊆ convexHull ℝ {v | v ∈ p.1.ext} := by
  intro p hp; rw [List.mem_singleton.1 hp]; exact hull

theorem shapes_split : ∀ p ∈ shapes,
    SplitsExactly RCBeam.split ((p.1.rotate (-0)).rotate (-Real.pi)) (rotPt (-Real.pi) '' (rotPt (-0) '' p.2)) := by
  intro p hp; rw [List.mem_singleton.1 hp]; exact RCBeam.ok.splits

theorem shapes_radius : ∀ p ∈ shapes, ∀ v ∈ p.1.ext, |height 0 v| ≤ 250 := by
  intro p hp v hv
  rw [List.mem_singleton.1 hp] at hv
  rw [RCBeam.height_zero]
  rcases mem_ring hv with rfl | rfl | rfl | rfl <;> norm_num

/-- A concrete with Sargin's law. -/
noncomputable def sarginArgs : ConcArgs := { defaultArgs 30 with law := .name "sargin" }

theorem sarginDiagram_tension {fc e1 k v : ℝ} (hv : 0 ≤ v) : sarginDiagram fc e1 k v = 0 := by
  rw [sarginDiagram, max_eq_right (by linarith)]; norm_num

/-- C30 with Sargin's diagram and B500: the beam has a strength in pure bending, in a plane at the limit of the section, within the stated
bounds of the forces of the exact diagram. -/
example (hl : PyLower lower) (scls : SteelClass) :
    ∃ c s, newConcrete lower .ec2_2004 sarginArgs = some (.ok c) ∧ newSteel lower scls sargs = some (.ok s) ∧
    ∃ e1 k : ℝ, c.mat.law = (Sargin.new 38 e1 0.0035 k).law ∧
    ∃ b : BendingResult, (bendingStrength (sectionEngine RCBeam.split
        ((softParts (Sargin.new 38 e1 0.0035 k).stress (Sargin.new 38 e1 0.0035 k).ult 0.0035 shapes).map PolyPart.solid)
          (bars s.mat.law) 0.01) 0 0 .fresh).2 = .ok b ∧
      (plateSection shapes (bars s.mat.law) (sarginDiagram 38 e1 k) 0.0035).AtLimit ![b.eps_a, b.chi.1, b.chi.2] ∧
      (plateSection shapes (bars s.mat.law) (sarginDiagram 38 e1 k) 0.0035).forces ![b.eps_a, b.chi.1, b.chi.2] 0 ≤ b.n := by
  obtain ⟨-, s, -, hs⟩ := accepted hl .ec2_2004 scls
  obtain ⟨c, hc⟩ := (C86_accepts hl sarginArgs rfl rfl rfl).2 (by simp [Inconsistent, sarginArgs, defaultArgs])
  refine ⟨c, s, hc, hs, peakStrain 38, plasticity 38, ?_⟩
  have hu := ultimate_range scls
  have hy := yield_range
  have h30 : |sarginArgs.fck| = 30 := abs_of_pos (by norm_num [sarginArgs, defaultArgs])
  have hfr : fractureStrain 30 = 0.0035 := by rw [fractureStrain, if_pos (by norm_num)]
  have hEs : |sargs.Es| = 200000 := by norm_num [sargs, steelArgs]
  obtain ⟨hult, hst, -⟩ := C73_steel hl scls sargs s hs rfl rfl rfl (gap scls)
  obtain ⟨q0, q1, q2, q3, q4, q5, q6, q7, q8, q9⟩ := sargin_default (f := 30) (by norm_num) (by norm_num) (F := 38) (by norm_num) rfl
    hfr.symm rfl rfl
  obtain ⟨m, hm⟩ : ∃ m : ℝ, m = min 1 (1 + (plasticity 38 - 2) * (0.0035 / peakStrain 38)) := ⟨_, rfl⟩
  rw [← hm] at q9
  obtain ⟨L, hLd⟩ : ∃ L, L = max (sarginSlope 38 (peakStrain 38) 0.0035 (plasticity 38) m) |sargs.Es| := ⟨_, rfl⟩
  have hL : L ≤ 6e10 := hLd.trans_le (max_le q9 (by rw [hEs]; norm_num))
  have hδ : L * (150000 + 2000) * 500 ≤ 4.56e18 := by
    refine (mul_le_mul_of_nonneg_right (mul_le_mul_of_nonneg_right hL (by norm_num)) (by norm_num)).trans (by norm_num)
  obtain ⟨hlaw, -, -, ⟨C, -, hmain⟩, hres⟩ := C86_design_partial hl sarginArgs c hc rfl ⟨rfl, rfl⟩ ⟨rfl, rfl, rfl, rfl, rfl⟩
    (by rw [h30]; norm_num) scls sargs s hs rfl ⟨rfl, rfl⟩ (gap scls) rfl ⟨by norm_num at *; linarith [hu.1], by norm_num at *; linarith [hu.2]⟩
    RCBeam.split 0.01 (fun _ _ => 0) shapes (bars s.mat.law) 1 (one_steel _) shapes_enclosed shapes_hull (th := 0) (R := 250) shapes_split
    (geometry _) (geometry _) shapes_radius (fc := 38) (by rw [h30]; norm_num) rfl (by rw [h30, hfr]) rfl hm hLd rfl
    (by rw [gross_shapes, bars_abs]; exact hδ.trans (by norm_num)) rfl rfl rfl rfl
  refine ⟨hlaw, ?_⟩
  rw [gross_shapes, bars_abs] at hmain
  clear hLd hm
  obtain ⟨b, hb, -⟩ := (hmain 0 [] trivial).2 (by
    rw [plate_uniform_force _ _ (one_steel _), gross_shapes, bars_area]
    dsimp only
    rw [hst _ (by rw [abs_neg, abs_of_pos (by norm_num)]; norm_num at *; linarith [hu.1]), hEs]
    have h2 : max (-designYield sargs) (min (-0.0035) (designYield sargs)) ≤ -0.002 :=
      max_le (by linarith [hy.1]) ((min_le_left _ _).trans (by norm_num))
    generalize max (-designYield sargs) (min (-0.0035) (designYield sargs)) = y at *
    norm_num at *
    linarith) (by
    rw [plate_uniform_force _ _ (one_steel _), gross_shapes, bars_area, sarginDiagram_tension (by norm_num at *; linarith [hu.1])]
    dsimp only
    rw [hst _ (by rw [abs_of_pos (by norm_num at *; linarith [hu.1])]), hEs,
      min_eq_right (by norm_num at *; linarith [hy.2, hu.1]), max_eq_right (by norm_num at *; linarith [hy.1])]
    norm_num at *
    linarith [hy.1])
  refine ⟨b, hb, ?_⟩
  obtain ⟨c', -, e, -, he, -, hlim, hf, -⟩ := hres 0 [] b trivial hb
  rw [he]
  exact ⟨hlim, hf⟩

/-- A concrete of 38 MPa with a plasticity number of two: the beam carries 150000 times the drop of the diagram more than
`calculate_limit_axial_load` says, and the strength under that load is refused. -/
example (hl : PyLower lower) (scls : SteelClass) :
    ∃ s, newSteel lower scls sargs = some (.ok s) ∧
    ∃ lo hi E, E = sectionEngine RCBeam.split
        ((softParts (Sargin.new 38 0.0022 0.0035 2).stress (Sargin.new 38 0.0022 0.0035 2).ult 0.0035 shapes).map PolyPart.solid)
          (bars s.mat.law) 0.01 ∧ (limits E .fresh).2 = .ok (lo, hi) ∧
      (plateSection shapes (bars s.mat.law) (sarginDiagram 38 0.0022 2) 0.0035).Admissible ![-0.0022, 0, 0] ∧
      (plateSection shapes (bars s.mat.law) (sarginDiagram 38 0.0022 2) 0.0035).forces ![-0.0022, 0, 0] 0 < lo - 1900000 ∧
      (bendingStrength E 0 ((plateSection shapes (bars s.mat.law) (sarginDiagram 38 0.0022 2) 0.0035).forces ![-0.0022, 0, 0] 0)
        .fresh).2 = .error .valueError := by
  obtain ⟨-, s, -, hs⟩ := accepted hl .ec2_2004 scls
  refine ⟨s, hs, ?_⟩
  have hu := ultimate_range scls
  have hy : designYield sargs = 500 / 1.15 / 200000 := by simp [designYield, sargs, steelArgs, gammaS, factorOf]
  have hEs : |sargs.Es| = 200000 := by norm_num [sargs, steelArgs]
  obtain ⟨hult, hst, hlip⟩ := C73_steel hl scls sargs s hs rfl rfl rfl (gap scls)
  have a1 : |(38:ℝ)| = 38 := abs_of_pos (by norm_num)
  have a2 : |(0.0022:ℝ)| = 0.0022 := abs_of_pos (by norm_num)
  have a3 : |(0.0035:ℝ)| = 0.0035 := abs_of_pos (by norm_num)
  have hL : max (sarginSlope 38 0.0022 0.0035 2 1) |sargs.Es| = 200000 := by
    rw [hEs, sarginSlope, a1, a2, a3, max_eq_right (by norm_num)]
  obtain ⟨h1, lo, hi, h2, h3, -, h5⟩ := C86_limit_violated RCBeam.split 0.01 (fun _ _ => 0) shapes (bars s.mat.law)
    (fc := 38) (e1 := 0.0022) (u := 0.0035) (k := 2) (m := 1) (th := 0) (by norm_num) (by rw [a2]; norm_num) (by rw [a2, a3]; norm_num)
    (by rw [a3]; norm_num) (by norm_num) (by rw [a2, a3]; norm_num) (by norm_num) le_rfl (by norm_num) (one_steel _) hult
    (by rw [a3]; refine ⟨?_, ?_, ?_⟩ <;> norm_num at * <;> linarith [hu.1, hu.2])
    (by
      rw [a2, a3]
      dsimp only
      rw [hst _ (by rw [abs_neg, a2]; norm_num at *; linarith [hu.1]), hst _ (by rw [abs_neg, a3]; norm_num at *; linarith [hu.1]), hy]
      norm_num)
    (by rw [hult] at hlip; exact hlip) shapes_enclosed shapes_hull shapes_split
    (geometry _) (geometry _) rfl rfl (by rw [hL, gross_shapes, bars_abs]; norm_num) (by rw [gross_shapes]; norm_num) rfl rfl rfl
  rw [a1, a2, a3] at h1 h3 h5
  rw [a3] at h2
  have hd : sarginDiagram 38 0.0022 2 (-0.0035) + 38 = 38 * (13 / 22) ^ 2 := by
    rw [sarginDiagram, neg_neg, max_eq_left (by norm_num)]; norm_num
  refine ⟨lo, hi, _, rfl, h2, h1, ?_, h5 [] trivial⟩
  rw [h3, hd, gross_shapes]
  norm_num

/-- Popovics' law with 30 MPa at two per mille and an initial modulus of 30 GPa: a strength in pure bending. -/
theorem popovics_returns (hl : PyLower lower) (scls : SteelClass) :
    ∃ s l, newSteel lower scls sargs = some (.ok s) ∧ Popovics.new? 30 0.002 0.0035 (some 30000) = .ok l ∧
    ∃ b : BendingResult, (bendingStrength (sectionEngine RCBeam.split ((softParts l.stress l.ult 0.0035 shapes).map PolyPart.solid)
          (bars s.mat.law) 0.01) 0 0 .fresh).2 = .ok b ∧
      (plateSection shapes (bars s.mat.law) (popovicsDiagram 30 0.002 2) 0.0035).AtLimit ![b.eps_a, b.chi.1, b.chi.2] ∧
      |b.n - (plateSection shapes (bars s.mat.law) (popovicsDiagram 30 0.002 2) 0.0035).forces ![b.eps_a, b.chi.1, b.chi.2] 0| ≤ 787500 := by
  obtain ⟨-, s, -, hs⟩ := accepted hl .ec2_2004 scls
  have a1 : |(30:ℝ)| = 30 := abs_of_pos (by norm_num)
  have a2 : |(0.002:ℝ)| = 0.002 := abs_of_pos (by norm_num)
  have a3 : |(0.0035:ℝ)| = 0.0035 := abs_of_pos (by norm_num)
  obtain ⟨l, hpop⟩ : ∃ l, Popovics.new? 30 0.002 0.0035 (some 30000) = .ok l := by
    simp only [Popovics.new?, Option.getD, a1, a2]
    rw [if_neg (by norm_num), if_neg (by norm_num), if_neg (by norm_num)]
    exact ⟨_, rfl⟩
  refine ⟨s, l, hs, hpop, ?_⟩
  have hu := ultimate_range scls
  have hy := yield_range
  have hEs : |sargs.Es| = 200000 := by norm_num [sargs, steelArgs]
  obtain ⟨hult, hst, hlip⟩ := C73_steel hl scls sargs s hs rfl rfl rfl (gap scls)
  obtain ⟨-, -, hn, -⟩ := popovics_new hpop (by rw [a1, a2]; norm_num) (by norm_num)
  have hn2 : l.n = 2 := by rw [hn, a1, a2]; norm_num
  have hd : popovicsDiagram 30 0.002 2 (-0.0035) = -(30 * (56 / 65)) := by
    rw [popovicsDiagram, neg_neg, max_eq_left (by norm_num)]; norm_num
  have hS : popovicsSlope 30 0.002 l.n = 30000 := by
    rw [popovicsSlope, hn2, a1, a2, max_eq_left (by norm_num)]; norm_num
  have hL : max (popovicsSlope 30 0.002 l.n) |sargs.Es| = 200000 := by rw [hS, hEs, max_eq_right (by norm_num)]
  have h2 : (30000:ℝ) / (30000 - |(30:ℝ)| / |(0.002:ℝ)|) = 2 := by rw [a1, a2]; norm_num
  obtain ⟨-, -, ⟨C, -, hmain⟩, hres⟩ := C86_popovics_partial RCBeam.split 0.01 (fun _ _ => 0) shapes (bars s.mat.law) (th := 0) (R := 250)
    (Ec := 30000) hpop (by rw [a1, a2]; norm_num) (by norm_num) (by rw [a3]; norm_num)
    (by rw [a1, a2, a3, hn2, hd]; norm_num) (one_steel _) hult
    (by rw [a3]; refine ⟨?_, ?_, ?_⟩ <;> norm_num at * <;> linarith [hu.1, hu.2]) (by rw [hult] at hlip; exact hlip)
    shapes_enclosed shapes_hull shapes_split (geometry _) (geometry _) shapes_radius rfl rfl
    (by rw [hL, gross_shapes, bars_abs]; norm_num) rfl rfl rfl rfl
  rw [h2, hL, gross_shapes, bars_abs, a1, a2, a3] at hmain
  rw [h2, hS, gross_shapes, a1, a2, a3] at hres
  obtain ⟨b, hb, -⟩ := (hmain 0 [] trivial).2 (by
    rw [plate_uniform_force _ _ (one_steel _), gross_shapes, bars_area, hd]
    dsimp only
    rw [hst _ (by rw [abs_neg, abs_of_pos (by norm_num)]; norm_num at *; linarith [hu.1]), hEs]
    have h2 : max (-designYield sargs) (min (-0.0035) (designYield sargs)) ≤ -0.002 :=
      max_le (by linarith [hy.1]) ((min_le_left _ _).trans (by norm_num))
    generalize max (-designYield sargs) (min (-0.0035) (designYield sargs)) = y at *
    clear hmain hres
    norm_num at *
    linarith) (by
    have hz : ∀ v : ℝ, 0 ≤ v → popovicsDiagram 30 0.002 2 v = 0 := by
      intro v hv; rw [popovicsDiagram, max_eq_right (by linarith)]; norm_num
    rw [plate_uniform_force _ _ (one_steel _), gross_shapes, bars_area, hz _ (by norm_num at *; linarith [hu.1])]
    dsimp only
    rw [hst _ (by rw [abs_of_pos (by norm_num at *; linarith [hu.1])]), hEs,
      min_eq_right (by norm_num at *; linarith [hy.2, hu.1]), max_eq_right (by norm_num at *; linarith [hy.1])]
    clear hmain hres
    norm_num at *
    linarith [hy.1])
  refine ⟨b, hb, ?_⟩
  obtain ⟨c', -, e, -, he, -, hlim, hf, -⟩ := hres 0 [] b trivial hb
  rw [he]
  exact ⟨hlim, hf.trans (by norm_num)⟩

end OrdinaryBeam

end SC
