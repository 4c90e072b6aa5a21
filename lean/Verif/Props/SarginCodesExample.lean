import Verif.Props.SarginCodes
import Verif.Props.DomainLawsExample

/-! # C86, C88: Sargin's law to every code, concrete cases -/

set_option autoImplicit false

namespace SC

open Spec MeasureTheory

variable {lower : String → String}

namespace OrdinaryBeam

theorem sargin_fck : |sarginArgs.fck| = 30 := abs_of_pos (by norm_num [sarginArgs, defaultArgs])

theorem sargin_range (ccls : ConcClass) : SarginRange ccls sarginArgs := by
  refine ⟨by rw [sargin_fck]; norm_num, ?_⟩
  cases ccls
  · show |sarginArgs.fck| ≤ 90
    rw [sargin_fck]; norm_num
  · show |sarginArgs.fck| ≤ 120
    rw [sargin_fck]; norm_num
  · refine ⟨by rw [sargin_fck]; norm_num, rfl⟩

/-- C30: 38 MPa and 3.5 per mille in every code. -/
theorem sargin_values (ccls : ConcClass) : ∃ e1 k, SarginValues ccls sarginArgs 38 e1 0.0035 k := by
  have h38 : (38:ℝ) = |sarginArgs.fck| + 8 := by rw [sargin_fck]; norm_num
  cases ccls
  · refine ⟨_, _, h38, rfl, ?_, rfl⟩
    rw [sargin_fck, fractureStrain, if_pos (by norm_num)]
  · refine ⟨0.0023, 2.04, h38, ?_, ?_, ?_⟩
    · exact ⟨4, 30, 2.3, 35, 2.3, rfl, rfl, by rw [sargin_fck], by rw [sargin_fck]; norm_num, by norm_num⟩
    · exact ⟨4, 30, 3.5, 35, 3.5, rfl, rfl, by rw [sargin_fck], by rw [sargin_fck]; norm_num, by norm_num⟩
    · exact ⟨4, 30, 2.04, 35, 1.92, rfl, rfl, by rw [sargin_fck], by rw [sargin_fck]; norm_num, by rw [sargin_fck]; norm_num⟩
  · refine ⟨_, _, h38, rfl, ?_, rfl⟩
    rw [fractureStrain2023, min_eq_right (by norm_num)]
    norm_num

/-- C30 with Sargin's diagram to any of the three codes, and B500: the beam has a strength in pure bending, at a limit of the section, and
an interaction domain of 68 points. -/
example (hl : PyLower lower) (ccls : ConcClass) (scls : SteelClass) :
    ∃ c s, newConcrete lower ccls sarginArgs = some (.ok c) ∧ newSteel lower scls sargs = some (.ok s) ∧
    ∃ e1 k : ℝ, c.mat.law = (Sargin.new 38 e1 0.0035 k).law ∧
    ∃ E, E = sectionEngine RCBeam.split
        ((softParts (Sargin.new 38 e1 0.0035 k).stress (Sargin.new 38 e1 0.0035 k).ult 0.0035 shapes).map PolyPart.solid)
          (bars s.mat.law) 0.01 ∧
    (∃ b : BendingResult, (bendingStrength E 0 0 .fresh).2 = .ok b ∧
      (plateSection shapes (bars s.mat.law) (sarginDiagram 38 e1 k) 0.0035).AtLimit ![b.eps_a, b.chi.1, b.chi.2] ∧
      (plateSection shapes (bars s.mat.law) (sarginDiagram 38 e1 k) 0.0035).forces ![b.eps_a, b.chi.1, b.chi.2] 0 ≤ b.n) ∧
    ∃ planes labels, nmProfiles E.balanced (sectionMinY (shapes.map Prod.fst)) true 0 defaultNum
        ![.linear, .linear, .geometric, .linear, .linear, .linear] true = .ok (planes, labels) ∧ planes.length = 68 ∧
      planes.head? = some ![designUltimate scls sargs, 0, 0] := by
  obtain ⟨-, s, -, hs⟩ := accepted hl .ec2_2004 scls
  obtain ⟨c, hc⟩ := (C86_accepts_codes hl ccls sarginArgs rfl rfl rfl ⟨rfl, rfl, rfl, rfl, rfl⟩ (sargin_range ccls)).2
    ⟨by simp [Inconsistent, sarginArgs, defaultArgs], fun _ => ⟨by simp [DevOk, sarginArgs, defaultArgs]; decide, fun g hg => by
      simp [sarginArgs, defaultArgs] at hg⟩⟩
  obtain ⟨e1, k, hval⟩ := sargin_values ccls
  refine ⟨c, s, hc, hs, e1, k, ?_⟩
  have hu := ultimate_range scls
  have hy := yield_range
  have hEs : |sargs.Es| = 200000 := by norm_num [sargs, steelArgs]
  obtain ⟨hult, hst, -⟩ := C73_steel hl scls sargs s hs rfl rfl rfl (gap scls)
  obtain ⟨v1, v2, v3, v4, v5, v6, v7⟩ := sargin_codes hval (sargin_range ccls)
  obtain ⟨m, hm⟩ : ∃ m : ℝ, m = min 1 (1 + (k - 2) * (0.0035 / e1)) := ⟨_, rfl⟩
  obtain ⟨q0, q1, q2, q3, q4, q5, q6, q7, q8, q9⟩ := sargin_fit v1 v2 v3 v4 v5 v6 hm
  obtain ⟨L, hLd⟩ : ∃ L, L = max (sarginSlope 38 e1 0.0035 k m) |sargs.Es| := ⟨_, rfl⟩
  have hL : L ≤ 1e11 := hLd.trans_le (max_le q9 (by rw [hEs]; norm_num))
  have hδ : L * (150000 + 2000) * 500 ≤ 7.6e18 := by
    refine (mul_le_mul_of_nonneg_right (mul_le_mul_of_nonneg_right hL (by norm_num)) (by norm_num)).trans (by norm_num)
  obtain ⟨hlaw, -, -, ⟨C, -, hmain⟩, hres⟩ := C86_codes_design_partial hl ccls sarginArgs c hc rfl ⟨rfl, rfl⟩ ⟨rfl, rfl, rfl, rfl, rfl⟩
    (sargin_range ccls) scls sargs s hs rfl ⟨rfl, rfl⟩ (gap scls) rfl
    ⟨by norm_num at *; linarith [hu.1], by norm_num at *; linarith [hu.2]⟩
    RCBeam.split 0.01 (fun _ _ => 0) shapes (bars s.mat.law) 1 (one_steel _) shapes_enclosed shapes_hull (th := 0) (R := 250) shapes_split
    (geometry _) (geometry _) shapes_radius hval hm hLd rfl
    (by rw [gross_shapes, bars_abs]; exact hδ.trans (by norm_num)) rfl rfl rfl rfl
  have hr : 0.2 ≤ e1 / 0.0035 := by rw [le_div_iff₀ (by norm_num)]; have := v2.1; norm_num at *; linarith
  obtain ⟨-, -, planes, labels, points, h1, -, h3, -, -, h4, -⟩ := C88_sargin_codes_design_partial hl ccls sarginArgs c hc rfl ⟨rfl, rfl⟩
    ⟨rfl, rfl, rfl, rfl, rfl⟩ ⟨sargin_range ccls, by rw [sargin_fck]; norm_num⟩ scls sargs s hs rfl ⟨rfl, rfl⟩ (gap scls)
    (by norm_num at *; linarith [hy.1])
    ⟨by norm_num at *; linarith [hu.1], by norm_num at *; linarith [hu.2]⟩ RCBeam.split 0.01 0 (fun _ _ => 0) shapes (bars s.mat.law) 1
    (one_steel _) shapes_enclosed shapes_hull cuts hval hm rfl
    (by simpa using side s.mat.law true hr) true (fun _ => by simpa using side s.mat.law false hr)
    defaultNum ![.linear, .linear, .geometric, .linear, .linear, .linear] default_args rfl rfl rfl [] trivial
  refine ⟨hlaw, _, rfl, ?_, planes, labels, h1, ?_, h4 rfl (by simp [defaultNum])⟩
  swap
  · rw [h3]
    simp [Fin.sum_univ_succ, defaultNum]
  rw [gross_shapes, bars_abs] at hmain
  clear hLd hm
  obtain ⟨b, hb, -⟩ := (hmain 0 [] trivial).2 (by
    rw [plate_uniform_force _ _ (one_steel _), gross_shapes, bars_area]
    dsimp only
    rw [hst _ (by rw [abs_neg, abs_of_pos (by norm_num)]; norm_num at *; linarith [hu.1]), hEs]
    have h2 : max (-designYield sargs) (min (-0.0035) (designYield sargs)) ≤ -0.002 :=
      max_le (by linarith [hy.1]) ((min_le_left _ _).trans (by norm_num))
    generalize max (-designYield sargs) (min (-0.0035) (designYield sargs)) = y at *
    clear h1 h3 h4 hres hmain hst v7 v6 v5 q7 q6 q5
    norm_num at *
    linarith) (by
    rw [plate_uniform_force _ _ (one_steel _), gross_shapes, bars_area, sarginDiagram_tension (by norm_num at *; linarith [hu.1])]
    dsimp only
    rw [hst _ (by rw [abs_of_pos (by norm_num at *; linarith [hu.1])]), hEs,
      min_eq_right (by norm_num at *; linarith [hy.2, hu.1]), max_eq_right (by norm_num at *; linarith [hy.1])]
    clear h1 h3 h4 hres hmain hst v7 v6 v5 q7 q6 q5
    norm_num at *
    linarith [hy.1])
  refine ⟨b, hb, ?_⟩
  obtain ⟨c', -, e, -, he, -, hlim, hf, -⟩ := hres 0 [] b trivial hb
  rw [he]
  exact ⟨hlim, hf⟩

/-- Concrete of 130 MPa is refused by the Model Code. -/
example (hl : PyLower lower) (b : Built Conc) :
    newConcrete lower .mc2010 { defaultArgs 130 with law := .name "sargin" } ≠ some (.ok b) :=
  C86_refused_mc2010 hl _ rfl rfl (Or.inr (by
    have h : |({ defaultArgs 130 with law := .name "sargin" } : ConcArgs).fck| = 130 := abs_of_pos (by norm_num [defaultArgs])
    rw [h]; norm_num)) b

end OrdinaryBeam

end SC
