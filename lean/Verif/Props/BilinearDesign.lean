import Verif.Props.BilinearStrength
import Verif.Props.OrdinaryExample

/-! # C85: from the material objects -/

set_option autoImplicit false

namespace SC

open Spec MeasureTheory

variable {lower : String → String}

/-- **C85** (concrete). A concrete with default strains and the law `bilinearcompression` has the bilinear design diagram of table 3.1. -/
theorem C85_concrete (hl : PyLower lower) (cls : ConcClass) (hcls : cls ≠ .ec2_2023) (a : ConcArgs) (b : Built Conc)
    (h : newConcrete lower cls a = some (.ok b)) (hn : a.law = .name "bilinearcompression")
    (hi1 : a.initialStrain = none) (hi2 : a.initialStress = none) (h1 : a.eps_c3 = none) (h2 : a.eps_cu3 = none) :
    ∃ l, Bilinear.new? (designConcrete cls a) (yieldStrain |a.fck|) (some (ultimateStrain |a.fck|)) = .ok l ∧ b.mat.law = l.law := by
  have hmat : ∀ law, Material.create a.density a.initialStrain a.initialStress a.compat law = some (.ok b.mat) → b.mat.law = law := by
    intro law hm
    rw [hi1, hi2, C15_none] at hm
    simp only [Option.some.injEq, Except.ok.injEq] at hm
    rw [← hm]
  have hy : yieldStrain |a.fck| = EC2_2004.eps_c3 |a.fck| ∧ yieldStrain |a.fck| = MC2010.eps_c3 |a.fck| ∧
      ultimateStrain |a.fck| = EC2_2004.eps_cu3 |a.fck| ∧ ultimateStrain |a.fck| = MC2010.eps_cu3 |a.fck| := by
    simp only [yieldStrain, ultimateStrain, EC2_2004.eps_c3, MC2010.eps_c3, EC2_2004.eps_cu3, MC2010.eps_cu3, EC2_2004.eps_cu2,
      MC2010.eps_cu2, abs_abs]
    refine ⟨?_, ?_, ?_, ?_⟩ <;> split_ifs <;> norm_num
  obtain ⟨y1, y2, y3, y4⟩ := hy
  cases cls with
  | ec2_2004 =>
    obtain ⟨law, hm, hx⟩ := C47_law_ec2_2004 hl a b _ h hn
    simp only [String.reduceEq, false_and, true_and, false_or, or_false] at hx
    obtain ⟨fc, e, u, l, e1, e2, e3, hnew, hlaw⟩ := hx
    obtain ⟨-, -, -, -, -, -, -, v1, -, -, -, -, -, -, v2, v3⟩ := C47_values_ec2_2004 a b h _ _ _ _ rfl rfl rfl rfl
    rw [v1] at e1
    rw [v2] at e2
    rw [v3] at e3
    simp only [Except.ok.injEq, h1, h2, given] at e1 e2 e3
    refine ⟨l, ?_, by rw [hmat law hm, hlaw]⟩
    rw [y1, y3, e2, e3, ← hnew, ← e1]
    rfl
  | mc2010 =>
    obtain ⟨law, hm, hx⟩ := C47_law_mc2010 hl a b _ h hn
    simp only [String.reduceEq, false_and, true_and, false_or, or_false] at hx
    obtain ⟨fc, e, u, l, e1, e2, e3, hnew, hlaw⟩ := hx
    obtain ⟨-, -, -, -, -, -, -, -, v1, -, -, -, -, -, -, v2, v3⟩ := C47_values_mc2010 a b h _ _ rfl rfl
    rw [v1] at e1
    rw [v2] at e2
    rw [v3] at e3
    simp only [Except.ok.injEq, h1, h2, given] at e1 e2 e3
    refine ⟨l, ?_, by rw [hmat law hm, hlaw]⟩
    rw [y2, y4, e2, e3, ← hnew, ← e1]
    rfl
  | ec2_2023 => exact absurd rfl hcls

/-- **C85** (constructors). With default strains the bilinear law is accepted exactly for consistent arguments. -/
theorem C85_accepts (hl : PyLower lower) (cls : ConcClass) (hcls : cls ≠ .ec2_2023) (a : ConcArgs)
    (hlaw : a.law = .name "bilinearcompression") (h1 : a.initialStrain = none) (h2 : a.initialStress = none) (h3 : a.eps_c3 = none) :
    (∃ b, newConcrete lower cls a = some (.ok b)) ↔ ¬ Inconsistent a := by
  refine ⟨fun ⟨b, hb⟩ => newConcrete_consistent hb, fun hc => ?_⟩
  have hlook : constitutiveLaws.lookup (lower "bilinearcompression") = some .bilinearCompression := by
    rw [hl.fixed _ (by simp)]; simp [constitutiveLaws, List.lookup]
  have hg : |Conc.gammaC a.store| ≠ 0 := by
    rw [show |Conc.gammaC a.store| = factor a.gamma_c 1.5 from orDefault_abs _ (by norm_num)]
    exact (factor_pos _ (by norm_num)).ne'
  cases cls with
  | ec2_2023 => exact absurd rfl hcls
  | ec2_2004 =>
    have hf : ∃ v, ConcreteEC2_2004.fcd a.store = .ok v := by
      unfold ConcreteEC2_2004.fcd EC2_2004.fcd
      rw [pyDiv_ok hg]; exact ⟨_, rfl⟩
    obtain ⟨f, hf⟩ := hf
    have hpos : given a.eps_c3 (EC2_2004.eps_c3 |a.fck|) ≠ 0 := by
      simp only [h3, given, EC2_2004.eps_c3, abs_abs]
      split_ifs with h
      · norm_num
      · push Not at h
        have : (0:ℝ) < 1.75 + 0.55 * (|a.fck| - 50) / 40 := by norm_num; linarith
        positivity
    have hkw : ConcreteEC2_2004.methods a.store ("__" ++ "bilinearcompression" ++ "__") =
        some (.ok (.bilinear f (given a.eps_c3 (EC2_2004.eps_c3 |a.fck|)) (given a.eps_cu3 (EC2_2004.eps_cu3 |a.fck|)))) := by
      rw [show "__" ++ "bilinearcompression" ++ "__" = "__bilinearcompression__" by decide]
      have e1 : ConcreteEC2_2004.eps_c3 a.store = .ok (given a.eps_c3 (EC2_2004.eps_c3 |a.fck|)) := orElse_map _ _
      have e2 : ConcreteEC2_2004.eps_cu3 a.store = .ok (given a.eps_cu3 (EC2_2004.eps_cu3 |a.fck|)) := orElse_map _ _
      simp only [ConcreteEC2_2004.methods, String.reduceEq, if_true, if_false, hf, e1, e2]
      rfl
    have hs : ∃ l, selectLaw lower "concrete" a.law (ConcClass.methods .ec2_2004 a.store) = .ok l := by
      rw [hlaw]
      exact ⟨_, selectLaw_name_mk (l := .bilinear ⟨-|f|, -|given a.eps_c3 (EC2_2004.eps_c3 |a.fck|)|, -|given a.eps_cu3 (EC2_2004.eps_cu3 |a.fck|)|⟩)
        hlook hkw (by simp only [mkLaw, Bilinear.new?, if_neg hpos]; rfl) (by simp [AnyLaw.materials])⟩
    obtain ⟨l, hs⟩ := hs
    exact ⟨_, newConcrete_mk h1 h2 (check_ok.2 hc) hs⟩
  | mc2010 =>
    have hf : ∃ v, ConcreteMC2010.fcd a.store = .ok v := by
      unfold ConcreteMC2010.fcd MC2010.fcd
      rw [pyDiv_ok hg]; exact ⟨_, rfl⟩
    obtain ⟨f, hf⟩ := hf
    have hpos : given a.eps_c3 (MC2010.eps_c3 |a.fck|) ≠ 0 := by
      simp only [h3, given, MC2010.eps_c3, abs_abs]
      split_ifs with h
      · norm_num
      · push Not at h
        have : (0:ℝ) < 1.75 + 0.55 * (|a.fck| - 50) / 40 := by norm_num; linarith
        positivity
    have hkw : ConcreteMC2010.methods a.store ("__" ++ "bilinearcompression" ++ "__") =
        some (.ok (.bilinear f (given a.eps_c3 (MC2010.eps_c3 |a.fck|)) (given a.eps_cu3 (MC2010.eps_cu3 |a.fck|)))) := by
      rw [show "__" ++ "bilinearcompression" ++ "__" = "__bilinearcompression__" by decide]
      have e1 : ConcreteMC2010.eps_c3 a.store = .ok (given a.eps_c3 (MC2010.eps_c3 |a.fck|)) := orElse_map _ _
      have e2 : ConcreteMC2010.eps_cu3 a.store = .ok (given a.eps_cu3 (MC2010.eps_cu3 |a.fck|)) := orElse_map _ _
      simp only [ConcreteMC2010.methods, String.reduceEq, if_true, if_false, hf, e1, e2]
      rfl
    have hs : ∃ l, selectLaw lower "concrete" a.law (ConcClass.methods .mc2010 a.store) = .ok l := by
      rw [hlaw]
      exact ⟨_, selectLaw_name_mk (l := .bilinear ⟨-|f|, -|given a.eps_c3 (MC2010.eps_c3 |a.fck|)|, -|given a.eps_cu3 (MC2010.eps_cu3 |a.fck|)|⟩)
        hlook hkw (by simp only [mkLaw, Bilinear.new?, if_neg hpos]; rfl) (by simp [AnyLaw.materials])⟩
    obtain ⟨l, hs⟩ := hs
    exact ⟨_, newConcrete_mk h1 h2 (check_ok.2 hc) hs⟩

theorem bilinear_ranges {f : ℝ} (h2 : f ≤ 90) : 0.00175 ≤ yieldStrain f ∧ yieldStrain f ≤ ultimateStrain f ∧
    0.0026 ≤ ultimateStrain f ∧ ultimateStrain f ≤ 0.0035 := by
  unfold yieldStrain ultimateStrain
  split_ifs with h1
  · norm_num
  · push Not at h1
    have a0 : (0:ℝ) ≤ (90 - f) / 100 := by linarith
    have a1 : (90 - f) / 100 ≤ 0.4 := by norm_num at *; linarith
    have p0 : 0 ≤ ((90 - f) / 100) ^ 4 := by positivity
    have p1 : ((90 - f) / 100) ^ 4 ≤ 0.4 ^ 4 := pow_le_pow_left₀ a0 a1 4
    norm_num at *
    refine ⟨?_, ?_, ?_, ?_⟩ <;> linarith

/-- **C85** (design). The same from the arguments of the material constructors, for concrete up to 90 MPa.
Partial: see `C85_strength_partial`. -/
theorem C85_design_partial (hl : PyLower lower) (ccls : ConcClass) (hcls : ccls ≠ .ec2_2023) (ca : ConcArgs) (c : Built Conc)
    (hc : newConcrete lower ccls ca = some (.ok c)) (hcn : ca.law = .name "bilinearcompression")
    (hci : ca.initialStrain = none ∧ ca.initialStress = none) (hce : ca.eps_c3 = none ∧ ca.eps_cu3 = none)
    (hcf : |ca.fck| ≤ 90)
    (scls : SteelClass) (sa : SteelArgs) (s : Built Steel)
    (hs : newSteel lower scls sa = some (.ok s)) (hsn : sa.law = .name "elasticperfectlyplastic")
    (hsi : sa.initialStrain = none ∧ sa.initialStress = none)
    (hgap : designYield sa + 1e-6 + 1e-5 * designUltimate scls sa ≤ designUltimate scls sa)
    {eu : ℝ} (heud : eu = designUltimate scls sa) (heu : 0.0035 ≤ eu ∧ eu ≤ 0.09)
    (split : Polygon → ℝ → ℝ → ShapelyResult) (ms : ℝ) (lu : Matrix (Fin 3) (Fin 3) ℝ → (Fin 3 → ℝ) → (Fin 3 → ℝ))
    (shapes : List (Polygon × Set (ℝ × ℝ))) (bars : List Bar) (id : ℕ) (hbars : ∀ b ∈ bars, b.law = ⟨id, s.mat.law⟩)
    (hA : ∀ b ∈ bars, 0 ≤ b.area)
    (henc : ∀ p ∈ shapes, Encloses p.1.ext p.1.ints p.2) (hull : ∀ p ∈ shapes, p.2 ⊆ convexHull ℝ {v | v ∈ p.1.ext})
    {th H H0 R L δ fc e0 u : ℝ} (hsplit : ∀ p ∈ shapes,
      SplitsExactly split ((p.1.rotate (-th)).rotate (-Real.pi)) (rotPt (-Real.pi) '' (rotPt (-th) '' p.2)))
    (hg0 : RCGeometry 0 shapes (bars.map fun b => (b.x, b.y)) H0) (hg : RCGeometry th shapes (bars.map fun b => (b.x, b.y)) H)
    (hR : ∀ p ∈ shapes, ∀ v ∈ p.1.ext, |height th v| ≤ R)
    (hfc : fc = designConcrete ccls ca) (hfc0 : 0 ≤ fc) (he0 : e0 = yieldStrain |ca.fck|) (hu : u = ultimateStrain |ca.fck|)
    (hL : L = max (fc / e0) |sa.Es|)
    (hδ : δ = L * (grossArea shapes + (bars.map fun b => |b.area|).sum) * H) (hsmall : δ ≤ 1e22)
    {T : CrossSection} (hT : T = plateSection shapes bars (bilinearDiagram fc e0) u)
    {E : Engine} (hE : E = sectionEngine split (bilinearSolids ⟨-fc, -e0, -u⟩ shapes) bars ms) :
    c.mat.law = (⟨-fc, -e0, -u⟩ : Bilinear).law ∧
    (limits E .fresh).2 = .ok (T.forces ![-u, 0, 0] 0, T.forces ![eu, 0, 0] 0) ∧
    (∃ C : Set ℝ, C.Countable ∧ ∀ (n : ℝ) (ops : List Op), Undisturbed E lu ops .fresh →
      (n < T.forces ![-u, 0, 0] 0 ∨ T.forces ![eu, 0, 0] 0 < n →
        (bendingStrength E th n (history E lu ops .fresh)).2 = .error .valueError) ∧
      (T.forces ![-u, 0, 0] 0 + δ * 1e-13 < n → n < T.forces ![eu, 0, 0] 0 - δ * 1e-13 →
        ∃ b : BendingResult, (bendingStrength E th n (history E lu ops .fresh)).2 = .ok b ∧ (n ∉ C → |b.n - n| ≤ 1e-2))) ∧
    ∀ (n : ℝ) (ops : List Op) (b : BendingResult), Undisturbed E lu ops .fresh →
      (bendingStrength E th n (history E lu ops .fresh)).2 = .ok b → ∃ c < 0, ∃ e, e = planeThrough th 0 b.eps_a c ∧
        ![b.eps_a, b.chi.1, b.chi.2] = e ∧ T.Admissible e ∧ T.AtLimit e ∧ T.forces e = ![b.n, b.m.1, b.m.2] ∧
        ∀ v c, T.Admissible (planeThrough th 0 v c) → bendingMoment th (T.forces (planeThrough th 0 v c)) ≤
          bendingMoment th ![b.n, b.m.1, b.m.2] + R * |T.forces (planeThrough th 0 v c) 0 - b.n| := by
  obtain ⟨r1, r2, r3, r4⟩ := bilinear_ranges hcf
  rw [← he0] at r1 r2
  rw [← hu] at r2 r3 r4
  have q1 : 0 < e0 := by norm_num at *; linarith
  have q2 : 0 < u := by norm_num at *; linarith
  obtain ⟨hult, hst, hlip⟩ := C73_steel hl scls sa s hs hsn hsi.1 hsi.2 hgap
  rw [← heud] at hult hst
  have a1 : |fc| = fc := abs_of_nonneg hfc0
  have a2 : |e0| = e0 := abs_of_pos q1
  have a3 : |u| = u := abs_of_pos q2
  obtain ⟨l, hnew, hlaw⟩ := C85_concrete hl ccls hcls ca c hc hcn hci.1 hci.2 hce.1 hce.2
  rw [← hfc, ← he0, ← hu] at hnew
  have hl' : l = ⟨-fc, -e0, -u⟩ := by rw [(bilinear_new hnew).2, a1, a2, a3]
  rw [hl'] at hnew hlaw
  refine ⟨hlaw, ?_⟩
  have hyp : MonotoneOn s.mat.law.stress (Set.Icc (-eu) eu) := by
    intro x hx y hy hxy
    rw [hst x (abs_le.2 hx), hst y (abs_le.2 hy)]
    exact mul_le_mul_of_nonneg_left (max_le_max_left _ (min_le_min_right _ hxy)) (abs_nonneg _)
  have := C85_strength_partial split ms lu shapes bars (eu := eu) (K := |sa.Es|) (L := L)
    (H := H) (H0 := H0) (R := R) (th := th) (δ := δ) hnew (by rw [a2, a3]; exact r2)
    (by rw [a3]; constructor <;> norm_num at * <;> linarith) hbars hult
    (by rw [a3]; exact ⟨r4.trans heu.1, by have := heu.1; norm_num at *; linarith, heu.2⟩) (by rw [hult] at hlip; exact hlip) hyp hA henc hull hsplit hg0 hg hR (by rw [a1, a2]; exact hL)
    hδ hsmall (T := T) (by rw [a1, a2, a3]; exact hT) hE
  rw [a3] at this
  exact this

namespace OrdinaryBeam

/-- A concrete with the bilinear law. -/
noncomputable def bilinearArgs : ConcArgs := { defaultArgs 30 with law := .name "bilinearcompression" }

/-- C30 with the bilinear diagram and B500: the beam has a strength in pure bending, with the exact forces of the diagram. -/
theorem bilinear_returns (hl : PyLower lower) (ccls : ConcClass) (hcls : ccls ≠ .ec2_2023) (scls : SteelClass) :
    ∃ c s, newConcrete lower ccls bilinearArgs = some (.ok c) ∧ newSteel lower scls sargs = some (.ok s) ∧
    ∃ b : BendingResult, (bendingStrength (sectionEngine RCBeam.split (bilinearSolids ⟨-20, -0.00175, -0.0035⟩ shapes) (bars s.mat.law) 0.01)
        0 0 .fresh).2 = .ok b ∧
      (plateSection shapes (bars s.mat.law) (bilinearDiagram 20 0.00175) 0.0035).forces ![b.eps_a, b.chi.1, b.chi.2] = ![b.n, b.m.1, b.m.2] := by
  obtain ⟨-, s, -, hs⟩ := accepted hl ccls scls
  obtain ⟨c, hc⟩ := (C85_accepts hl ccls hcls bilinearArgs rfl rfl rfl rfl).2 (by simp [Inconsistent, bilinearArgs, defaultArgs])
  refine ⟨c, s, hc, hs, ?_⟩
  have hu := ultimate_range scls
  have hy := yield_range
  have h30 : |bilinearArgs.fck| = 30 := abs_of_pos (by norm_num [bilinearArgs, defaultArgs])
  have hfc : designConcrete ccls bilinearArgs = 20 := by
    cases ccls
    · simp [designConcrete, bilinearArgs, defaultArgs, factor]; norm_num
    · simp [designConcrete, bilinearArgs, defaultArgs, factor]; norm_num
    · exact absurd rfl hcls
  have hy0 : yieldStrain |bilinearArgs.fck| = 0.00175 := by rw [h30, yieldStrain, if_pos (by norm_num)]
  have hu0 : ultimateStrain |bilinearArgs.fck| = 0.0035 := by rw [h30, ultimateStrain, if_pos (by norm_num)]
  have harea : areaMoment 0 0 (Set.Icc (-150:ℝ) 150 ×ˢ Set.Icc (-250:ℝ) 250) = 150000 := by
    simp only [areaMoment, pow_zero, mul_one]
    rw [setIntegral_const, Measure.real, Measure.volume_eq_prod, Measure.prod_prod, Real.volume_Icc, Real.volume_Icc]
    norm_num
  have hgross : grossArea shapes = 150000 := by
    simp only [grossArea, shapes, List.map_cons, List.map_nil, List.sum_cons, List.sum_nil, harea, add_zero]
  have hbar : ((bars s.mat.law).map fun b => |b.area|).sum = 2000 := by
    simp only [bars, bar, List.map_cons, List.map_nil, List.sum_cons, List.sum_nil]; norm_num
  have hEs : |sargs.Es| = 200000 := by norm_num [sargs, steelArgs]
  have hL : max ((20:ℝ) / 0.00175) |sargs.Es| = 200000 := by
    rw [hEs, max_eq_right (by norm_num)]
  obtain ⟨-, hst, -⟩ := C73_steel hl scls sargs s hs rfl rfl rfl (gap scls)
  obtain ⟨-, -, ⟨C, -, hmain⟩, hres⟩ := C85_design_partial hl ccls hcls bilinearArgs c hc rfl ⟨rfl, rfl⟩ ⟨rfl, rfl⟩
    (by rw [h30]; norm_num) scls sargs s hs rfl ⟨rfl, rfl⟩ (gap scls) rfl ⟨by norm_num at *; linarith [hu.1], by norm_num at *; linarith [hu.2]⟩
    RCBeam.split 0.01 (fun _ _ => 0) shapes (bars s.mat.law) 1 (one_steel _)
    (by
      intro b hb
      simp only [bars, bar, List.mem_cons, List.not_mem_nil, or_false] at hb
      rcases hb with rfl | rfl | rfl | rfl <;> norm_num)
    (by intro p hp; rw [List.mem_singleton.1 hp]; exact RCBeam.ok.encloses)
    (by intro p hp; rw [List.mem_singleton.1 hp]; exact hull) (th := 0) (R := 250)
    (by intro p hp; rw [List.mem_singleton.1 hp]; exact RCBeam.ok.splits)
    (geometry _) (geometry _) (by
      intro p hp v hv
      rw [List.mem_singleton.1 hp] at hv
      rw [RCBeam.height_zero]
      rcases mem_ring hv with rfl | rfl | rfl | rfl <;> norm_num) hfc.symm (by norm_num) hy0.symm hu0.symm rfl rfl
    (by rw [hL, hgross, hbar]; norm_num) rfl rfl
  rw [hL, hgross, hbar] at hmain
  have hforce : ∀ v : ℝ, |v| ≤ designUltimate scls sargs →
      (plateSection shapes (bars s.mat.law) (bilinearDiagram 20 0.00175) 0.0035).forces ![v, 0, 0] 0 =
      (∫ x in Set.Icc (-150:ℝ) 150 ×ˢ Set.Icc (-250:ℝ) 250, bilinearDiagram 20 0.00175 v) +
        2000 * (200000 * max (-designYield sargs) (min v (designYield sargs))) := by
    intro v hv
    have e := hst v hv
    rw [hEs] at e
    rw [← e]
    have hp : ∀ x y : ℝ, planeStrain ![v, 0, 0] x y = v := by intro x y; simp [planeStrain]
    simp only [CrossSection.forces, plateSection, shapes, bars, bar, Bar.fibre, resultants, regionResultants, lever,
      List.map_cons, List.map_nil, List.sum_cons, List.sum_nil, Pi.add_apply, Matrix.cons_val, mul_one, add_zero, hp]
    ring
  obtain ⟨b, hb, -⟩ := (hmain 0 [] trivial).2 (by
    rw [hforce _ (by rw [abs_neg, abs_of_pos (by norm_num)]; norm_num at *; linarith [hu.1])]
    have h1 : (∫ x in Set.Icc (-150:ℝ) 150 ×ˢ Set.Icc (-250:ℝ) 250, bilinearDiagram 20 0.00175 (-0.0035)) ≤ 0 :=
      integral_nonpos fun x => (bilinearDiagram_range (by norm_num) (by norm_num) _).2
    have h2 : max (-designYield sargs) (min (-0.0035) (designYield sargs)) ≤ -0.002 :=
      max_le (by linarith [hy.1]) ((min_le_left _ _).trans (by norm_num))
    refine lt_of_le_of_lt (add_le_add_left (add_le_add h1 (mul_le_mul_of_nonneg_left (mul_le_mul_of_nonneg_left h2 (by norm_num))
      (by norm_num))) _) (by norm_num)) (by
    have hz : bilinearDiagram 20 0.00175 (designUltimate scls sargs) = 0 := by
      simp only [bilinearDiagram]
      rw [max_eq_right (by norm_num at *; linarith [hu.1]), min_eq_left (by norm_num)]; norm_num
    rw [hforce _ (by rw [abs_of_pos (by norm_num at *; linarith [hu.1])]), hz]
    rw [min_eq_right (by norm_num at *; linarith [hy.2, hu.1]), max_eq_right (by norm_num at *; linarith [hy.1])]
    simp only [integral_zero]
    norm_num at *
    linarith [hy.1])
  refine ⟨b, hb, ?_⟩
  obtain ⟨c', -, e, -, he, -, -, hf, -⟩ := hres 0 [] b trivial hb
  rw [he]
  exact hf

end OrdinaryBeam

end SC
