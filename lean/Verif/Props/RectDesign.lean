import Verif.Props.RectBeam
import Verif.Props.OrdinaryMaterials

/-! # C77: the bending strength of a rectangular beam is the textbook formula -/

set_option autoImplicit false

namespace SC

open Spec MeasureTheory OrdinaryRC

variable {lower : String → String}

/-- The geometry of a rectangular section with one layer of bars. -/
theorem rect_geometry {a b z0 z1 zb : ℝ} (hab : a ≤ b) (hz0 : z0 ≤ zb) (hd : zb < z1) (hdeep : z1 - z0 ≤ 1000 * (z1 - zb))
    (hH : 1e-3 ≤ z1 - z0 ∧ z1 - z0 ≤ 1e9) {bars : List Bar} (hne : bars ≠ []) (hin : ∀ r ∈ bars, a ≤ r.x ∧ r.x ≤ b)
    (hzb : ∀ r ∈ bars, r.y = zb) : RCGeometry 0 (rectShape a b z0 z1) (bars.map fun b => (b.x, b.y)) (z1 - z0) := by
  refine ⟨?_, ?_, hH, ?_⟩
  · intro p hp
    obtain ⟨r, hr, rfl⟩ := List.mem_map.1 hp
    refine ⟨_, List.mem_singleton.2 rfl, rect_hull hab (by linarith) ⟨hin r hr, ?_⟩⟩
    simp only [hzb r hr, Set.mem_Icc]
    exact ⟨hz0, hd.le⟩
  · intro s hs v hv t ht w hw
    rw [List.mem_singleton.1 hs] at hv
    rw [List.mem_singleton.1 ht] at hw
    rw [RCBeam.height_zero, RCBeam.height_zero]
    rcases (rect_vertex hv).2 with e | e <;> rcases (rect_vertex hw).2 with e' | e' <;> rw [e, e'] <;> linarith
  · obtain ⟨r, hr⟩ := List.exists_mem_of_ne_nil _ hne
    refine ⟨(r.x, r.y), List.mem_map_of_mem hr, _, List.mem_singleton.2 rfl, (b, z1), ?_, ?_⟩
    · simp [rectRing, closeRing]
    · rw [RCBeam.height_zero, RCBeam.height_zero]
      simp only [hzb r hr]
      exact hdeep

theorem rect_area {a b z0 z1 : ℝ} (hab : a ≤ b) (hz : z0 ≤ z1) :
    areaMoment 0 0 (Set.Icc a b ×ˢ Set.Icc z0 z1) = (b - a) * (z1 - z0) := by
  have := rect_integral hab hz (fun _ => (1:ℝ))
  simp only [areaMoment, pow_zero, mul_one]
  rw [this]
  simp

set_option maxHeartbeats 1600000 in
/-- **C77**. A rectangle of width `b - a` of normal strength concrete, with one layer of bars of perfectly plastic steel of total
area `As` at depth `d` below the upper face. `X` is the depth of the neutral axis that the textbook equation of equilibrium
`17/21 fc B X = As fyd - n` gives. If under it the bars are beyond yielding and before their ultimate strain, the result of
`calculate_bending_strength` at `theta = 0` under all loads `n` but countably many: crushing of the upper face, neutral axis at depth
`X`, moment `(As fyd - n)(d - 99/238 X) - n zb`, up to the tolerance of the search. -/
theorem C77_rectangular_partial (hl : PyLower lower) (ccls : ConcClass) (ca : ConcArgs) (c : Built Conc)
    (hc : newConcrete lower ccls ca = some (.ok c)) (hcn : ca.law = .name "parabolarectangle")
    (hci : ca.initialStrain = none ∧ ca.initialStress = none) (hce : ca.eps_c2 = none ∧ ca.eps_cu2 = none ∧ ca.n = none)
    (hcf : ccls ≠ .ec2_2023 → |ca.fck| ≤ 50)
    (scls : SteelClass) (sa : SteelArgs) (s : Built Steel)
    (hs : newSteel lower scls sa = some (.ok s)) (hsn : sa.law = .name "elasticperfectlyplastic")
    (hsi : sa.initialStrain = none ∧ sa.initialStress = none)
    (hgap : designYield sa + 1e-6 + 1e-5 * designUltimate scls sa ≤ designUltimate scls sa)
    (heu : 0.0035 ≤ designUltimate scls sa ∧ designUltimate scls sa ≤ 0.09)
    (split : Polygon → ℝ → ℝ → ShapelyResult) (ms : ℝ) (lu : Matrix (Fin 3) (Fin 3) ℝ → (Fin 3 → ℝ) → (Fin 3 → ℝ))
    (a b z0 z1 zb As d fc fyd : ℝ) (bars : List Bar) (id : ℕ) (hbars : ∀ r ∈ bars, r.law = ⟨id, s.mat.law⟩)
    (hne : bars ≠ []) (hin : ∀ r ∈ bars, a ≤ r.x ∧ r.x ≤ b) (hzb : ∀ r ∈ bars, r.y = zb) (hA : ∀ r ∈ bars, 0 ≤ r.area)
    (hAs : As = (bars.map Bar.area).sum) (hab : a < b) (hz0 : z0 ≤ zb) (hd : d = z1 - zb) (hd0 : 0 < d) (hdeep : z1 - z0 ≤ 1000 * d)
    (hH : 1e-3 ≤ z1 - z0 ∧ z1 - z0 ≤ 1e9)
    (hsplit : SplitsExactly split (((⟨rectRing a b z0 z1, []⟩ : Polygon).rotate (-0)).rotate (-Real.pi))
      (rotPt (-Real.pi) '' (rotPt (-0) '' (Set.Icc a b ×ˢ Set.Icc z0 z1))))
    (hfc : fc = designConcrete ccls ca) (hfc0 : 0 < fc) (hfyd : fyd = |sa.Es| * designYield sa) (hy0 : 0 < designYield sa)
    (δ : ℝ) (hδ : δ = (2 * fc / 0.002 * ((b - a) * (z1 - z0)) + |sa.Es| * As) * (z1 - z0))
    (hδ1 : δ ≤ 1e22) (hδ2 : δ ≤ 1e12 * (17 / 21 * fc * (b - a) * (0.0035 / (0.0035 + designUltimate scls sa) * d)))
    (S : CrossSection) (hS : S = concreteSection (normalParts fc (rectShape a b z0 z1)) bars)
    (E : Engine) (hE : E = sectionEngine split ((normalParts fc (rectShape a b z0 z1)).map ConcretePart.solid) bars ms) :
    ∃ C : Set ℝ, C.Countable ∧ ∀ n ∉ C, ∀ ops : List Op, Undisturbed E lu ops .fresh →
      ∀ X τ : ℝ, X = (As * fyd - n) / (17 / 21 * fc * (b - a)) → τ = 1e-2 / (17 / 21 * fc * (b - a)) →
      0.0035 / (0.0035 + designUltimate scls sa) * d + τ < X → X + τ < 0.0035 / (0.0035 + designYield sa) * d →
      ∃ r : BendingResult, (bendingStrength E 0 n (history E lu ops .fresh)).2 = .ok r ∧
        S.forces ![r.eps_a, r.chi.1, r.chi.2] = ![r.n, r.m.1, r.m.2] ∧ |r.n - n| ≤ 1e-2 ∧
        (∃ x > 0, |x - X| ≤ τ ∧ r.chi = (-(0.0035 / x), 0) ∧ r.eps_a + r.chi.1 * z1 = -0.0035 ∧ r.eps_a + r.chi.1 * (z1 - x) = 0 ∧
          designYield sa ≤ r.eps_a + r.chi.1 * zb) ∧
        |-r.m.1 - ((As * fyd - n) * (d - 99 / 238 * X) - n * zb)| ≤ 1e-2 * (d + |zb|) := by
  have hz1 : zb < z1 := by linarith
  have hdeep' : z1 - z0 ≤ 1000 * (z1 - zb) := by rw [← hd]; exact hdeep
  obtain ⟨hult, hclamp, -⟩ := C73_steel hl scls sa s hs hsn hsi.1 hsi.2 hgap
  have hEs := (C48_law hl scls sa s _ hs hsn).1
  have hgeo := rect_geometry hab.le hz0 hz1 hdeep' hH hne hin hzb
  have hAabs : (bars.map fun b => |b.area|).sum = As := by
    rw [hAs]
    congr 1
    exact List.map_congr_left fun r hr => abs_of_nonneg (hA r hr)
  have hAs0 : 0 ≤ As := by
    rw [hAs]
    refine List.sum_nonneg ?_
    intro x hx
    obtain ⟨r, hr, rfl⟩ := List.mem_map.1 hx
    exact hA r hr
  have henc : ∀ p ∈ rectShape a b z0 z1, Encloses p.1.ext p.1.ints p.2 := by
    intro p hp
    rw [List.mem_singleton.1 hp]
    exact encloses_rect hab (by linarith)
  have hull : ∀ p ∈ rectShape a b z0 z1, p.2 ⊆ convexHull ℝ {v | v ∈ p.1.ext} := by
    intro p hp
    rw [List.mem_singleton.1 hp]
    exact rect_hull hab.le (by linarith)
  have hsp : ∀ p ∈ rectShape a b z0 z1,
      SplitsExactly split ((p.1.rotate (-0)).rotate (-Real.pi)) (rotPt (-Real.pi) '' (rotPt (-0) '' p.2)) := by
    intro p hp
    rw [List.mem_singleton.1 hp]
    exact hsplit
  obtain ⟨-, C, hC, hmain⟩ := C73_design_partial hl ccls ca c hc hcn hci hce hcf scls sa s hs hsn hsi hgap heu split ms 0 lu
    (rectShape a b z0 z1) bars id hbars henc hull hsp hgeo hgeo fc hfc δ
    (by rw [hδ, hAabs, abs_of_pos hfc0]; simp only [rectShape, List.map_cons, List.map_nil, List.sum_cons, List.sum_nil, add_zero]
        rw [rect_area hab.le (by linarith)])
    hδ1 S hS E hE
  refine ⟨C, hC, fun n hn ops hops X τ hX hτ hXA hXY => ?_⟩
  have hok : ∀ p ∈ normalParts fc (rectShape a b z0 z1), p.Ok split 0 := by
    intro p hp
    obtain ⟨q, hq, rfl⟩ := List.mem_map.1 hp
    exact ⟨henc q hq, hull q hq, hsp q hq, by norm_num, by norm_num [abs_of_pos]⟩
  set q := 17 / 21 * fc * (b - a) with hq
  have hq0 : 0 < q := by rw [hq]; exact mul_pos (by positivity) (by linarith)
  set eu := designUltimate scls sa with heudef
  set ey := designYield sa with heydef
  have hye : ey ≤ eu := by linarith [heu.1]
  have hlay : ∀ u, |u| ≤ eu → S.forces ![u, 0, 0] 0 =
      (b - a) * ((z1 - z0) * (ParabolaRectangle.new fc 0.002 0.0035 2).stress u) + As * (|sa.Es| * max (-ey) (min u ey)) := by
    intro u hu
    rw [hS, (layer_forces (f := s.mat.law.stress) hzb hAs.symm (fun r hr => by rw [hbars r hr]) u 0).1, rect_force hab.le (by linarith)]
    simp only [zero_mul, add_zero, hclamp u hu]
    rw [intervalIntegral.integral_const, smul_eq_mul]
  have hcrush : (ParabolaRectangle.new fc 0.002 0.0035 2).stress (-0.0035) = -fc := by
    have := block_zone3 (fc := fc) (x := 1) (z1 := 0) (y := 0) one_pos (by norm_num) le_rfl
    rw [sub_zero, mul_zero, add_zero, abs_of_pos hfc0] at this
    exact this
  have htens : (ParabolaRectangle.new fc 0.002 0.0035 2).stress eu = 0 :=
    pr_stress_tension fc 0.002 0.0035 (by norm_num) (by norm_num [abs_of_pos]) (by linarith [heu.1])
  have hlo := hlay (-0.0035) (by rw [abs_neg, abs_of_pos (by norm_num)]; exact heu.1)
  have hhi := hlay eu (by rw [abs_of_pos (by linarith [heu.1])])
  rw [hcrush] at hlo
  rw [htens, min_eq_right hye, max_eq_right (by linarith), ← hfyd] at hhi
  have hEp : 0 < |sa.Es| := abs_pos.2 hEs
  have hsl : |sa.Es| * max (-ey) (min (-0.0035) ey) ≤ 0 :=
    mul_nonpos_of_nonneg_of_nonpos hEp.le (max_le (by linarith) ((min_le_left _ _).trans (by norm_num)))
  have hfyd0 : 0 < fyd := by rw [hfyd]; exact mul_pos hEp hy0
  have hXq : n = As * fyd - q * X := by rw [hX]; field_simp; ring
  have hτq : q * τ = 1e-2 := by rw [hτ]; field_simp
  have hτ0 : 0 < τ := by rw [hτ]; positivity
  set xA := 0.0035 / (0.0035 + eu) * d with hxA
  have hxA0 : 0 < xA := by rw [hxA]; have := heu.1; positivity
  have hxAd : xA ≤ d / 2 := by
    have : 0.0035 / (0.0035 + eu) ≤ 1 / 2 := by
      rw [div_le_div_iff₀ (by linarith [heu.1]) (by norm_num)]; linarith [heu.1]
    calc xA ≤ 1 / 2 * d := mul_le_mul_of_nonneg_right this hd0.le
      _ = d / 2 := by ring
  have hXd : X < d := by
    have : 0.0035 / (0.0035 + ey) ≤ 1 := by rw [div_le_one (by linarith)]; linarith
    have := mul_le_mul_of_nonneg_right this hd0.le
    linarith
  have hdH : d ≤ z1 - z0 := by rw [hd]; linarith
  have hδs : δ * 1e-13 ≤ q * xA / 10 := by
    have : δ * 1e-13 ≤ 1e12 * (q * xA) * 1e-13 := mul_le_mul_of_nonneg_right hδ2 (by norm_num)
    calc δ * 1e-13 ≤ _ := this
      _ = q * xA / 10 := by ring
  have hqx : q * xA ≤ q * (d / 2) := mul_le_mul_of_nonneg_left hxAd hq0.le
  have hqX : q * X ≤ q * d := mul_le_mul_of_nonneg_left hXd.le hq0.le
  have hqA : q * xA < q * X := mul_lt_mul_of_pos_left (by linarith) hq0
  have hqd0 : 0 < q * d := mul_pos hq0 hd0
  have hqxA0 : 0 < q * xA := mul_pos hq0 hxA0
  have hqH : (b - a) * ((z1 - z0) * -fc) ≤ -(21 / 17 * (q * d)) := by
    have : fc * (b - a) * d ≤ fc * (b - a) * (z1 - z0) := mul_le_mul_of_nonneg_left hdH (mul_nonneg hfc0.le (by linarith))
    rw [hq]
    linarith
  have hAf : 0 ≤ As * fyd := mul_nonneg hAs0 hfyd0.le
  have hAsl : As * (|sa.Es| * max (-ey) (min (-0.0035) ey)) ≤ 0 := mul_nonpos_of_nonneg_of_nonpos hAs0 hsl
  obtain ⟨r, hr, ⟨k, hk, hchi⟩, hF, hlim, hadm, hnr⟩ := (hmain n ops hops).2 (by rw [hlo]; linarith) (by rw [hhi]; linarith)
  have hnr := hnr hn
  rw [Real.cos_zero, Real.sin_zero, mul_one, mul_zero] at hchi
  refine ⟨r, hr, hF, hnr, ?_⟩
  have hc1 : r.chi.1 = k := by rw [hchi]
  have hc2 : r.chi.2 = 0 := by rw [hchi]
  rw [hc1, hc2] at hF hlim hadm
  have hF0 : S.forces ![r.eps_a, k, 0] 0 = r.n := by rw [hF]; rfl
  have hF1 : S.forces ![r.eps_a, k, 0] 1 = r.m.1 := by rw [hF]; rfl
  have hXYe : X + τ < 0.0035 / (0.0035 + ey) * (z1 - zb) := by rw [← hd]; exact hXY
  have hXAe : 0.0035 / (0.0035 + eu) * (z1 - zb) + τ < X := by rw [← hd]; exact hXA
  rw [hfyd] at hX
  obtain ⟨x, hx0, hxX, hkx, he0, hyield, g0, g1⟩ := rect_state (n := n) hok hab hfc0 hz1 hz0 hdeep' hEp hy0 hye heu.1 heu.2 hne hzb hA
    hAs.symm (f := s.mat.law.stress) (fun r hr => by rw [hbars r hr]) (fun r hr => by rw [hbars r hr]; exact hult) hclamp hk
    (by rw [← hS]; exact hadm) (by rw [← hS]; exact hlim) (by rw [← hS, hF0]; exact hnr) hτ hX hXAe hXYe
  rw [← hS, hF1, ← hq, ← hfyd] at g1
  refine ⟨⟨x, hx0, hxX, by rw [hchi, hkx], ?_, ?_, by rw [hc1]; exact hyield⟩, ?_⟩
  · rw [hc1, he0, hkx]; ring
  · rw [hc1, he0, hkx]; field_simp; ring
  have hxb := abs_le.1 hxX
  have hxd : x < d := by
    have : 0.0035 / (0.0035 + ey) ≤ 1 := by rw [div_le_one (by linarith)]; linarith
    have := mul_le_mul_of_nonneg_right this hd0.le
    linarith
  have hid : -r.m.1 - ((As * fyd - n) * (d - 99 / 238 * X) - n * zb) = q * (x - X) * (d + zb - 99 / 238 * (x + X)) := by
    rw [g1, hXq, hd]; ring
  rw [hid, abs_mul, abs_mul, abs_of_pos hq0]
  have h1 : q * |x - X| ≤ 1e-2 := by rw [← hτq]; exact mul_le_mul_of_nonneg_left hxX hq0.le
  have h2 : |d + zb - 99 / 238 * (x + X)| ≤ d + |zb| := by
    have := neg_abs_le zb
    have := le_abs_self zb
    rw [abs_le]
    constructor <;> linarith
  exact mul_le_mul h1 h2 (abs_nonneg _) (by norm_num)

end SC
