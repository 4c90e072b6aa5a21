import Verif.Props.DiagramEnd

/-! # C78: the diagram of a rectangular beam does not end at its bending strength -/

set_option autoImplicit false

namespace SC

open Spec MeasureTheory OrdinaryRC

variable {lower : String → String}

set_option maxHeartbeats 1600000 in
/-- **C78** (violated). The beams of C77. At the curvature of the bending strength, `calculate_moment_curvature` does not search: when
the strain of the point before is below that of the ultimate state and the bars yield, that strain is returned as it is. The upper face
is beyond `-0.0035` by the difference of the two strains, and the moment is below the bending strength by `17/21 fc B x²/0.0035` times
that difference. -/
theorem C78_end_violated (hl : PyLower lower) (ccls : ConcClass) (ca : ConcArgs) (c : Built Conc)
    (hc : newConcrete lower ccls ca = some (.ok c)) (hcn : ca.law = .name "parabolarectangle")
    (hci : ca.initialStrain = none ∧ ca.initialStress = none) (hce : ca.eps_c2 = none ∧ ca.eps_cu2 = none ∧ ca.n = none)
    (hcf : ccls ≠ .ec2_2023 → |ca.fck| ≤ 50)
    (scls : SteelClass) (sa : SteelArgs) (s : Built Steel)
    (hs : newSteel lower scls sa = some (.ok s)) (hsn : sa.law = .name "elasticperfectlyplastic")
    (hsi : sa.initialStrain = none ∧ sa.initialStress = none)
    (hgap : designYield sa + 1e-6 + 1e-5 * designUltimate scls sa ≤ designUltimate scls sa)
    (heu : 0.0035 ≤ designUltimate scls sa ∧ designUltimate scls sa ≤ 0.09)
    (split : Polygon → ℝ → ℝ → ShapelyResult) (ms : ℝ) (lu : Matrix (Fin 3) (Fin 3) ℝ → (Fin 3 → ℝ) → (Fin 3 → ℝ))
    (a b z0 z1 zb As d fc fyd : ℝ) (bars : List Bar) (id : ℕ) (hbars : ∀ r ∈ bars, r.law = ⟨id, s.mat.law⟩)
    (hne : bars ≠ []) (hin : ∀ r ∈ bars, a ≤ r.x ∧ r.x ≤ b) (hzb : ∀ r ∈ bars, r.y = zb) (hA : ∀ r ∈ bars, 0 ≤ r.area)
    (hAs : As = (bars.map Bar.area).sum) (hab : a < b) (hz0 : z0 ≤ zb) (hd : d = z1 - zb) (hd0 : 0 < d) (hdeep : z1 - z0 ≤ 1000 * d)
    (hH : 1e-3 ≤ z1 - z0 ∧ z1 - z0 ≤ 1e9)
    (hsplit : SplitsExactly split (((⟨rectRing a b z0 z1, []⟩ : Polygon).rotate (-0)).rotate (-Real.pi))
      (rotPt (-Real.pi) '' (rotPt (-0) '' (Set.Icc a b ×ˢ Set.Icc z0 z1))))
    (hfc : fc = designConcrete ccls ca) (hfc0 : 0 < fc) (hfyd : fyd = |sa.Es| * designYield sa) (hy0 : 1e-4 ≤ designYield sa)
    (δ : ℝ) (hδ : δ = (2 * fc / 0.002 * ((b - a) * (z1 - z0)) + |sa.Es| * As) * (z1 - z0))
    (hδ1 : δ ≤ 1e22) (hδ2 : δ ≤ 1e12 * (17 / 21 * fc * (b - a) * (0.0035 / (0.0035 + designUltimate scls sa) * d)))
    (E : Engine) (hE : E = sectionEngine split ((normalParts fc (rectShape a b z0 z1)).map ConcretePart.solid) bars ms) :
    ∃ C : Set ℝ, C.Countable ∧ ∀ n ∉ C, ∀ ops : List Op, Undisturbed E lu ops .fresh →
      ∀ X τ : ℝ, X = (As * fyd - n) / (17 / 21 * fc * (b - a)) → τ = 1e-2 / (17 / 21 * fc * (b - a)) →
      0.0035 / (0.0035 + designUltimate scls sa) * d + τ < X → X + τ < 0.0035 / (0.0035 + designYield sa) * d →
      ∃ r : BendingResult, (bendingStrength E 0 n (history E lu ops .fresh)).2 = .ok r ∧
        r.eps_a + r.chi.1 * z1 = -0.0035 ∧ ∃ x > 0, |x - X| ≤ τ ∧ r.chi = (-(0.0035 / x), 0) ∧
        ∀ (ops' : List Op) (cf : ℝ) (num_pre num_post : ℕ) (chi : Option (List ℝ)) (pts : List MCPoint),
          Undisturbed E lu ops' .fresh → cf ≠ 0 → 1 ≤ num_pre → (∀ l, chi = some l → ∀ k ∈ l, k < 0) →
          (momentCurvature E 0 n cf num_pre num_post chi (history E lu ops' .fresh)).2 = .ok pts →
          ∀ q ∈ (0 :: pts.map Prod.fst).zip pts, q.2.2.2 = r.chi → q.1 ≤ r.eps_a → designYield sa ≤ q.1 + r.chi.1 * zb →
            q.2.1 = q.1 ∧ q.2.1 + r.chi.1 * z1 = -0.0035 - (r.eps_a - q.1) ∧
            -q.2.2.1.1 = -r.m.1 - 17 / 21 * fc * (b - a) * x ^ 2 / 0.0035 * (r.eps_a - q.1) := by
  have hy0' : 0 < designYield sa := lt_of_lt_of_le (by norm_num) hy0
  obtain ⟨C, hC, hmain⟩ := C77_rectangular_partial hl ccls ca c hc hcn hci hce hcf scls sa s hs hsn hsi hgap heu split ms lu a b z0 z1 zb As d
    fc fyd bars id hbars hne hin hzb hA hAs hab hz0 hd hd0 hdeep hH hsplit hfc hfc0 hfyd hy0' δ hδ hδ1 hδ2 _ rfl E hE
  obtain ⟨hult, hclamp, -⟩ := C73_steel hl scls sa s hs hsn hsi.1 hsi.2 hgap
  have hyield := steel_yield hl scls sa s hs hsn hsi.1 hsi.2
  have hz1 : zb < z1 := by linarith
  have hgeo := rect_geometry hab.le hz0 hz1 (by rw [← hd]; exact hdeep) hH hne hin hzb
  have hok : ∀ p ∈ normalParts fc (rectShape a b z0 z1), p.Ok split 0 := by
    intro p hp
    obtain ⟨q, hq, rfl⟩ := List.mem_map.1 hp
    rw [List.mem_singleton.1 hq]
    exact ⟨encloses_rect hab (by linarith), rect_hull hab.le (by linarith), hsplit, by norm_num, by norm_num [abs_of_pos]⟩
  have hO := hgeo.ordinary (fc := fc) hbars hult heu.1 heu.2
  have hY : YieldsRC (normalParts fc (rectShape a b z0 z1)) bars 0.0035 (designUltimate scls sa) 0.002 (designYield sa) := by
    refine ⟨?_, ?_, by norm_num, hy0, by linarith [heu.1]⟩
    · intro p hp
      obtain ⟨q, hq, rfl⟩ := List.mem_map.1 hp
      norm_num [abs_of_pos]
    · intro b hb'
      rw [hbars b hb', hyield]
  obtain ⟨yn, yp, st, hbal, -, -, hst2, -, hst, -⟩ := hO.search ms hok
  obtain ⟨yn', yp', sty, hbaly, -, -, hsty2, hsty, -⟩ := hO.yielding_steep (split := split) (ms := ms) hY
    fun p hp => concrete_ne hok _ (List.mem_map_of_mem hp)
  have hLaw : E.Lawful fun _ => .ok (groupBars bars) := by rw [hE]; exact marinEngine_lawful _ _ _ _ _ _
  have hAns : E.Answers (groupBars bars) (crossSection ((normalParts fc (rectShape a b z0 z1)).map ConcretePart.solid) bars) 0 := by
    rw [hE]
    exact fun k hk => concrete_answers ms hok (single_ids hbars) (single_sizes hbars) hk.ne fun h => absurd h hk.not_gt
  refine ⟨C, hC, fun n hn ops hops X τ hX hτ hXA hXY => ?_⟩
  obtain ⟨r, hr, hF, hnr, ⟨x, hx, hxX, hchi, htop, hzero, hy⟩, -⟩ := hmain n hn ops hops X τ hX hτ hXA hXY
  refine ⟨r, hr, htop, x, hx, hxX, hchi, ?_⟩
  intro ops' cf num_pre num_post chi pts hops' hcf0 hpre hneg hrun q hq hqc hqe hqy
  have hcan : Canonical E (fun _ => .ok (groupBars bars)) (history E lu ops' .fresh) :=
    canonical_history lu hLaw rfl ops' _ .fresh hops'
  obtain ⟨grid, hch, hcs, hms, -⟩ := mc_chain hLaw rfl hAns hneg hcf0 hpre (by rw [hE]; exact hbal) (by rw [hE]; exact hbaly) hst hsty hst2 hsty2
    hcan hrun
  obtain ⟨k, -, j, hk, hrun'⟩ := hch.step pts Prod.fst (fun p => p.2.2) _ rfl hcs q hq
  simp only [Real.cos_zero, Real.sin_zero, mul_one, mul_zero] at hk
  have hc1 : r.chi.1 = -(0.0035 / x) := by rw [hchi]
  have hkx : k = -(0.0035 / x) := by
    have : (k, (0:ℝ)) = (-(0.0035 / x), 0) := by rw [← hk, hqc, hchi]
    exact (Prod.mk.inj this).1
  have hU : r.eps_a = -0.0035 + 0.0035 / x * z1 := by rw [hc1] at htop; linarith
  have hxA : 0.0035 / (0.0035 + designUltimate scls sa) * d < x := by have := (abs_le.1 hxX).1; linarith
  have hbar : r.eps_a + k * zb ≤ designUltimate scls sa := by
    have h1 : r.eps_a + k * zb = -0.0035 + 0.0035 * d / x := by rw [hU, hkx, hd]; field_simp; ring
    rw [h1]
    have h2 : 0.0035 * d < x * (0.0035 + designUltimate scls sa) := by
      rw [div_mul_eq_mul_div, div_lt_iff₀ (by linarith [heu.1])] at hxA
      exact hxA
    have h3 : 0.0035 * d / x < 0.0035 + designUltimate scls sa := by
      rw [div_lt_iff₀ hx]; linarith
    linarith
  have hf : ∀ r ∈ bars, r.law.law.stress = s.mat.law.stress := fun r hr => by rw [hbars r hr]
  obtain ⟨d1, d2⟩ := displaced_forces (fc := fc) hab.le hfc0 hx hz0 hzb hAs.symm hf hclamp hy0' hU hkx hqe (by rw [hkx, ← hc1]; exact hqy) hbar
  -- the ultimate state
  have hxd : x ≤ z1 - z0 := by
    have h1 : x < d := by
      have h2 : 0 < r.eps_a + r.chi.1 * zb := lt_of_lt_of_le hy0' hy
      have h3 : r.eps_a + r.chi.1 * zb = 0.0035 / x * (d - x) := by rw [hU, hc1, hd]; field_simp; ring
      rw [h3] at h2
      have := (mul_pos_iff_of_pos_left (by positivity)).1 h2
      linarith
    linarith
  obtain ⟨u1, u2⟩ := rect_block (fc := fc) hab.le hx hxd
  obtain ⟨l1, l2⟩ := layer_forces (parts := normalParts fc (rectShape a b z0 z1)) hzb hAs.symm hf r.eps_a r.chi.1
  have hfv : s.mat.law.stress (r.eps_a + r.chi.1 * zb) = |sa.Es| * designYield sa := by
    rw [hclamp _ (by rw [abs_of_pos (by linarith), hc1, ← hkx]; exact hbar), min_eq_right hy, max_eq_right (by linarith)]
  rw [hfv] at l1 l2
  rw [show r.chi.2 = 0 by rw [hchi]] at hF
  have hr0 : r.n = As * (|sa.Es| * designYield sa) - 17 / 21 * fc * (b - a) * x := by
    have h0 := congrFun hF 0
    simp only [Matrix.cons_val] at h0
    rw [← h0, l1, hc1, hU, u1, abs_of_pos hfc0]; ring
  have hr1 : r.m.1 = As * (|sa.Es| * designYield sa) * zb - 17 / 21 * fc * (b - a) * x * (z1 - 99 / 238 * x) := by
    have h0 := congrFun hF 1
    simp only [Matrix.cons_val] at h0
    rw [← h0, l2, hc1, hU, u2, abs_of_pos hfc0]; ring
  rw [← hr0] at d1
  unfold fixedCurvature at hrun'
  simp only [d1, if_pos hnr, Option.some.injEq, Prod.mk.injEq, Except.ok.injEq] at hrun'
  have hst' : q.2.1 = q.1 := hrun'.1.1.symm
  refine ⟨hst', by rw [hst']; linarith, ?_⟩
  have hm := hms q.2 (List.of_mem_zip hq).2
  have hm1 : q.2.2.1.1 = (crossSection ((normalParts fc (rectShape a b z0 z1)).map ConcretePart.solid) bars).forces ![q.1, k, 0] 1 := by
    rw [← hm, MCPoint.plane, hst', hk]
  rw [hm1, d2, hr1]
  ring

set_option maxHeartbeats 1600000 in
/-- **C78** (violated), in terms of the diagram. If the bars are below the axis, and the point before the one at the curvature of the
bending strength is in equilibrium with yielding bars and no crushed concrete, and less curved, the last point has its axial strain. -/
theorem C78_repeats_violated (hl : PyLower lower) (ccls : ConcClass) (ca : ConcArgs) (c : Built Conc)
    (hc : newConcrete lower ccls ca = some (.ok c)) (hcn : ca.law = .name "parabolarectangle")
    (hci : ca.initialStrain = none ∧ ca.initialStress = none) (hce : ca.eps_c2 = none ∧ ca.eps_cu2 = none ∧ ca.n = none)
    (hcf : ccls ≠ .ec2_2023 → |ca.fck| ≤ 50)
    (scls : SteelClass) (sa : SteelArgs) (s : Built Steel)
    (hs : newSteel lower scls sa = some (.ok s)) (hsn : sa.law = .name "elasticperfectlyplastic")
    (hsi : sa.initialStrain = none ∧ sa.initialStress = none)
    (hgap : designYield sa + 1e-6 + 1e-5 * designUltimate scls sa ≤ designUltimate scls sa)
    (heu : 0.0035 ≤ designUltimate scls sa ∧ designUltimate scls sa ≤ 0.09)
    (split : Polygon → ℝ → ℝ → ShapelyResult) (ms : ℝ) (lu : Matrix (Fin 3) (Fin 3) ℝ → (Fin 3 → ℝ) → (Fin 3 → ℝ))
    (a b z0 z1 zb As d fc fyd : ℝ) (bars : List Bar) (id : ℕ) (hbars : ∀ r ∈ bars, r.law = ⟨id, s.mat.law⟩)
    (hne : bars ≠ []) (hin : ∀ r ∈ bars, a ≤ r.x ∧ r.x ≤ b) (hzb : ∀ r ∈ bars, r.y = zb) (hA : ∀ r ∈ bars, 0 ≤ r.area)
    (hAs : As = (bars.map Bar.area).sum) (hab : a < b) (hz0 : z0 ≤ zb) (hd : d = z1 - zb) (hd0 : 0 < d) (hdeep : z1 - z0 ≤ 1000 * d)
    (hH : 1e-3 ≤ z1 - z0 ∧ z1 - z0 ≤ 1e9)
    (hsplit : SplitsExactly split (((⟨rectRing a b z0 z1, []⟩ : Polygon).rotate (-0)).rotate (-Real.pi))
      (rotPt (-Real.pi) '' (rotPt (-0) '' (Set.Icc a b ×ˢ Set.Icc z0 z1))))
    (hfc : fc = designConcrete ccls ca) (hfc0 : 0 < fc) (hfyd : fyd = |sa.Es| * designYield sa) (hy0 : 1e-4 ≤ designYield sa)
    (δ : ℝ) (hδ : δ = (2 * fc / 0.002 * ((b - a) * (z1 - z0)) + |sa.Es| * As) * (z1 - z0))
    (hδ1 : δ ≤ 1e22) (hδ2 : δ ≤ 1e12 * (17 / 21 * fc * (b - a) * (0.0035 / (0.0035 + designUltimate scls sa) * d)))
    (E : Engine) (hE : E = sectionEngine split ((normalParts fc (rectShape a b z0 z1)).map ConcretePart.solid) bars ms) :
    ∃ C : Set ℝ, C.Countable ∧ ∀ n ∉ C, ∀ ops : List Op, Undisturbed E lu ops .fresh →
      ∀ X τ : ℝ, X = (As * fyd - n) / (17 / 21 * fc * (b - a)) → τ = 1e-2 / (17 / 21 * fc * (b - a)) →
      0.0035 / (0.0035 + designUltimate scls sa) * d + τ < X → X + τ < 0.0035 / (0.0035 + designYield sa) * d →
      ∃ r : BendingResult, (bendingStrength E 0 n (history E lu ops .fresh)).2 = .ok r ∧
        r.eps_a + r.chi.1 * z1 = -0.0035 ∧ ∃ x > 0, |x - X| ≤ τ ∧ r.chi = (-(0.0035 / x), 0) ∧
        ∀ (ops' : List Op) (cf : ℝ) (num_pre num_post : ℕ) (chi : Option (List ℝ)) (pts : List MCPoint),
          Undisturbed E lu ops' .fresh → cf ≠ 0 → 1 ≤ num_pre → (∀ l, chi = some l → ∀ k ∈ l, k < 0) →
          (momentCurvature E 0 n cf num_pre num_post chi (history E lu ops' .fresh)).2 = .ok pts →
          ∀ q ∈ pts.zip pts.tail, q.2.2.2 = r.chi → q.1.2.2.1 < 0 → q.1.2.2.2 = 0 →
            |(crossSection ((normalParts fc (rectShape a b z0 z1)).map ConcretePart.solid) bars).forces q.1.plane 0 - n| ≤ 1e-2 →
            -0.0035 ≤ q.1.1 + q.1.2.2.1 * z1 → designYield sa ≤ q.1.1 + q.1.2.2.1 * zb →
            q.1.1 + q.1.2.2.1 * zb ≤ designUltimate scls sa → zb ≤ 0 → r.chi.1 ≤ q.1.2.2.1 →
            |q.1.2.2.1| * (z1 - X + τ) ≤ |r.chi.1| * (z1 - X - τ) →
            q.2.1 = q.1.1 ∧ q.2.1 + r.chi.1 * z1 = -0.0035 - (r.eps_a - q.1.1) ∧
            -q.2.2.1.1 = -r.m.1 - 17 / 21 * fc * (b - a) * x ^ 2 / 0.0035 * (r.eps_a - q.1.1) := by
  have hy0' : 0 < designYield sa := lt_of_lt_of_le (by norm_num) hy0
  obtain ⟨C, hC, hmain⟩ := C78_end_violated hl ccls ca c hc hcn hci hce hcf scls sa s hs hsn hsi hgap heu split ms lu a b z0 z1 zb As d
    fc fyd bars id hbars hne hin hzb hA hAs hab hz0 hd hd0 hdeep hH hsplit hfc hfc0 hfyd hy0 δ hδ hδ1 hδ2 E hE
  obtain ⟨-, hclamp, -⟩ := C73_steel hl scls sa s hs hsn hsi.1 hsi.2 hgap
  refine ⟨C, hC, fun n hn ops hops X τ hX hτ hXA hXY => ?_⟩
  obtain ⟨r, hr, htop, x, hx, hxX, hchi, hall⟩ := hmain n hn ops hops X τ hX hτ hXA hXY
  refine ⟨r, hr, htop, x, hx, hxX, hchi, ?_⟩
  intro ops' cf num_pre num_post chi pts hops' hcf0 hpre hneg hrun q hq hqc hneg' hplane hbal htop' hyield hult hzb0 hcc hcur
  have hq0 : 0 < 17 / 21 * fc * (b - a) := mul_pos (by positivity) (by linarith)
  have hP : q.1.plane = ![q.1.1, q.1.2.2.1, 0] := by rw [MCPoint.plane, hplane]
  rw [hP] at hbal
  rw [hfyd] at hX
  have hτX : τ < X := by
    have : 0 < 0.0035 / (0.0035 + designUltimate scls sa) * d := by have := heu.1; positivity
    linarith
  have hf : ∀ r ∈ bars, r.law.law.stress = s.mat.law.stress := fun r hr => by rw [hbars r hr]
  have hbs := balanced_strain hab hfc0 hz0 (by linarith) hzb hAs.symm hf hclamp hy0' hneg' htop' hyield hult hX hτ hτX hbal
  have hle : q.1.1 ≤ r.eps_a := by
    rw [abs_of_neg hneg'] at hcur
    refine hbs.trans (hcur.trans ?_)
    have hr1 : r.chi.1 = -(0.0035 / x) := by rw [hchi]
    have hk : 0 < 0.0035 / x := by positivity
    have e1 : r.eps_a = 0.0035 / x * (z1 - x) := by
      have : 0.0035 / x * x = 0.0035 := by field_simp
      rw [hr1] at htop
      rw [mul_sub, this]; linarith
    rw [e1, hr1, abs_neg, abs_of_pos hk]
    refine mul_le_mul_of_nonneg_left ?_ hk.le
    have := (abs_le.1 hxX).2
    linarith
  exact hall ops' cf num_pre num_post chi pts hops' hcf0 hpre hneg hrun (q.1.1, q.2) (consecutive Prod.fst 0 pts q hq) hqc hle
    (hyield.trans (by linarith [mul_le_mul_of_nonpos_right hcc hzb0]))

end SC
