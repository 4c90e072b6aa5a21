import Verif.Props.DiagramSearch

/-! # C78: two beams

A 300 × 500 beam of C30 and B500 (Eurocode 2, 2004). With two bars of 500 mm² the diagram is returned and ends below the bending
strength; with two bars of 125 mm² it is not returned. -/

set_option autoImplicit false

namespace SC

open Spec MeasureTheory

variable {lower : String → String}

namespace DiagramBeam

/-- The calculator of the beam. -/
noncomputable def engine (L : Law) (A : ℝ) : Engine :=
  sectionEngine RCBeam.split ((normalParts 20 (rectShape (-150) 150 (-250) 250)).map ConcretePart.solid) (bars L A) 0.01

theorem bars_law (L : Law) (A : ℝ) : ∀ r ∈ bars L A, r.law = ⟨1, L⟩ := by
  intro r hr; simp only [bars, List.mem_cons, List.not_mem_nil, or_false] at hr; rcases hr with rfl | rfl <;> rfl

theorem bars_y (L : Law) (A : ℝ) : ∀ r ∈ bars L A, r.y = -200 := by
  intro r hr; simp only [bars, List.mem_cons, List.not_mem_nil, or_false] at hr; rcases hr with rfl | rfl <;> rfl

theorem bars_x (L : Law) (A : ℝ) : ∀ r ∈ bars L A, -150 ≤ r.x ∧ r.x ≤ 150 := by
  intro r hr; simp only [bars, List.mem_cons, List.not_mem_nil, or_false] at hr; rcases hr with rfl | rfl <;> norm_num

theorem bars_area (L : Law) (A : ℝ) : ∀ r ∈ bars L A, r.area = A := by
  intro r hr; simp only [bars, List.mem_cons, List.not_mem_nil, or_false] at hr; rcases hr with rfl | rfl <;> rfl

theorem bars_sum (L : Law) (A : ℝ) : 2 * A = ((bars L A).map Bar.area).sum := by
  simp only [bars, List.map_cons, List.map_nil, List.sum_cons, List.sum_nil]; ring

theorem parts_ok : ∀ p ∈ normalParts 20 (rectShape (-150) 150 (-250) 250), p.Ok RCBeam.split 0 := by
  intro p hp
  obtain ⟨q, hq, rfl⟩ := List.mem_map.1 hp
  rw [List.mem_singleton.1 hq]
  exact ⟨encloses_rect (by norm_num) (by norm_num), rect_hull (by norm_num) (by norm_num), RCBeam.ok.splits, by norm_num,
    by norm_num [abs_of_pos]⟩

/-- The steel of the beam. -/
structure Steel500 (L : Law) : Prop where
  ult : L.ult false = (-0.045, 0.045)
  yield : (L.ult true).2 = ey
  clamp : ∀ v, |v| ≤ 0.045 → L.stress v = 200000 * max (-ey) (min v ey)
  ruptured : ∀ v, 0.05 ≤ v → L.stress v = 0

theorem hEs : |OrdinaryBeam.sargs.Es| = 200000 := by norm_num [OrdinaryBeam.sargs, steelArgs]

theorem hyd : designYield OrdinaryBeam.sargs = ey := by
  simp [designYield, OrdinaryBeam.sargs, steelArgs, gammaS, factorOf, ey]

theorem hud : designUltimate .ec2_2004 OrdinaryBeam.sargs = 0.045 := by
  simp only [designUltimate, OrdinaryBeam.sargs, steelArgs, gammaS, factorOf]
  norm_num

theorem hgap : designYield OrdinaryBeam.sargs + 1e-6 + 1e-5 * designUltimate .ec2_2004 OrdinaryBeam.sargs ≤
    designUltimate .ec2_2004 OrdinaryBeam.sargs := by
  rw [hyd, hud]; have := ey_bounds; norm_num at *; linarith

theorem steel_made (hl : PyLower lower) {s : Built Steel} (hs : newSteel lower .ec2_2004 OrdinaryBeam.sargs = some (.ok s)) :
    Steel500 s.mat.law := by
  obtain ⟨h1, h2, -⟩ := C73_steel hl .ec2_2004 OrdinaryBeam.sargs s hs rfl rfl rfl hgap
  rw [hud] at h1 h2
  rw [hyd, hEs] at h2
  refine ⟨h1, by rw [steel_yield hl .ec2_2004 OrdinaryBeam.sargs s hs rfl rfl rfl, hyd], h2, fun v hv => ?_⟩
  exact steel_ruptured hl .ec2_2004 OrdinaryBeam.sargs s hs rfl rfl rfl (by rw [hud]; norm_num) (by rw [hud]; norm_num at *; linarith)

theorem accepted (hl : PyLower lower) :
    ∃ c s, newConcrete lower .ec2_2004 (defaultArgs 30) = some (.ok c) ∧ newSteel lower .ec2_2004 OrdinaryBeam.sargs = some (.ok s) :=
  OrdinaryBeam.accepted hl .ec2_2004 .ec2_2004

variable {L : Law} {A : ℝ}

theorem geometry (L : Law) (A : ℝ) : RCGeometry 0 (rectShape (-150) 150 (-250) 250) ((bars L A).map fun b => (b.x, b.y)) (250 - -250) :=
  rect_geometry (by norm_num) (zb := -200) (by norm_num) (by norm_num) (by norm_num) (by norm_num) (by simp [bars]) (bars_x L A) (bars_y L A)

theorem ordinary (h : Steel500 L) (A : ℝ) :
    OrdinaryRC 0 (normalParts 20 (rectShape (-150) 150 (-250) 250)) (bars L A) 0.0035 0.045 (250 - -250) :=
  (geometry L A).ordinary (bars_law L A) h.ult (by norm_num) (by norm_num)

theorem lawful (L : Law) (A : ℝ) : (engine L A).Lawful fun _ => .ok (groupBars (bars L A)) := marinEngine_lawful _ _ _ _ _ _

theorem answers (L : Law) (A : ℝ) : (engine L A).Answers (groupBars (bars L A)) (section' L A) 0 :=
  fun _ hk => concrete_answers 0.01 parts_ok (single_ids (bars_law L A)) (single_sizes (bars_law L A)) hk.ne fun h => absurd h hk.not_gt

/-- The yield failure of the beam. -/
theorem yields (h : Steel500 L) (A : ℝ) : ∃ st, (engine L A).balanced (-0) true = .ok (250, -200, st) ∧ st 2 = 0 ∧ st 1 ≤ -1e-13 ∧
    st 0 - 200 * st 1 = ey ∧ st 0 + 250 * st 1 = -0.002 := by
  have hey := ey_bounds
  obtain ⟨yn, yp, st, h1, h2, h3, h4, h5, ⟨b, hb, hyp⟩, p, hp, v, hv, hyn⟩ := (ordinary h A).yielding_steep (split := RCBeam.split) (ms := 0.01)
    (e0 := 0.002) (ey := ey) ⟨by
      intro p hp
      obtain ⟨q, hq, rfl⟩ := List.mem_map.1 hp
      norm_num [abs_of_pos], fun b hb => by rw [bars_law L A b hb, h.yield], by norm_num, by constructor <;> norm_num at * <;> linarith⟩
    fun p hp => concrete_ne parts_ok _ (List.mem_map_of_mem hp)
  rw [RCBeam.height_zero, bars_y L A b hb] at hyp
  obtain ⟨q, hq, rfl⟩ := List.mem_map.1 hp
  rw [List.mem_singleton.1 hq] at hv
  rw [RCBeam.height_zero] at hyn
  have hpl : ∀ y, planeStrain st 0 y = st 0 + st 1 * y := by intro y; simp [planeStrain, h4]
  rw [hpl] at h2 h3
  simp only at hyp
  subst hyp
  have hyn' : yn = 250 := by
    rcases (rect_vertex hv).2 with e | e
    · exfalso
      rw [e] at hyn
      subst hyn
      norm_num at *
      linarith
    · rw [← hyn, e]
  subst hyn'
  exact ⟨st, h1, h4, h5, by linarith, by linarith⟩

/-- An accepted load: the default diagram with two and one curvatures. -/
theorem diagram (h : Steel500 L) (hA : 100 ≤ A ∧ A ≤ 500) {n : ℝ} (hn : 0 < n ∧ n < 1) {r : BendingResult}
    (hr : (bendingStrength (engine L A) 0 n .fresh).2 = .ok r) (hcu : r.chi.1 < -1e-5) :
    ∃ (c1 c2 e1 e2 : ℝ) (lim : Option (ℝ × ℝ)), c1 < 0 ∧ c2 < 0 ∧ -1e-3 ≤ e2 ∧ e2 ≤ 3e-3 ∧ (-1e-8 ≤ c1 ∧ 0 ≤ e1 ∧ e1 ≤ 1e-3) ∧
      Chain (planeForce (section' L A) 0) n 0 [c1, c2] [e1, e2] ∧
      (momentCurvature (engine L A) 0 n 1e-8 2 1 none .fresh).2 =
        (mcLoop (engine L A) 0 n 0 [c1, c2, r.chi.1] ⟨some ((groupBars (bars L A)).map (rotGroup (-0))), lim⟩).2 := by
  obtain ⟨yn, yp, st, hbal, -, -, hst2, -, hst, -⟩ := (ordinary h A).search 0.01 parts_ok
  obtain ⟨sty, hbaly, hsty2, hsty, g1, g2⟩ := yields h A
  obtain ⟨eu, cu, ku, hu, -, hchi, -⟩ := bending_spec (lawful L A) rfl (answers L A) (n := n) Canonical.fresh hbal
    (lt_of_le_of_lt hst (by norm_num)) (Prod.ext rfl hr : bendingStrength (engine L A) 0 n .fresh = (_, .ok r))
  have hcheck : (checkAxialLoad (engine L A) n .fresh).2 = .ok () := by
    have h0 : bendingStrength (engine L A) 0 n .fresh = (_, .ok r) := Prod.ext rfl hr
    obtain ⟨s1, u, hc, -⟩ := CalcM.bind_eq_ok h0
    rw [hc]
  obtain ⟨ey', cy, ky, hy, hcy, hcy0⟩ := yield_search (A := A) hA h.clamp hn g1 g2
  have hcu' : cu = r.chi.1 := by rw [hchi, Real.cos_zero, mul_one]
  rw [← hcu'] at hcu ⊢
  obtain ⟨lim, hrun⟩ := mc_default_run (lawful L A) rfl (answers L A) 1e-8 2 1 hbal hbaly hst hsty hst2 hsty2 Canonical.fresh hcheck hu hy
  have hsgn : (1e-8:ℝ) * cy < 0 := mul_neg_of_pos_of_neg (by norm_num) hcy0
  have hgrid : ∃ c1 < 0, -1e-8 ≤ c1 ∧ curvatureGrid 1e-8 cy cu 2 1 = [c1, cy, cu] := by
    have hsep : ¬ |cu| ≤ |cy| + 1e-8 := by
      rw [abs_of_neg (by norm_num at *; linarith), abs_of_neg hcy0, not_le]
      norm_num at *; linarith
    have hls : ∀ c, linspace c cy (2 - 1) false ++ linspace cy cu (1 + 1) true = [c, cy, cu] := by
      intro c
      simp [linspace, List.range_succ]
      norm_num
    refine ⟨if |(1e-8:ℝ) * -1| ≥ |cy| then cy / ((2:ℕ):ℝ) else 1e-8 * -1, ?_, ?_, ?_⟩
    · split_ifs
      · have : cy / ((2:ℕ):ℝ) = cy / 2 := by norm_num
        rw [this]; linarith
      · norm_num
    · split_ifs with hle
      · rw [abs_of_neg hcy0, abs_of_neg (by norm_num)] at hle
        have : cy / ((2:ℕ):ℝ) = cy / 2 := by norm_num
        rw [this]; linarith
      · norm_num
    · simp only [curvatureGrid, if_pos hsgn, if_neg hsep, hls]
  obtain ⟨c1, hc1, hc1', hg⟩ := hgrid
  rw [hg] at hrun
  obtain ⟨e1, k1, s1, a1, a2⟩ := first_search hA h.clamp hn hc1 hc1'
  obtain ⟨e2, k2, s2, b1, b2⟩ := second_search hA h.clamp hn hcy0 hcy ⟨a1, a2⟩
  exact ⟨c1, cy, e1, e2, lim, hc1, hcy0, b1, b2, ⟨hc1', a1, a2⟩, .cons s1 (.cons s2 (.nil _)), hrun⟩

theorem hfc20 : (20:ℝ) = designConcrete .ec2_2004 (defaultArgs 30) := by
  simp only [designConcrete, defaultArgs, factor, Option.getD_none]
  rw [abs_of_pos (by norm_num : (0:ℝ) < 30)]
  norm_num

set_option maxHeartbeats 1600000 in
/-- **C78** (violated; the hypotheses of `C78_end_violated` hold). Two bars of 500 mm². The default diagram with two curvatures up to
yielding and one beyond is returned; it ends at the curvature of the bending strength (about 180 kNm), but with the upper face at a
strain below -0.006 and a moment at least 30 kNm less. -/
theorem C78_beam_violated (hl : PyLower lower) :
    ∃ c s, newConcrete lower .ec2_2004 (defaultArgs 30) = some (.ok c) ∧ newSteel lower .ec2_2004 OrdinaryBeam.sargs = some (.ok s) ∧
    ∃ C : Set ℝ, C.Countable ∧ ∀ n ∉ C, 0 < n → n < 1 → ∃ (r : BendingResult) (pts : List MCPoint) (p : MCPoint),
      (bendingStrength (engine s.mat.law 500) 0 n .fresh).2 = .ok r ∧ r.chi.1 ≤ -3.9e-5 ∧
      (momentCurvature (engine s.mat.law 500) 0 n 1e-8 2 1 none .fresh).2 = .ok pts ∧
      pts.getLast? = some p ∧ p.2.2 = r.chi ∧ p.1 + r.chi.1 * 250 ≤ -0.006 ∧ -p.2.1.1 ≤ -r.m.1 - 3e7 := by
  obtain ⟨c, s, hc, hs⟩ := accepted hl
  refine ⟨c, s, hc, hs, ?_⟩
  have h := steel_made hl hs
  have hey := ey_bounds
  obtain ⟨C, hC, hmain⟩ := C78_end_violated hl .ec2_2004 (defaultArgs 30) c hc rfl ⟨rfl, rfl⟩ ⟨rfl, rfl, rfl⟩
    (fun _ => by norm_num [defaultArgs, abs_of_pos]) .ec2_2004 OrdinaryBeam.sargs s hs rfl ⟨rfl, rfl⟩ hgap (by rw [hud]; norm_num)
    RCBeam.split 0.01 (fun _ _ => 0) (-150) 150 (-250) 250 (-200) (2 * 500) 450 20 (500 / 1.15) (bars s.mat.law 500) 1
    (bars_law _ _) (by simp [bars]) (bars_x _ _) (bars_y _ _) (fun r hr => by rw [bars_area _ _ r hr]; norm_num) (bars_sum _ _)
    (by norm_num) (by norm_num) (by norm_num) (by norm_num) (by norm_num) (by norm_num)
    RCBeam.ok.splits hfc20 (by norm_num) (by rw [hEs, hyd, ey]; norm_num) (by rw [hyd]; norm_num at *; linarith) _ rfl
    (by rw [hEs]; norm_num) (by rw [hEs, hud]; norm_num) (engine s.mat.law 500) rfl
  refine ⟨C, hC, fun n hn hn0 hn1 => ?_⟩
  obtain ⟨r, hr, htop, x, hx, hxX, hchi, hall⟩ := hmain n hn [] trivial _ _ rfl rfl (by rw [hud]; norm_num; linarith)
    (by rw [hyd, ey]; norm_num; linarith)
  have hx1 : |x - (1000 * (500 / 1.15) - n) / (17 / 21 * 20 * 300)| ≤ 1e-2 / (17 / 21 * 20 * 300) := by
    have e3 : (150:ℝ) - -150 = 300 := by norm_num
    have e4 : (2:ℝ) * 500 = 1000 := by norm_num
    rw [e3, e4] at hxX
    exact hxX
  have hx2 : 89.5 ≤ x ∧ x ≤ 89.6 := by
    have := abs_le.1 hx1
    constructor <;> norm_num at * <;> linarith [this.1, this.2]
  have hc1 : r.chi.1 = -(0.0035 / x) := by rw [hchi]
  have hk1 : 3.9e-5 ≤ 0.0035 / x := by
    rw [le_div_iff₀ hx]; norm_num at *; linarith [hx2.2]
  have hk2 : 0.0035 / x ≤ 3.92e-5 := by
    rw [div_le_iff₀ hx]; norm_num at *; linarith [hx2.1]
  have hU : r.eps_a = -0.0035 + 0.0035 / x * 250 := by rw [hc1] at htop; linarith
  obtain ⟨c1, c2, e1, e2, lim, hc1n, hc2n, he2, he2', -, hch, hrun⟩ := diagram h (A := 500) (by norm_num) ⟨hn0, hn1⟩ hr
    (by rw [hc1]; norm_num at *; linarith)
  have hle : e2 ≤ r.eps_a := by rw [hU]; norm_num at *; linarith
  have hyield : ey ≤ e2 + r.chi.1 * -200 := by rw [hc1]; norm_num at *; linarith
  have hN : fixedCurvature (planeForce (section' s.mat.law 500) 0) n r.chi.1 e2 = some (.ok (e2, r.chi.1, 0), 1) := by
    obtain ⟨d1, -⟩ := displaced_forces (a := -150) (b := 150) (z0 := -250) (z1 := 250) (fc := 20) (zb := -200) (As := 2 * 500) (E := 200000)
      (ey := ey) (eu := 0.045) (by norm_num) (by norm_num) hx (by norm_num) (bars := bars s.mat.law 500) (bars_y _ _) (bars_sum _ _).symm
      (f := s.mat.law.stress) (fun r hr => by rw [bars_law _ _ r hr]) h.clamp (by linarith) hU hc1 hle hyield
      (by rw [hU, hc1]; norm_num at *; linarith)
    unfold fixedCurvature
    simp only
    rw [section', d1, if_pos]
    have e1 : 2 * 500 * (200000 * ey) = 1000 * (500 / 1.15) := by rw [ey]; norm_num
    rw [e1]
    have e2 : 1000 * (500 / 1.15) - 17 / 21 * 20 * (150 - -150) * x - n =
        -(17 / 21 * 20 * 300) * (x - (1000 * (500 / 1.15) - n) / (17 / 21 * 20 * 300)) := by ring
    rw [e2, abs_mul, abs_neg, abs_of_pos (by norm_num)]
    calc _ ≤ 17 / 21 * 20 * 300 * (1e-2 / (17 / 21 * 20 * 300)) := mul_le_mul_of_nonneg_left hx1 (by norm_num)
      _ ≤ _ := by norm_num
  cases hch with
  | cons f1 t1 => cases t1 with
    | cons f2 t2 => cases t2 with
      | nil =>
        have hch' : Chain (planeForce (section' s.mat.law 500) 0) n 0 [c1, c2, r.chi.1] [e1, e2, e2] :=
          .cons f1 (.cons f2 (.cons hN (.nil _)))
        obtain ⟨pts, hpts, hes⟩ := chain_mcLoop lim hch' (fun c hc => answers _ _ c (by
          simp only [List.mem_cons, List.not_mem_nil, or_false] at hc
          rcases hc with rfl | rfl | rfl
          · exact hc1n
          · exact hc2n
          · rw [hc1]; linarith [show (0:ℝ) < 0.0035 / x by positivity]))
        have hcs : pts.map (fun p => p.2.2) = [c1, c2, r.chi.1].map (fun c => (c * Real.cos 0, c * Real.sin 0)) :=
          (mcLoop_chain n lim _ _ _ _ (fun c hc => answers _ _ c (by
            simp only [List.mem_cons, List.not_mem_nil, or_false] at hc
            rcases hc with rfl | rfl | rfl
            · exact hc1n
            · exact hc2n
            · rw [hc1]; linarith [show (0:ℝ) < 0.0035 / x by positivity])) hpts).2.1
        rw [hpts] at hrun
        obtain ⟨p1, p2, p3, rfl⟩ : ∃ p1 p2 p3, pts = [p1, p2, p3] := by
          have hlen := congrArg List.length hes
          simp only [List.length_map, List.length_cons, List.length_nil] at hlen
          exact List.length_eq_three.1 hlen
        simp only [List.map_cons, List.map_nil, Real.cos_zero, Real.sin_zero, mul_one, mul_zero, List.cons.injEq, and_true] at hes hcs
        have hp3 : p3.2.2 = r.chi := by rw [hcs.2.2, hchi]
        obtain ⟨-, t1, t2⟩ := hall [] 1e-8 2 1 none [p1, p2, p3] trivial (by norm_num) (by norm_num) (by simp) hrun (e2, p3)
          (by simp [hes.2.1]) hp3 hle (by rw [hyd]; exact hyield)
        refine ⟨r, [p1, p2, p3], p3, hr, by rw [hc1]; linarith, hrun, rfl, hp3, ?_, ?_⟩
        · simp only at t1
          rw [t1, hU]
          norm_num at *; linarith
        · simp only at t2
          rw [t2]
          have g1 : 0.0032 ≤ r.eps_a - e2 := by rw [hU]; norm_num at *; linarith
          have g2 : 8000 ≤ x ^ 2 := by nlinarith [hx2.1]
          have g3 : 17 / 21 * 20 * (150 - -150) * x ^ 2 / 0.0035 * (r.eps_a - e2) ≥ 17 / 21 * 20 * (150 - -150) * 8000 / 0.0035 * 0.0032 := by
            refine mul_le_mul ?_ g1 (by norm_num) (by positivity)
            have : (0:ℝ) < 17 / 21 * 20 * (150 - -150) / 0.0035 := by norm_num
            calc (17 / 21 * 20 * (150 - -150) * 8000 / 0.0035 : ℝ) = 17 / 21 * 20 * (150 - -150) / 0.0035 * 8000 := by ring
              _ ≤ 17 / 21 * 20 * (150 - -150) / 0.0035 * x ^ 2 := mul_le_mul_of_nonneg_left g2 this.le
              _ = _ := by ring
          have g4 : (3e7:ℝ) ≤ 17 / 21 * 20 * (150 - -150) * 8000 / 0.0035 * 0.0032 := by norm_num
          linarith

end DiagramBeam

end SC
