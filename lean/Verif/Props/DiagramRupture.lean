import Verif.Props.DiagramExample

/-! # C78: a beam with few bars

Two bars of 125 mm² in the beam of `DiagramExample`: the bending strength is governed by the rupture of the bars; the default diagram
raises. -/

set_option autoImplicit false

namespace SC

open Spec MeasureTheory

variable {lower : String → String}

/-- Limit states of a rectangle with one layer: the upper face is at -0.0035 or the bars at their ultimate strain. -/
theorem rect_cases {a b z0 z1 fc : ℝ} {bars : List Bar} {zb eu e0 c : ℝ} (hab : a ≤ b) (hd : zb < z1) (hz0 : z0 ≤ zb)
    (hdeep : z1 - z0 ≤ 1000 * (z1 - zb)) (hce : 0.0035 ≤ eu) (heu : eu ≤ 0.09) (hne : bars ≠ []) (hzb : ∀ r ∈ bars, r.y = zb)
    (hult : ∀ r ∈ bars, r.law.law.ult false = (-eu, eu)) (hc : c < 0)
    (hadm : (concreteSection (normalParts fc (rectShape a b z0 z1)) bars).Admissible ![e0, c, 0])
    (hlim : (concreteSection (normalParts fc (rectShape a b z0 z1)) bars).AtLimit ![e0, c, 0]) :
    -0.0035 ≤ e0 + c * z1 ∧ e0 + c * zb ≤ eu ∧ (e0 + c * z1 = -0.0035 ∨ e0 + c * zb = eu) := by
  set P := normalParts fc (rectShape a b z0 z1) with hP
  set S := concreteSection P bars with hS
  set d := z1 - zb with hdd
  have hd0 : 0 < d := by rw [hdd]; linarith
  have hstr : ∀ e0 c x y : ℝ, planeStrain ![e0, c, 0] x y = e0 + c * y := by intro e0 c x y; simp [planeStrain]
  have hplate : ∀ y ∈ Set.Icc z0 z1, -0.0035 ≤ e0 + c * y ∧ e0 + c * y ≤ 100 := by
    intro y hy
    have hm : (⟨Set.Icc a b ×ˢ Set.Icc z0 z1, rectRing a b z0 z1, (ConcretePart.mk ⟨rectRing a b z0 z1, []⟩ (Set.Icc a b ×ˢ Set.Icc z0 z1) fc 0.002 0.0035).law.stress, -0.0035, 100⟩ : Plate) ∈ S.plates := by
      simp only [hS, hP, concreteSection, normalParts, rectShape, List.map_cons, List.map_nil, List.mem_singleton, part_ult]
      norm_num [abs_of_pos]
    have := hadm.1 _ hm (a, y) (rect_hull hab (by linarith) ⟨⟨le_rfl, hab⟩, hy⟩)
    simp only [hstr] at this
    exact this
  have htop := (hplate z1 ⟨by linarith, le_rfl⟩).1
  obtain ⟨r0, hr0⟩ := List.exists_mem_of_ne_nil _ hne
  have hbar := bar_strain hadm hr0
  rw [hstr, hult r0 hr0, hzb r0 hr0] at hbar
  obtain ⟨hb1, hb2⟩ := hbar
  simp only at hb1 hb2
  have hsb : e0 + c * zb = e0 + c * z1 - c * d := by rw [hdd]; ring
  have hcd : -c * d ≤ eu + 0.0035 := by linarith
  refine ⟨htop, hb2, ?_⟩
  obtain ⟨k, hk, hk'⟩ := hlim
  simp only [CrossSection.corners, hS, hP, concreteSection, normalParts, rectShape, List.map_cons, List.map_nil, List.flatMap_cons,
    List.flatMap_nil, List.append_nil, List.mem_append, List.mem_map, part_ult] at hk
  rcases hk with ⟨v, hv, rfl⟩ | ⟨_, ⟨r, hr, rfl⟩, rfl⟩
  · left
    have hv2 := (rect_vertex hv).2
    have hvz : z0 ≤ v.2 ∧ v.2 ≤ z1 := by rcases hv2 with e | e <;> rw [e] <;> constructor <;> linarith
    simp only [hstr] at hk'
    rcases hk' with h | h
    · rw [abs_of_pos (by norm_num)] at h
      have : c * z1 ≤ c * v.2 := mul_le_mul_of_nonpos_left hvz.2 hc.le
      linarith
    · exfalso
      have e1 : e0 + c * v.2 = e0 + c * zb + -c * (zb - v.2) := by ring
      have e2 : -c * (zb - v.2) ≤ -c * (1000 * d) := mul_le_mul_of_nonneg_left (by linarith [hvz.1]) (by linarith)
      have e3 : -c * (1000 * d) = 1000 * (-c * d) := by ring
      norm_num at *
      linarith
  · right
    simp only [Bar.fibre, hstr, hult r hr, hzb r hr] at hk'
    rcases hk' with h | h
    · exfalso
      have : 0 < -c * d := mul_pos (by linarith) hd0
      linarith
    · exact h

namespace DiagramBeam

variable {L : Law}

/-- The steel force never exceeds the yield force below the ultimate strain. -/
theorem clamp_le (h : Steel500 L) {v : ℝ} (hv : |v| ≤ 0.045) : L.stress v ≤ 200000 * ey := by
  have hey := ey_bounds
  rw [h.clamp v hv]
  have : max (-ey) (min v ey) ≤ ey := max_le (by linarith [hey.1]) (min_le_right _ _)
  linarith

/-- The curvature of a limit state in equilibrium. -/
theorem rupture_curvature (h : Steel500 L) {n e k : ℝ} (hn : 0 < n ∧ n < 1) (hk : k < 0)
    (hadm : (concreteSection (normalParts 20 (rectShape (-150) 150 (-250) 250)) (bars L 125)).Admissible ![e, k, 0])
    (hlim : (concreteSection (normalParts 20 (rectShape (-150) 150 (-250) 250)) (bars L 125)).AtLimit ![e, k, 0])
    (hN : |(concreteSection (normalParts 20 (rectShape (-150) 150 (-250) 250)) (bars L 125)).forces ![e, k, 0] 0 - n| ≤ 1e-2) :
    -(0.0485 / 450) ≤ k ∧ k ≤ -1e-4 ∧ e - 200 * k = 0.045 := by
  have hey := ey_bounds
  obtain ⟨htop, hbar, hcase⟩ := rect_cases (by norm_num) (by norm_num) (zb := -200) (by norm_num) (by norm_num) (eu := 0.045) (by norm_num)
    (by norm_num) (by simp [bars]) (bars_y L 125) (fun r hr => by rw [bars_law L 125 r hr]; exact h.ult) hk hadm hlim
  have hk1 : -(0.0485 / 450) ≤ k := by norm_num at *; linarith
  have hforce := (layer_forces (parts := normalParts 20 (rectShape (-150) 150 (-250) 250)) (bars_y L 125) (bars_sum L 125).symm
    (f := L.stress) (fun r hr => by rw [bars_law _ _ r hr]) e k).1
  rw [rect_force (by norm_num) (by norm_num)] at hforce
  rw [hforce] at hN
  have hNb := abs_le.1 hN
  have hfy : 200000 * ey = 500 / 1.15 := by unfold ey; norm_num
  rcases hcase with hc | hc
  · exfalso
    -- the compression exceeds the capacity of the bars
    have hb := block_force (fc := 20) (x := 0.0035 / (0.0485 / 450)) (z0 := -250) (z1 := 250) (by norm_num) (by norm_num)
    have hmono : ∫ y in (-250:ℝ)..250, (ParabolaRectangle.new 20 0.002 0.0035 2).stress (e + k * y) ≤
        ∫ y in (-250:ℝ)..250, (ParabolaRectangle.new 20 0.002 0.0035 2).stress
          (-0.0035 + 0.0035 / (0.0035 / (0.0485 / 450)) * (250 - y)) := by
      refine intervalIntegral.integral_mono_on (by norm_num) (stress_integrable (by norm_num) hk.le htop) ?_ fun y hy => ?_
      · have := stress_integrable (fc := 20) (z0 := -250) (z1 := 250) (e := -0.0035 + 0.0485 / 450 * 250) (c := -(0.0485 / 450))
          (by norm_num) (by norm_num) (by norm_num)
        refine this.congr fun y _ => ?_
        congr 1
        ring
      · refine pr_stress_mono 20 0.002 0.0035 (by norm_num) (by norm_num [abs_of_pos]) ?_ ?_
        · rw [abs_of_pos (by norm_num)]
          exact htop.trans (by linarith [mul_le_mul_of_nonpos_left hy.2 hk.le])
        · have e1 : e + k * y = -0.0035 + -k * (250 - y) := by linarith
          have e2 : -k * (250 - y) ≤ 0.0485 / 450 * (250 - y) := mul_le_mul_of_nonneg_right (by linarith) (by linarith [hy.2])
          have e3 : (0.0035:ℝ) / (0.0035 / (0.0485 / 450)) = 0.0485 / 450 := by norm_num
          rw [e1, e3]
          linarith
    rw [hb, abs_of_pos (by norm_num)] at hmono
    have hs := clamp_le h (v := e + k * -200) (by rw [abs_le]; constructor <;> norm_num at * <;> linarith)
    norm_num at hmono hs hNb
    norm_num at *
    linarith [hNb.1]
  · refine ⟨hk1, ?_, by linarith⟩
    by_contra hcon
    have hz : ∫ y in (-250:ℝ)..250, (ParabolaRectangle.new 20 0.002 0.0035 2).stress (e + k * y) = 0 := by
      rw [← intervalIntegral.integral_zero (a := (-250:ℝ)) (b := 250) (μ := volume)]
      refine intervalIntegral.integral_congr fun y hy => ?_
      rw [Set.uIcc_of_le (by norm_num)] at hy
      refine pr_stress_tension 20 0.002 0.0035 (by norm_num) (by norm_num [abs_of_pos]) ?_
      have : k * 250 ≤ k * y := mul_le_mul_of_nonpos_left hy.2 hk.le
      norm_num at *
      linarith
    have hs : L.stress (e + k * -200) = 200000 * ey := by
      rw [hc, h.clamp _ (by rw [abs_of_pos (by norm_num)]), min_eq_right (by norm_num at *; linarith), max_eq_right (by linarith)]
    rw [hz, hs, hfy] at hNb
    norm_num at hNb
    linarith [hNb.2, hn.2]

/-- Below the strain at which the upper face recovers, the force is that of the crushed section ... -/
theorem low_force (h : Steel500 L) {k e : ℝ} (hk : -(0.0485 / 450) ≤ k) (hk' : k ≤ -1e-4) (he : -1e-3 ≤ e) (he' : e ≤ 0.019) :
    force L 125 e k = 250 * (500 / 1.15) - 17 / 21 * 20 * 300 * (0.0035 / -k) := by
  have hey := ey_bounds
  have hk0 : 0 < -k := by norm_num at *; linarith
  have hx : 0.0035 / (0.0035 / -k) = -k := by field_simp
  obtain ⟨d1, -⟩ := displaced_forces (a := -150) (b := 150) (z0 := -250) (z1 := 250) (fc := 20) (zb := -200) (As := 2 * 125) (E := 200000)
    (ey := ey) (eu := 0.045) (x := 0.0035 / -k) (e := e) (eU := -0.0035 + 0.0035 / (0.0035 / -k) * 250) (c := k) (by norm_num) (by norm_num)
    (by positivity) (by norm_num) (bars := bars L 125) (bars_y _ _) (bars_sum _ _).symm
    (f := L.stress) (fun r hr => by rw [bars_law _ _ r hr]) h.clamp (by linarith) rfl (by rw [hx]; ring)
    (by rw [hx]; norm_num at *; linarith) (by norm_num at *; linarith) (by rw [hx]; norm_num at *; linarith)
  rw [force, section', d1]
  unfold ey
  norm_num

/-- ... and above, the bars are ruptured. -/
theorem high_force (h : Steel500 L) {k e : ℝ} (hk : -(0.0485 / 450) ≤ k) (hk' : k ≤ -1e-4) (he : 0.031 ≤ e) : force L 125 e k = 0 := by
  rw [force_eq, core_integral (by norm_num) (by norm_num at *; linarith) (by norm_num at *; linarith),
    h.ruptured _ (by norm_num at *; linarith)]
  have hz : ∫ y in (-250:ℝ)..250, (ParabolaRectangle.new 20 0.002 0.0035 2).stress (e + k * y) = 0 := by
    rw [← intervalIntegral.integral_zero (a := (-250:ℝ)) (b := 250) (μ := volume)]
    refine intervalIntegral.integral_congr fun y hy => ?_
    rw [Set.uIcc_of_le (by norm_num)] at hy
    refine pr_stress_tension 20 0.002 0.0035 (by norm_num) (by norm_num [abs_of_pos]) ?_
    have : k * 250 ≤ k * y := mul_le_mul_of_nonpos_left hy.2 (by norm_num at *; linarith)
    norm_num at *
    linarith
  rw [hz]; ring

/-- The last search of the diagram. -/
theorem last_search (h : Steel500 L) {n k e : ℝ} (hn : 0 < n ∧ n < 1) (hk : -(0.0485 / 450) ≤ k) (hk' : k ≤ -1e-4) (he : -1e-3 ≤ e)
    (he' : e ≤ 3e-3) : ∃ j, fixedCurvature (force L 125) n k e = some (.error .valueError, j) := by
  have hk0 : 0 < -k := by norm_num at *; linarith
  have hstart := low_force h hk hk' he (by norm_num at *; linarith)
  have hneg : force L 125 e k - n ≤ -40000 := by
    have hx : 0.0035 / (0.0485 / 450) ≤ 0.0035 / -k := div_le_div_of_nonneg_left (by norm_num) hk0 (by linarith)
    rw [hstart]
    norm_num at *
    linarith [hn.1]
  have hs : preSign (force L 125 e k - n) = 1 := preSign_low (by linarith)
  have hval : ∀ i < 20, force L 125 (e + preSign (force L 125 e k - n) * 1e-3 * 2 ^ i) k = force L 125 e k ∨
      force L 125 (e + preSign (force L 125 e k - n) * 1e-3 * 2 ^ i) k = 0 := by
    intro i hi
    rw [hs]
    rcases Nat.lt_or_ge i 5 with h5 | h5
    · left
      have : (2:ℝ) ^ i ≤ 2 ^ 4 := pow_le_pow_right₀ (by norm_num) (by omega)
      have h0 : (0:ℝ) < 1 * 1e-3 * 2 ^ i := by positivity
      rw [low_force h hk hk' (by linarith) (by norm_num at *; linarith), hstart]
    · right
      have : (2:ℝ) ^ 5 ≤ 2 ^ i := pow_le_pow_right₀ (by norm_num) h5
      exact high_force h hk hk' (by norm_num at *; linarith)
  refine fixedCurvature_fails _ _ _ _ (by rw [abs_of_neg (by linarith)]; norm_num at *; linarith) (fun i hi => ?_) fun i hi => ?_
  · rcases hval i hi with e | e <;> rw [e]
    · exact mul_self_nonneg _
    · exact mul_nonneg_of_nonpos_of_nonpos (by linarith) (by linarith [hn.1])
  · rcases hval i hi with e | e <;> rw [e]
    rw [abs_of_neg (by linarith [hn.1]), abs_of_neg (by linarith)]
    linarith [hn.2]

/-- **C78** (violated). Two bars of 125 mm². The bending strength is returned, with the bars at their ultimate strain; the default
diagram with two curvatures up to yielding and one beyond is not: it raises `ValueError`. -/
theorem C78_rupture_violated (hl : PyLower lower) :
    ∃ c s, newConcrete lower .ec2_2004 (defaultArgs 30) = some (.ok c) ∧ newSteel lower .ec2_2004 OrdinaryBeam.sargs = some (.ok s) ∧
    ∃ C : Set ℝ, C.Countable ∧ ∀ n ∉ C, 0 < n → n < 1 → ∃ r : BendingResult,
      (bendingStrength (engine s.mat.law 125) 0 n .fresh).2 = .ok r ∧ |r.n - n| ≤ 1e-2 ∧
      r.eps_a + r.chi.1 * -200 = 0.045 ∧ -0.0035 ≤ r.eps_a + r.chi.1 * 250 ∧
      (momentCurvature (engine s.mat.law 125) 0 n 1e-8 2 1 none .fresh).2 = .error .valueError := by
  obtain ⟨c, s, hc, hs⟩ := accepted hl
  refine ⟨c, s, hc, hs, ?_⟩
  have h := steel_made hl hs
  have hey := ey_bounds
  have hgeo := geometry s.mat.law 125
  obtain ⟨-, C, hC, hmain⟩ := C73_design_partial hl .ec2_2004 (defaultArgs 30) c hc rfl ⟨rfl, rfl⟩ ⟨rfl, rfl, rfl⟩
    (fun _ => by norm_num [defaultArgs, abs_of_pos]) .ec2_2004 OrdinaryBeam.sargs s hs rfl ⟨rfl, rfl⟩ hgap (by rw [hud]; norm_num)
    RCBeam.split 0.01 0 (fun _ _ => 0) (rectShape (-150) 150 (-250) 250) (bars s.mat.law 125) 1 (bars_law _ _)
    (fun p hp => by rw [List.mem_singleton.1 hp]; exact encloses_rect (by norm_num) (by norm_num))
    (fun p hp => by rw [List.mem_singleton.1 hp]; exact rect_hull (by norm_num) (by norm_num))
    (fun p hp => by rw [List.mem_singleton.1 hp]; exact RCBeam.ok.splits) hgeo hgeo 20 hfc20 _ rfl
    (by
      rw [hEs]
      simp only [rectShape, bars, List.map_cons, List.map_nil, List.sum_cons, List.sum_nil, add_zero]
      rw [rect_area (by norm_num) (by norm_num)]
      norm_num [abs_of_pos]) _ rfl (engine s.mat.law 125) rfl
  refine ⟨C, hC, fun n hn hn0 hn1 => ?_⟩
  set δ := (2 * |(20:ℝ)| / 0.002 * ((rectShape (-150) 150 (-250) 250).map fun p => areaMoment 0 0 p.2).sum +
    |OrdinaryBeam.sargs.Es| * ((bars s.mat.law 125).map fun b => |b.area|).sum) * (250 - -250) with hδ
  have hδ1 : δ ≤ 1e15 := by
    rw [hδ, hEs]
    simp only [rectShape, bars, List.map_cons, List.map_nil, List.sum_cons, List.sum_nil, add_zero]
    rw [rect_area (by norm_num) (by norm_num)]
    norm_num [abs_of_pos]
  have hfy : 200000 * ey = 500 / 1.15 := by unfold ey; norm_num
  have hlay : ∀ u, (concreteSection (normalParts 20 (rectShape (-150) 150 (-250) 250)) (bars s.mat.law 125)).forces ![u, 0, 0] 0 =
      300 * (500 * (ParabolaRectangle.new 20 0.002 0.0035 2).stress u) + 250 * s.mat.law.stress u := by
    intro u
    rw [(layer_forces (bars_y s.mat.law 125) (bars_sum s.mat.law 125).symm (f := s.mat.law.stress)
      (fun r hr => by rw [bars_law _ _ r hr]) u 0).1, rect_force (by norm_num) (by norm_num)]
    simp only [zero_mul, add_zero]
    rw [intervalIntegral.integral_const, smul_eq_mul]
    norm_num
  have hcrush : (ParabolaRectangle.new 20 0.002 0.0035 2).stress (-0.0035) = -20 := by
    have := block_zone3 (fc := 20) (x := 1) (z1 := 0) (y := 0) one_pos (by norm_num) le_rfl
    rw [sub_zero, mul_zero, add_zero, abs_of_pos (by norm_num)] at this
    exact this
  have htens : (ParabolaRectangle.new 20 0.002 0.0035 2).stress 0.045 = 0 :=
    pr_stress_tension 20 0.002 0.0035 (by norm_num) (by norm_num [abs_of_pos]) (by norm_num)
  have hsc := clamp_le h (v := -0.0035) (by rw [abs_le]; norm_num)
  have hst : s.mat.law.stress 0.045 = 500 / 1.15 := by
    rw [h.clamp _ (by rw [abs_of_pos (by norm_num)]), min_eq_right (by norm_num at *; linarith), max_eq_right (by linarith), hfy]
  obtain ⟨r, hr, ⟨k, hk, hchi⟩, hF, hlim, hadm, hnr⟩ := (hmain n [] trivial).2 (by rw [hlay, hcrush]; norm_num at *; linarith)
    (by rw [hud, hlay, htens, hst]; norm_num at *; linarith)
  have hnr := hnr hn
  rw [Real.cos_zero, Real.sin_zero, mul_one, mul_zero] at hchi
  have hc1 : r.chi.1 = k := by rw [hchi]
  have hc2 : r.chi.2 = 0 := by rw [hchi]
  rw [hc1, hc2] at hF hlim hadm
  have hF0 : (concreteSection (normalParts 20 (rectShape (-150) 150 (-250) 250)) (bars s.mat.law 125)).forces ![r.eps_a, k, 0] 0 = r.n := by
    rw [hF]; rfl
  obtain ⟨hk1, hk2, hbar⟩ := rupture_curvature h ⟨hn0, hn1⟩ hk hadm hlim (by rw [hF0]; exact hnr)
  refine ⟨r, hr, hnr, by rw [hc1]; linarith, by rw [hc1]; norm_num at *; linarith, ?_⟩
  obtain ⟨c1, c2, e1, e2, lim, hc1n, hc2n, he2, he2', -, hch, hrun⟩ := diagram h (A := 125) (by norm_num) ⟨hn0, hn1⟩ hr
    (by rw [hc1]; norm_num at *; linarith)
  rw [hrun]
  refine chain_mcLoop_error (chis := [c1, c2]) (rest := []) lim hch (fun c hc => answers _ _ c (by
    simp only [List.mem_cons, List.not_mem_nil, or_false] at hc
    rcases hc with rfl | rfl
    · exact hc1n
    · exact hc2n)) (answers _ _ _ (by rw [hc1]; exact hk)) ?_
  rw [hc1]
  exact last_search h ⟨hn0, hn1⟩ hk1 hk2 he2 he2'

end DiagramBeam

end SC
