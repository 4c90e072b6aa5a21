import Verif.Props.HardeningStrength

/-! # C76: loads between the limits without a bending strength -/

set_option autoImplicit false

namespace SC

open Spec MeasureTheory OrdinaryRC

variable {th ecu eu H : ℝ} {parts : List ConcretePart} {bars : List Bar}

theorem concrete_force_mono {split : Polygon → ℝ → ℝ → ShapelyResult} (hok : ∀ p ∈ parts, p.Ok split th) {e e' : Fin 3 → ℝ}
    (h : ∀ p ∈ parts, ∀ x ∈ p.region, p.law.stress (planeStrain e' x.1 x.2) ≤ p.law.stress (planeStrain e x.1 x.2)) :
    (concreteSection parts []).forces e' 0 ≤ (concreteSection parts []).forces e 0 := by
  have hI := (concrete_nonSoftening (bars := []) hok (by intro b hb; simp at hb) (by intro b hb; simp at hb)).integrable
  have hf : ∀ e, (concreteSection parts []).forces e 0 =
      (parts.map fun p => ∫ x in p.region, p.law.stress (planeStrain e x.1 x.2) * lever x.1 x.2 0).sum := by
    intro e
    simp only [CrossSection.forces, concreteSection, List.map_map, Function.comp_def, Pi.add_apply, list_sum_apply, List.map_nil,
      regionResultants, List.sum_nil, resultants, add_zero]
  rw [hf, hf]
  refine List.sum_le_sum fun p hp => ?_
  have hm : (⟨p.region, p.polygon.ext, p.law.stress, (p.law.ult false).1, (p.law.ult false).2⟩ : Plate) ∈ (concreteSection parts []).plates := by
    simp only [concreteSection, List.mem_map]; exact ⟨p, hp, rfl⟩
  refine setIntegral_mono_on (hI _ hm e' 0) (hI _ hm e 0) (hok p hp).encloses.measurable fun x hx => ?_
  simpa [lever] using h p hp x hx

/-- Below the comparison width the stress is at least the jump below the ultimate stress. -/
theorem Hardening.stress_below {l : ElasticPlastic} {u : ℝ} (h : Hardening l u) {x : ℝ} (h1 : -u ≤ x) (h2 : x < u - snapWidth u) :
    l.stress x ≤ l.core u - l.Eh * snapWidth u := by
  have hs := h.sy_nonneg
  have hu := h.u_pos
  have hx : max x l.eps_sy < u - snapWidth u := max_lt h2 (by linarith [hu.2.2])
  have hx' : l.eps_sy ≤ max x l.eps_sy := le_max_right _ _
  have hm := h.mono h1 (le_max_left x l.eps_sy) (by linarith [hu.2.1])
  rw [h.stress_mid (by linarith) hx, h.core_high hx' (by linarith [hu.2.1])] at hm
  rw [h.core_high (by linarith [hu.2.2]) le_rfl]
  have := mul_le_mul_of_nonneg_left hx.le h.Eh.1
  linarith

/-- **C76** (finding). In every ordinary section reinforced with one hardening steel whose lowest bar would lose more than `2e-2` (in
units of force) over the width of the comparison with the limit strain, there is a load well between the limit loads for which
`calculate_bending_strength` raises. -/
theorem C76_violated (split : Polygon → ℝ → ℝ → ShapelyResult) (ms : ℝ)
    (lu : Matrix (Fin 3) (Fin 3) ℝ → (Fin 3 → ℝ) → (Fin 3 → ℝ))
    {H0 : ℝ} (h0 : OrdinaryRC 0 parts bars ecu eu H0) (h : OrdinaryRC th parts bars ecu eu H)
    (hok : ∀ p ∈ parts, p.Ok split th) (hid : SameIds (bars.map Bar.law)) (hd : EqualSizes (groupBars bars))
    {l : ElasticPlastic} (hl : Hardening l eu)
    (hlaw : ∀ b ∈ bars, b.law.law.stress = l.stress ∧ b.law.law.ult false = (-eu, eu)) (hA : ∀ b ∈ bars, 0 ≤ b.area)
    {b0 : Bar} (hb0 : b0 ∈ bars) (hlow : ∀ b ∈ bars, height th (b0.x, b0.y) ≤ height th (b.x, b.y))
    (hgap : 2e-2 < b0.area * (l.Eh * snapWidth eu)) :
    ∃ n, (concreteSection parts bars).forces ![-ecu, 0, 0] 0 + 1e-2 < n ∧ n + 1e-2 < (concreteSection parts bars).forces ![eu, 0, 0] 0 ∧
      ∀ ops : List Op, Undisturbed (sectionEngine split (parts.map ConcretePart.solid) bars ms) lu ops .fresh →
        (bendingStrength (sectionEngine split (parts.map ConcretePart.solid) bars ms) th n
          (history (sectionEngine split (parts.map ConcretePart.solid) bars ms) lu ops .fresh)).2 = .error .valueError := by
  set E := sectionEngine split (parts.map ConcretePart.solid) bars ms with hEdef
  obtain ⟨yn, yp, st, hb, e1, e2, hst2, hs1, hsteep, ⟨bp, hbp, ey⟩, ⟨cn, hcn, eyn⟩, hgov, hadm, hN, hN0⟩ := h.search ms hok
  rw [← hEdef] at hb
  have hlims : (limits E .fresh).2 =
      .ok ((concreteSection parts bars).forces ![-ecu, 0, 0] 0, (concreteSection parts bars).forces ![eu, 0, 0] 0) :=
    C73_limits split ms h0 (fun p hp => ⟨(hok p hp).encloses, (hok p hp).peak, by
      linarith [(hok p hp).plateau, abs_nonneg p.eps_u, show (0:ℝ) < 1e-6 by norm_num]⟩) hid hd
  have hec := h.ecu_range
  have heu := h.eu_range
  have hec0 : 0 < ecu := lt_of_lt_of_le (by norm_num) hec.1
  have hneg13 : (0:ℝ) < 1e-13 := by norm_num
  have hw := hl.u_pos.2.1
  have hsy := hl.sy_nonneg
  have hplat := hl.u_pos.2.2
  have hpl : ∀ x y, planeStrain st x y = st 0 + st 1 * y := by intro x y; simp [planeStrain, hst2]
  set w := snapWidth eu with hwdef
  have hst1 : st 1 < 0 := by linarith
  -- all points lie below the compression pivot, all bars above the tension pivot
  have hadm0 := hadm yn (Or.inr rfl) (st 1) le_rfl hst1.le
  rw [e2] at hadm0
  have hline : st 1 * (yp - yn) = eu + ecu := by
    rw [hpl] at e1 e2
    linarith
  have hab : 0 < yn - yp := by
    by_contra hc
    push Not at hc
    have : st 1 * (yp - yn) ≤ 0 := mul_nonpos_of_nonpos_of_nonneg hst1.le (by linarith)
    linarith
  have hcor := admissible_corner hadm0
  have hbar_top : ∀ p ∈ parts, ∀ x ∈ convexHull ℝ {v | v ∈ p.polygon.ext}, height th x ≤ yn := by
    intro p hp x hx
    obtain ⟨v, hv, hle⟩ := hull_height (th := th) hx
    have := (hcor _ (h.concrete_corner hp hv)).1
    simp only at this
    rw [planeThrough_height th yn (-ecu) (st 1) v] at this
    have h2 : height th v ≤ yn := by
      by_contra hc
      push Not at hc
      have : st 1 * (height th v - yn) < 0 := mul_neg_of_neg_of_pos hst1 (by linarith)
      linarith
    linarith
  have hbars_top : ∀ b ∈ bars, height th (b.x, b.y) ≤ yn := by
    intro b hb'
    obtain ⟨p, hp, hin⟩ := h.inside b hb'
    exact hbar_top p hp _ hin
  have hb0p : height th (b0.x, b0.y) = yp := by
    apply le_antisymm
    · rw [← ey]; exact hlow bp hbp
    · have := (hcor _ (bar_corner hb0)).2
      simp only at this
      rw [(hlaw b0 hb0).2] at this
      have q := planeThrough_height th yn (-ecu) (st 1) (b0.x, b0.y)
      simp only at q
      rw [q] at this
      by_contra hc
      push Not at hc
      have : st 1 * (yp - yn) < st 1 * (height th (b0.x, b0.y) - yn) := mul_lt_mul_of_neg_left (by linarith) hst1
      linarith
  set N : ℝ → ℝ := fun chi => (concreteSection parts bars).forces (planeThrough th yn (-ecu) chi) 0 with hNdef
  have hadm' : ∀ chi, st 1 ≤ chi → chi ≤ 0 → (concreteSection parts bars).Admissible (planeThrough th yn (-ecu) chi) := by
    intro chi h1 h2
    have := hadm yn (Or.inr rfl) chi h1 h2
    rwa [e2] at this
  have hmonoC : ∀ c c', st 1 ≤ c → c ≤ c' → c' ≤ 0 →
      (concreteSection parts []).forces (planeThrough th yn (-ecu) c') 0 ≤ (concreteSection parts []).forces (planeThrough th yn (-ecu) c) 0 := by
    intro c c' h1 h2 h3
    refine concrete_force_mono hok fun p hp x hx => ?_
    have hx' := (hok p hp).inHull hx
    have hm : (⟨p.region, p.polygon.ext, p.law.stress, (p.law.ult false).1, (p.law.ult false).2⟩ : Plate) ∈ (concreteSection parts bars).plates := by
      simp only [concreteSection, List.mem_map]; exact ⟨p, hp, rfl⟩
    have s1 := (hadm' c' (h1.trans h2) h3).1 _ hm x hx'
    have s2 := (hadm' c h1 (h2.trans h3)).1 _ hm x hx'
    simp only [part_ult] at s1 s2
    refine pr_stress_mono p.fc p.eps_0 p.eps_u (hok p hp).peak (hok p hp).plateau s1.1 ?_
    rw [planeThrough_height, planeThrough_height]
    have := mul_le_mul_of_nonpos_right h2 (sub_nonpos.2 (hbar_top p hp x hx'))
    linarith
  have hstrain : ∀ b : Bar, ∀ c, planeStrain (planeThrough th yn (-ecu) c) b.x b.y = -ecu + c * (height th (b.x, b.y) - yn) :=
    fun b c => planeThrough_height th yn (-ecu) c (b.x, b.y)
  have hin : ∀ b ∈ bars, ∀ c, st 1 ≤ c → c ≤ 0 → -eu ≤ -ecu + c * (height th (b.x, b.y) - yn) ∧ -ecu + c * (height th (b.x, b.y) - yn) ≤ eu := by
    intro b hb' c h1 h2
    have := bar_strain (hadm' c h1 h2) hb'
    rw [(hlaw b hb').2, hstrain] at this
    exact this
  have hmonoB : ∀ b ∈ bars, ∀ c c', st 1 ≤ c → c ≤ c' → c' ≤ 0 →
      b.area * b.law.law.stress (planeStrain (planeThrough th yn (-ecu) c') b.x b.y) ≤
        b.area * b.law.law.stress (planeStrain (planeThrough th yn (-ecu) c) b.x b.y) := by
    intro b hb' c c' h1 h2 h3
    refine mul_le_mul_of_nonneg_left ?_ (hA b hb')
    rw [(hlaw b hb').1, hstrain, hstrain]
    refine hl.mono (hin b hb' c' (h1.trans h2) h3).1 ?_ (hin b hb' c h1 (h2.trans h3)).2
    have := mul_le_mul_of_nonpos_right h2 (sub_nonpos.2 (hbars_top b hb'))
    linarith
  have hmono : ∀ c c', st 1 ≤ c → c ≤ c' → c' ≤ 0 → N c' ≤ N c := by
    intro c c' h1 h2 h3
    simp only [hNdef]
    rw [force_split (bars := bars), force_split (bars := bars)]
    exact add_le_add (hmonoC c c' h1 h2 h3) (List.sum_le_sum fun b hb' => hmonoB b hb' c c' h1 h2 h3)
  -- the curvature at which the lowest bar enters the comparison width
  set cs := (eu - w + ecu) / (yp - yn) with hcs
  have hden : yp - yn < 0 := by linarith
  have hcsm : cs * (yp - yn) = eu - w + ecu := div_mul_cancel₀ _ hden.ne
  have hcs1 : st 1 ≤ cs := by
    by_contra hc
    push Not at hc
    have := mul_lt_mul_of_neg_right hc hden
    linarith
  have hcs0 : cs < 0 := div_neg_of_pos_of_neg (by linarith) hden
  have hjump : ∀ c, cs < c → c ≤ 0 → N c + b0.area * (l.Eh * w) ≤ N cs := by
    intro c h1 h2
    simp only [hNdef]
    rw [force_split (bars := bars), force_split (bars := bars)]
    have hC := hmonoC cs c hcs1 h1.le h2
    obtain ⟨s, t, rfl⟩ := List.append_of_mem hb0
    have hS : ∀ L : List Bar, (∀ b ∈ L, b ∈ s ++ b0 :: t) →
        (L.map fun b => b.area * b.law.law.stress (planeStrain (planeThrough th yn (-ecu) c) b.x b.y)).sum ≤
        (L.map fun b => b.area * b.law.law.stress (planeStrain (planeThrough th yn (-ecu) cs) b.x b.y)).sum := fun L hL =>
      List.sum_le_sum fun b hb' => hmonoB b (hL b hb') cs c hcs1 h1.le h2
    have hs := hS s (fun b hb' => by simp [hb'])
    have ht := hS t (fun b hb' => by simp [hb'])
    have hmid : b0.area * b0.law.law.stress (planeStrain (planeThrough th yn (-ecu) c) b0.x b0.y) + b0.area * (l.Eh * w) ≤
        b0.area * b0.law.law.stress (planeStrain (planeThrough th yn (-ecu) cs) b0.x b0.y) := by
      rw [← mul_add]
      refine mul_le_mul_of_nonneg_left ?_ (hA b0 hb0)
      rw [(hlaw b0 hb0).1, hstrain, hstrain, hb0p, hcsm]
      have i1 := hin b0 hb0 c (hcs1.trans h1.le) h2
      rw [hb0p] at i1
      have hlt : c * (yp - yn) < eu - w + ecu := by rw [← hcsm]; exact mul_lt_mul_of_neg_right h1 hden
      rw [hl.stress_high (x := -ecu + (eu - w + ecu)) (by linarith) (by linarith)]
      have := hl.stress_below i1.1 (x := -ecu + c * (yp - yn)) (by linarith)
      linarith
    simp only [List.map_append, List.map_cons, List.sum_append, List.sum_cons]
    linarith
  have hyy : 1e-13 * (yn - yp) < ecu := by
    have := h.span _ hcn _ (bar_corner hbp)
    rw [eyn] at this
    simp only at this
    rw [ey] at this
    have hH := h.size.2
    have : 1e-13 * (yn - yp) ≤ 1e-13 * H := mul_le_mul_of_nonneg_left this (by norm_num)
    have : 1e-13 * H ≤ 1e-13 * 1e9 := mul_le_mul_of_nonneg_left hH (by norm_num)
    norm_num at *
    linarith [hec.1]
  have hcs13 : cs < -1e-13 := by
    by_contra hc
    push Not at hc
    have := mul_le_mul_of_nonpos_right hc hden.le
    linarith
  have hbot := hjump 0 hcs0 le_rfl
  have hzero : N 0 = (concreteSection parts bars).forces ![-ecu, 0, 0] 0 := by
    simp only [hNdef]
    congr 1
    simp [planeThrough]
  have hstart := hmono (st 1) cs le_rfl hcs1 hcs0.le
  have htop : N (st 1) ≤ (concreteSection parts bars).forces ![eu, 0, 0] 0 := by
    have hu : ∀ x y, planeStrain ![eu, 0, 0] x y = eu := by intro x y; simp [planeStrain]
    simp only [hNdef]
    rw [force_split (bars := bars), force_split (bars := bars)]
    refine add_le_add (concrete_force_mono hok fun p hp x hx => ?_) (List.sum_le_sum fun b hb' => ?_)
    · rw [hu]
      have t0 := pr_stress_tension p.fc p.eps_0 p.eps_u (hok p hp).peak (hok p hp).plateau (x := eu) (by linarith)
      have t1 := (pr_stress_range p.fc p.eps_0 p.eps_u (hok p hp).peak (planeStrain (planeThrough th yn (-ecu) (st 1)) x.1 x.2)).2
      exact t1.trans_eq t0.symm
    · rw [hu]
      refine mul_le_mul_of_nonneg_left ?_ (hA b hb')
      have := hin b hb' (st 1) le_rfl hst1.le
      rw [(hlaw b hb').1, hstrain]
      exact hl.mono this.1 this.2 le_rfl
  have hq : 1e-2 < b0.area * (l.Eh * w) / 2 := by linarith
  refine ⟨N cs - b0.area * (l.Eh * w) / 2, by linarith, by linarith, fun ops hops => ?_⟩
  set n := N cs - b0.area * (l.Eh * w) / 2 with hn
  have hcheck : (checkAxialLoad E n .fresh).2 = .ok () := by
    simp only [checkAxialLoad, CalcM.bind_def]
    rcases hlm : limits E .fresh with ⟨s, r⟩
    rw [hlm] at hlims
    simp only at hlims
    subst hlims
    simp only
    rw [if_neg (by push Not; constructor <;> linarith)]
    rfl
  have hNc : ∀ chi, st 1 ≤ chi → chi ≤ 0 → (crossSection (parts.map ConcretePart.solid) bars).forces
      ![st 0 + st 1 * yn - chi * yn, chi * Real.cos th, chi * Real.sin th] 0 = N chi := by
    intro chi h1 h2
    have := hN yn (Or.inr rfl) chi h1 h2
    rwa [e2] at this
  obtain ⟨k, hrun⟩ := fixedPivotFrom_stuck
    (fun e c => (crossSection (parts.map ConcretePart.solid) bars).forces ![e, c * Real.cos th, c * Real.sin th] 0) n yn yp st
    (by
      intro t ht
      obtain ⟨a1, a2⟩ := trial_range hsteep ht
      rw [hNc _ a1 (by linarith)]
      rcases le_or_gt (trial st t) cs with hle | hgt
      · have := hmono _ _ a1 hle hcs0.le
        rw [lt_abs]
        left
        linarith
      · have := hjump _ hgt (by linarith)
        rw [lt_abs]
        right
        linarith)
    (by
      rw [hN0]
      change n < N (st 1)
      linarith)
    (by
      rw [hNc _ hsteep (by linarith)]
      have := hjump _ hcs13 (by linarith)
      linarith)
  exact (strength_of_search ms n lu ops hops hok hid hd hb hsteep hst2 hcheck).2 k hrun

end SC
