import Verif.Props.HardeningGap
import Verif.Props.OrdinaryMaterials

/-! # C73: loads met exactly by the search

The bisection compares signs with `dn_c * dn_a < 0`. If a midpoint is in exact equilibrium it becomes the end `a` of the bracket, and
the search then runs to the other end. -/

set_option autoImplicit false

namespace SC

open Spec MeasureTheory OrdinaryRC

/-- If no midpoint on the way to `b` has a residual of opposite sign to the one before, the bisection returns a point with the residual
of `b`. -/
theorem bisection_drops (f : ℝ → ℝ) (a b : ℝ)
    (hs : ∀ i : ℕ, 0 ≤ f (a + (1 - 1 / 2 ^ (i + 1)) * (b - a)) * f (a + (1 - 1 / 2 ^ i) * (b - a)))
    {c : ℝ} {k : ℕ} (h : bisection f a (f a) b (f b) = some (.ok c, k)) :
    (∃ i : ℕ, c = a + (1 - 1 / 2 ^ i) * (b - a)) ∧ |f c - f b| ≤ 1e-2 := by
  unfold bisection at h
  rw [Option.map_eq_some_iff] at h
  obtain ⟨⟨w, k'⟩, hw, hr⟩ := h
  simp only [Prod.mk.injEq] at hr
  obtain ⟨hr, rfl⟩ := hr
  rcases pyWhile_inv (fun s => s.a = a + (1 - 1 / 2 ^ s.it) * (b - a) ∧ s.da = f s.a ∧ s.b = b ∧ s.db = f b ∧ (s.c = none ∨ s.c = some s.a))
    (by
      rintro s s' ⟨h1, h2, h3, h4, -⟩ hc hb
      simp only [bisBody] at hb
      have hm : (s.a + s.b) / 2 = a + (1 - 1 / 2 ^ (s.it + 1)) * (b - a) := by
        rw [h1, h3, pow_succ]; field_simp; ring
      have hnn : ¬ f ((s.a + s.b) / 2) * s.da < 0 := by
        rw [hm, h2, h1]; exact not_lt.2 (hs s.it)
      rw [if_neg hnn] at hb
      simp only [Except.ok.injEq] at hb
      subst hb
      exact ⟨hm, rfl, h3, h4, Or.inr rfl⟩)
    (by simp) hw with ⟨s, rfl, ⟨h1, h2, h3, h4, h5⟩, hn⟩ | ⟨s, e, -, -, -, hb⟩
  · simp only at hr
    split_ifs at hr with h100
    rcases h5 with h5 | h5 <;> rw [h5] at hr <;> simp only [Except.ok.injEq, reduceCtorEq] at hr
    subst hr
    refine ⟨⟨s.it, h1⟩, ?_⟩
    by_contra hcon
    apply hn
    refine ⟨?_, by omega⟩
    rw [h2, h4]
    exact not_le.1 hcon
  · simp only [bisBody] at hb
    split_ifs at hb

/-- A residual that falls along the search, and vanishes at one of the midpoints on the way to the end. -/
theorem drop_signs {f : ℝ → ℝ} {a b : ℝ}
    (hf : ∀ t ∈ Set.Icc (0:ℝ) 1, ∀ u ∈ Set.Icc (0:ℝ) 1, t ≤ u → f (a + u * (b - a)) ≤ f (a + t * (b - a))) {m : ℕ}
    (hm : f (a + (1 - 1 / 2 ^ m) * (b - a)) = 0) (i : ℕ) :
    0 ≤ f (a + (1 - 1 / 2 ^ (i + 1)) * (b - a)) * f (a + (1 - 1 / 2 ^ i) * (b - a)) := by
  have hmem : ∀ j : ℕ, (1 - 1 / 2 ^ j : ℝ) ∈ Set.Icc (0:ℝ) 1 := by
    intro j
    have h1 : (1:ℝ) / 2 ^ j ≤ 1 := by rw [div_le_one (by positivity)]; exact one_le_pow₀ (by norm_num)
    have h2 : (0:ℝ) ≤ 1 / 2 ^ j := by positivity
    constructor <;> linarith
  have hle : ∀ j l : ℕ, j ≤ l → (1 - 1 / 2 ^ j : ℝ) ≤ 1 - 1 / 2 ^ l := by
    intro j l h
    have : (1:ℝ) / 2 ^ l ≤ 1 / 2 ^ j := one_div_le_one_div_of_le (by positivity) (pow_le_pow_right₀ (by norm_num) h)
    linarith
  rcases lt_or_ge i m with h | h
  · have h1 := hf _ (hmem i) _ (hmem m) (hle _ _ h.le)
    have h2 := hf _ (hmem (i + 1)) _ (hmem m) (hle _ _ h)
    rw [hm] at h1 h2
    exact mul_nonneg h2 h1
  · have h1 := hf _ (hmem m) _ (hmem i) (hle _ _ h)
    have h2 := hf _ (hmem m) _ (hmem (i + 1)) (hle _ _ (by omega))
    rw [hm] at h1 h2
    exact mul_nonneg_of_nonpos_of_nonpos h2 h1

/-- The search under a load met exactly at a midpoint: it returns a plane that carries the force of the last plane. -/
theorem fixedPivotFrom_drops (N : ℝ → ℝ → ℝ) (n yn yp : ℝ) (st : Fin 3 → ℝ)
    (hmono : ∀ t ∈ Set.Icc (0:ℝ) 1, ∀ u ∈ Set.Icc (0:ℝ) 1, t ≤ u →
      N (st 0 + st 1 * yn - trial st u * yn) (trial st u) ≤ N (st 0 + st 1 * yn - trial st t * yn) (trial st t))
    {m : ℕ} (hm : N (st 0 + st 1 * yn - trial st (1 - 1 / 2 ^ m) * yn) (trial st (1 - 1 / 2 ^ m)) = n)
    (hbal : n + 1e-2 < N (st 0) (st 1)) {e c z : ℝ} {k : ℕ}
    (h : fixedPivotFrom N n yn yp st = some (.ok (e, c, z), k)) :
    |N e c - N (st 0 + st 1 * yn - (-1e-13) * yn) (-1e-13)| ≤ 1e-2 := by
  unfold fixedPivotFrom at h
  simp only at h
  have hlt : ¬ N (st 0) (st 1) < n := by
    have : (0:ℝ) < 1e-2 := by norm_num
    intro hc; linarith
  rw [if_neg (by rw [not_le, lt_abs]; left; linarith), if_neg hlt, if_neg hlt, Option.map_eq_some_iff] at h
  obtain ⟨⟨r, k'⟩, hbis, h⟩ := h
  simp only [Prod.mk.injEq] at h
  obtain ⟨h, -⟩ := h
  cases r with
  | error e => simp at h
  | ok x =>
    simp only [Except.ok.injEq, Prod.mk.injEq] at h
    obtain ⟨rfl, rfl, -⟩ := h
    have e1 : st 0 + st 1 * yn - st 1 * yn = st 0 := by ring
    have e2 : N (st 0) (st 1) - n = (fun chi => N (st 0 + st 1 * yn - chi * yn) chi - n) (st 1) := by simp only [e1]
    rw [e2] at hbis
    obtain ⟨-, hf⟩ := bisection_drops _ _ _ (drop_signs (m := m) (by
      intro t ht u hu htu
      have := hmono t ht u hu htu
      simp only [trial] at this
      linarith) (by simp only [trial] at hm; simp only [hm, sub_self])) hbis
    have e3 : N (st 0 + st 1 * yn - x * yn) x - N (st 0 + st 1 * yn - (-1e-13) * yn) (-1e-13) =
      N (st 0 + st 1 * yn - x * yn) x - n - (N (st 0 + st 1 * yn - (-1e-13) * yn) (-1e-13) - n) := by ring
    rw [e3]
    exact hf

variable {th ecu eu H : ℝ} {parts : List ConcretePart} {bars : List Bar}

set_option maxHeartbeats 800000 in
/-- **C73** (finding). In every ordinary section of concrete and perfectly plastic steel there is a load `n`, farther than `μ` from
both limit loads, for which `calculate_bending_strength` returns without an error a state that carries the smallest axial force instead of
`n`. `μ` is the area of the lowest bar times a stress of the order of the yield stress. -/
theorem C73_violated (split : Polygon → ℝ → ℝ → ShapelyResult) (ms : ℝ)
    (lu : Matrix (Fin 3) (Fin 3) ℝ → (Fin 3 → ℝ) → (Fin 3 → ℝ))
    {H0 : ℝ} (h0 : OrdinaryRC 0 parts bars ecu eu H0) (h : OrdinaryRC th parts bars ecu eu H)
    (hok : ∀ p ∈ parts, p.Ok split th) (hid : SameIds (bars.map Bar.law)) (hd : EqualSizes (groupBars bars))
    {E ey : ℝ} (hE0 : 0 < E) (hey : 0 < ey) (hye : ey ≤ eu) (hce : ecu ≤ eu)
    (hlaw : ∀ b ∈ bars, b.law.law.ult false = (-eu, eu) ∧ ∀ x, |x| ≤ eu → b.law.law.stress x = E * max (-ey) (min x ey))
    (hA : ∀ b ∈ bars, 0 ≤ b.area)
    {b0 : Bar} (hb0 : b0 ∈ bars) (hlow : ∀ b ∈ bars, height th (b0.x, b0.y) ≤ height th (b.x, b.y))
    {μ : ℝ} (hμ : μ = b0.area * (E * (min ey ecu - ecu / 3 - 1e-4)))
    (hstiff : axialRigidity parts bars E * H ≤ 1e22) (hgap : 1e-2 + axialRigidity parts bars E * H * 1e-13 < μ) :
    ∃ n, (concreteSection parts bars).forces ![-ecu, 0, 0] 0 + μ ≤ n ∧ n + μ ≤ (concreteSection parts bars).forces ![eu, 0, 0] 0 ∧
      ∀ ops : List Op, Undisturbed (sectionEngine split (parts.map ConcretePart.solid) bars ms) lu ops .fresh →
        ∃ r : BendingResult, (bendingStrength (sectionEngine split (parts.map ConcretePart.solid) bars ms) th n
          (history (sectionEngine split (parts.map ConcretePart.solid) bars ms) lu ops .fresh)).2 = .ok r ∧
          |r.n - (concreteSection parts bars).forces ![-ecu, 0, 0] 0| ≤ 1e-2 + axialRigidity parts bars E * H * 1e-13 := by
  set E' := sectionEngine split (parts.map ConcretePart.solid) bars ms with hEdef
  obtain ⟨yn, yp, st, hb, e1, e2, hst2, hs1, hsteep, ⟨bp, hbp, ey'⟩, ⟨cn, hcn, eyn⟩, hgov, hadm, hN, hN0⟩ := h.search ms hok
  rw [← hEdef] at hb
  have hlims : (limits E' .fresh).2 =
      .ok ((concreteSection parts bars).forces ![-ecu, 0, 0] 0, (concreteSection parts bars).forces ![eu, 0, 0] 0) :=
    C73_limits split ms h0 (fun p hp => ⟨(hok p hp).encloses, (hok p hp).peak, by
      linarith [(hok p hp).plateau, abs_nonneg p.eps_u, show (0:ℝ) < 1e-6 by norm_num]⟩) hid hd
  have hec := h.ecu_range
  have heu := h.eu_range
  have hec0 : 0 < ecu := lt_of_lt_of_le (by norm_num) hec.1
  have hneg13 : (0:ℝ) < 1e-13 := by norm_num
  have hpl : ∀ x y, planeStrain st x y = st 0 + st 1 * y := by intro x y; simp [planeStrain, hst2]
  have hst1 : st 1 < 0 := by linarith
  have hfmono : ∀ b ∈ bars, ∀ {x y : ℝ}, -eu ≤ x → x ≤ y → y ≤ eu → b.law.law.stress x ≤ b.law.law.stress y := by
    intro b hb' x y h1 h2 h3
    rw [(hlaw b hb').2 x (abs_le.2 ⟨h1, h2.trans h3⟩), (hlaw b hb').2 y (abs_le.2 ⟨h1.trans h2, h3⟩)]
    exact mul_le_mul_of_nonneg_left (max_le_max_left _ (min_le_min_right _ h2)) hE0.le
  -- all points lie below the compression pivot, all bars above the tension pivot
  have hadm0 := hadm yn (Or.inr rfl) (st 1) le_rfl hst1.le
  rw [e2] at hadm0
  have hline : st 1 * (yp - yn) = eu + ecu := by
    rw [hpl] at e1 e2
    linarith
  have hab : 0 < yn - yp := by
    by_contra hc
    push Not at hc
    have : st 1 * (yp - yn) ≤ 0 := mul_nonpos_of_nonpos_of_nonneg hst1.le (by linarith)
    linarith
  have hcor := admissible_corner hadm0
  have hbar_top : ∀ p ∈ parts, ∀ x ∈ convexHull ℝ {v | v ∈ p.polygon.ext}, height th x ≤ yn := by
    intro p hp x hx
    obtain ⟨v, hv, hle⟩ := hull_height (th := th) hx
    have := (hcor _ (h.concrete_corner hp hv)).1
    simp only at this
    rw [planeThrough_height th yn (-ecu) (st 1) v] at this
    have h2 : height th v ≤ yn := by
      by_contra hc
      push Not at hc
      have : st 1 * (height th v - yn) < 0 := mul_neg_of_neg_of_pos hst1 (by linarith)
      linarith
    linarith
  have hbars_top : ∀ b ∈ bars, height th (b.x, b.y) ≤ yn := by
    intro b hb'
    obtain ⟨p, hp, hin⟩ := h.inside b hb'
    exact hbar_top p hp _ hin
  have hb0p : height th (b0.x, b0.y) = yp := by
    apply le_antisymm
    · rw [← ey']; exact hlow bp hbp
    · have := (hcor _ (bar_corner hb0)).2
      simp only at this
      rw [(hlaw b0 hb0).1] at this
      have q := planeThrough_height th yn (-ecu) (st 1) (b0.x, b0.y)
      simp only at q
      rw [q] at this
      by_contra hc
      push Not at hc
      have : st 1 * (yp - yn) < st 1 * (height th (b0.x, b0.y) - yn) := mul_lt_mul_of_neg_left (by linarith) hst1
      linarith
  set N : ℝ → ℝ := fun chi => (concreteSection parts bars).forces (planeThrough th yn (-ecu) chi) 0 with hNdef
  have hadm' : ∀ chi, st 1 ≤ chi → chi ≤ 0 → (concreteSection parts bars).Admissible (planeThrough th yn (-ecu) chi) := by
    intro chi h1 h2
    have := hadm yn (Or.inr rfl) chi h1 h2
    rwa [e2] at this
  have hmonoC : ∀ c c', st 1 ≤ c → c ≤ c' → c' ≤ 0 →
      (concreteSection parts []).forces (planeThrough th yn (-ecu) c') 0 ≤ (concreteSection parts []).forces (planeThrough th yn (-ecu) c) 0 := by
    intro c c' h1 h2 h3
    refine concrete_force_mono hok fun p hp x hx => ?_
    have hx' := (hok p hp).inHull hx
    have hm : (⟨p.region, p.polygon.ext, p.law.stress, (p.law.ult false).1, (p.law.ult false).2⟩ : Plate) ∈ (concreteSection parts bars).plates := by
      simp only [concreteSection, List.mem_map]; exact ⟨p, hp, rfl⟩
    have s1 := (hadm' c' (h1.trans h2) h3).1 _ hm x hx'
    have s2 := (hadm' c h1 (h2.trans h3)).1 _ hm x hx'
    simp only [part_ult] at s1 s2
    refine pr_stress_mono p.fc p.eps_0 p.eps_u (hok p hp).peak (hok p hp).plateau s1.1 ?_
    rw [planeThrough_height, planeThrough_height]
    have := mul_le_mul_of_nonpos_right h2 (sub_nonpos.2 (hbar_top p hp x hx'))
    linarith
  have hstrain : ∀ b : Bar, ∀ c, planeStrain (planeThrough th yn (-ecu) c) b.x b.y = -ecu + c * (height th (b.x, b.y) - yn) :=
    fun b c => planeThrough_height th yn (-ecu) c (b.x, b.y)
  have hin : ∀ b ∈ bars, ∀ c, st 1 ≤ c → c ≤ 0 → -eu ≤ -ecu + c * (height th (b.x, b.y) - yn) ∧ -ecu + c * (height th (b.x, b.y) - yn) ≤ eu := by
    intro b hb' c h1 h2
    have := bar_strain (hadm' c h1 h2) hb'
    rw [(hlaw b hb').1, hstrain] at this
    exact this
  have hmonoB : ∀ b ∈ bars, ∀ c c', st 1 ≤ c → c ≤ c' → c' ≤ 0 →
      b.area * b.law.law.stress (planeStrain (planeThrough th yn (-ecu) c') b.x b.y) ≤
        b.area * b.law.law.stress (planeStrain (planeThrough th yn (-ecu) c) b.x b.y) := by
    intro b hb' c c' h1 h2 h3
    refine mul_le_mul_of_nonneg_left ?_ (hA b hb')
    rw [hstrain, hstrain]
    refine hfmono b hb' (hin b hb' c' (h1.trans h2) h3).1 ?_ (hin b hb' c h1 (h2.trans h3)).2
    have := mul_le_mul_of_nonpos_right h2 (sub_nonpos.2 (hbars_top b hb'))
    linarith
  have hmono : ∀ c c', st 1 ≤ c → c ≤ c' → c' ≤ 0 → N c' ≤ N c := by
    intro c c' h1 h2 h3
    simp only [hNdef]
    rw [force_split (bars := bars), force_split (bars := bars)]
    exact add_le_add (hmonoC c c' h1 h2 h3) (List.sum_le_sum fun b hb' => hmonoB b hb' c c' h1 h2 h3)
  have hden : yp - yn < 0 := by linarith
  -- a midpoint at which the lowest bar is elastic
  obtain ⟨m, hm1, hm2⟩ := exists_nat_pow_near_of_lt_one (x := 2 / 3 * ecu / (eu + ecu)) (y := 1 / 2) (div_pos (by positivity) (by linarith))
    (by rw [div_le_one (by linarith)]; linarith) (by norm_num) (by norm_num)
  have hpow : ((1:ℝ) / 2) ^ m = 1 / 2 ^ m := by rw [one_div_pow]
  have hx1 : 2 / 3 * ecu ≤ 1 / 2 ^ m * (eu + ecu) := by
    rw [hpow, div_le_iff₀ (by linarith)] at hm2
    exact hm2
  have hx2 : 1 / 2 ^ m * (eu + ecu) < 4 / 3 * ecu := by
    rw [pow_succ, hpow, lt_div_iff₀ (by linarith)] at hm1
    linarith
  have hq1 : (1:ℝ) / 2 ^ m ≤ 1 := by rw [div_le_one (by positivity)]; exact one_le_pow₀ (by norm_num)
  have hq0 : (0:ℝ) < 1 / 2 ^ m := by positivity
  have hmem : (1 - 1 / 2 ^ m : ℝ) ∈ Set.Icc (0:ℝ) 1 := ⟨by linarith, by linarith⟩
  set cs := trial st (1 - 1 / 2 ^ m) with hcs
  obtain ⟨hcs1, hcs13⟩ := trial_range hsteep hmem
  rw [← hcs] at hcs1 hcs13
  have hyy : 1e-13 * (yn - yp) ≤ 1e-4 := by
    have := h.span _ hcn _ (bar_corner hbp)
    rw [eyn] at this
    simp only at this
    rw [ey'] at this
    have hH := h.size.2
    have : 1e-13 * (yn - yp) ≤ 1e-13 * H := mul_le_mul_of_nonneg_left this (by norm_num)
    have : 1e-13 * H ≤ 1e-13 * 1e9 := mul_le_mul_of_nonneg_left hH (by norm_num)
    norm_num at *
    linarith
  have hcsy : cs * (yp - yn) = 1 / 2 ^ m * (eu + ecu) + (1 - 1 / 2 ^ m) * (1e-13 * (yn - yp)) := by
    rw [hcs, trial, ← hline]; ring
  have htiny : 0 ≤ (1 - 1 / 2 ^ m) * (1e-13 * (yn - yp)) ∧ (1 - 1 / 2 ^ m) * (1e-13 * (yn - yp)) ≤ 1e-4 := by
    have h1 : (0:ℝ) ≤ 1e-13 * (yn - yp) := by positivity
    constructor
    · exact mul_nonneg hmem.1 h1
    · exact (mul_le_of_le_one_left h1 hmem.2).trans hyy
  have hmin1 : min ey ecu ≤ ey := min_le_left _ _
  have hmin2 : min ey ecu ≤ ecu := min_le_right _ _
  have hdiff : ∀ c c', st 1 ≤ c → c ≤ c' → c' ≤ 0 → ∀ v,
      v + b0.law.law.stress (-ecu + c' * (yp - yn)) ≤ b0.law.law.stress (-ecu + c * (yp - yn)) → N c' + b0.area * v ≤ N c := by
    intro c c' h1 h2 h3 v hv
    simp only [hNdef]
    rw [force_split (bars := bars), force_split (bars := bars)]
    have hC := hmonoC c c' h1 h2 h3
    obtain ⟨s, t, rfl⟩ := List.append_of_mem hb0
    have hS : ∀ L : List Bar, (∀ b ∈ L, b ∈ s ++ b0 :: t) →
        (L.map fun b => b.area * b.law.law.stress (planeStrain (planeThrough th yn (-ecu) c') b.x b.y)).sum ≤
        (L.map fun b => b.area * b.law.law.stress (planeStrain (planeThrough th yn (-ecu) c) b.x b.y)).sum := fun L hL =>
      List.sum_le_sum fun b hb' => hmonoB b (hL b hb') c c' h1 h2 h3
    have hs := hS s (fun b hb' => by simp [hb'])
    have ht := hS t (fun b hb' => by simp [hb'])
    have hmid : b0.area * b0.law.law.stress (planeStrain (planeThrough th yn (-ecu) c') b0.x b0.y) + b0.area * v ≤
        b0.area * b0.law.law.stress (planeStrain (planeThrough th yn (-ecu) c) b0.x b0.y) := by
      rw [← mul_add]
      refine mul_le_mul_of_nonneg_left ?_ (hA b0 hb0)
      rw [hstrain, hstrain, hb0p]
      linarith
    simp only [List.map_append, List.map_cons, List.sum_append, List.sum_cons]
    linarith
  have hzero : N 0 = (concreteSection parts bars).forces ![-ecu, 0, 0] 0 := by
    simp only [hNdef]
    congr 1
    simp [planeThrough]
  have hcs0 : cs ≤ 0 := by linarith
  have hval : ∀ x, |x| ≤ eu → b0.law.law.stress x = E * max (-ey) (min x ey) := (hlaw b0 hb0).2
  have hEsub : ∀ x y, x - y ≥ min ey ecu - ecu / 3 - 1e-4 → E * (min ey ecu - ecu / 3 - 1e-4) + E * y ≤ E * x := by
    intro x y hxy
    rw [← mul_add]
    exact mul_le_mul_of_nonneg_left (by linarith) hE0.le
  have hmidlo : -(ecu / 3) ≤ max (-ey) (min (-ecu + cs * (yp - yn)) ey) := by
    rcases le_or_gt ey (-ecu + cs * (yp - yn)) with h' | h'
    · rw [min_eq_right h']; exact le_trans (by linarith) (le_max_right _ _)
    · rw [min_eq_left h'.le]; exact le_trans (by rw [hcsy]; linarith [htiny.1]) (le_max_right _ _)
  have hbot : N 0 + μ ≤ N cs := by
    rw [hμ]
    refine hdiff cs 0 hcs1 hcs0 le_rfl _ ?_
    rw [zero_mul, add_zero, hval (-ecu) (by rw [abs_neg, abs_of_pos hec0]; exact hce), hval _ (abs_le.2 ⟨by rw [hcsy]; linarith [htiny.1], by
      rw [hcsy]; linarith [htiny.2]⟩)]
    refine hEsub _ _ ?_
    have : max (-ey) (min (-ecu) ey) ≤ -min ey ecu := by
      rw [min_eq_left (by linarith)]
      exact max_le (by linarith) (by linarith)
    linarith
  have htop' : N cs + μ ≤ N (st 1) := by
    rw [hμ]
    refine hdiff (st 1) cs le_rfl hcs1 hcs0 _ ?_
    rw [hline, hval (-ecu + (eu + ecu)) (by rw [abs_of_pos (by linarith)]; linarith), hval _ (abs_le.2 ⟨by rw [hcsy]; linarith [htiny.1], by
      rw [hcsy]; linarith [htiny.2]⟩)]
    refine hEsub _ _ ?_
    have h1 : max (-ey) (min (-ecu + (eu + ecu)) ey) = ey := by
      rw [min_eq_right (by linarith), max_eq_right (by linarith)]
    have h2 : max (-ey) (min (-ecu + cs * (yp - yn)) ey) ≤ max (-ey) (ecu / 3 + 1e-4) :=
      max_le_max_left _ ((min_le_left _ _).trans (by rw [hcsy]; linarith [htiny.2]))
    rw [max_eq_right (a := -ey) (b := ecu / 3 + 1e-4) (by linarith)] at h2
    linarith
  have htop : N (st 1) ≤ (concreteSection parts bars).forces ![eu, 0, 0] 0 := by
    have hu : ∀ x y, planeStrain ![eu, 0, 0] x y = eu := by intro x y; simp [planeStrain]
    simp only [hNdef]
    rw [force_split (bars := bars), force_split (bars := bars)]
    refine add_le_add (concrete_force_mono hok fun p hp x hx => ?_) (List.sum_le_sum fun b hb' => ?_)
    · rw [hu]
      have t0 := pr_stress_tension p.fc p.eps_0 p.eps_u (hok p hp).peak (hok p hp).plateau (x := eu) (by linarith)
      have t1 := (pr_stress_range p.fc p.eps_0 p.eps_u (hok p hp).peak (planeStrain (planeThrough th yn (-ecu) (st 1)) x.1 x.2)).2
      exact t1.trans_eq t0.symm
    · rw [hu]
      refine mul_le_mul_of_nonneg_left ?_ (hA b hb')
      have := hin b hb' (st 1) le_rfl hst1.le
      rw [hstrain]
      exact hfmono b hb' this.1 this.2 le_rfl
  have hK : ∀ b ∈ bars, ∀ x ∈ Set.Icc (b.law.law.ult false).1 (b.law.law.ult false).2,
      ∀ y ∈ Set.Icc (b.law.law.ult false).1 (b.law.law.ult false).2, |b.law.law.stress x - b.law.law.stress y| ≤ E * |x - y| := by
    intro b hb' x hx y hy
    rw [(hlaw b hb').1] at hx hy
    rw [(hlaw b hb').2 x (abs_le.2 hx), (hlaw b hb').2 y (abs_le.2 hy), ← mul_sub, abs_mul, abs_of_pos hE0]
    refine mul_le_mul_of_nonneg_left ?_ hE0.le
    have hcl : ∀ p q : ℝ, p ≤ q → max (-ey) (min q ey) - max (-ey) (min p ey) ≤ q - p ∧
        max (-ey) (min p ey) ≤ max (-ey) (min q ey) := by
      intro p q hpq
      refine ⟨?_, max_le_max_left _ (min_le_min_right _ hpq)⟩
      rcases le_total q ey with a1 | a1 <;> rcases le_total p ey with a2 | a2 <;> simp only [a1, a2, min_eq_left, min_eq_right] <;>
        rcases max_cases (-ey) q with ⟨b1, b1'⟩ | ⟨b1, b1'⟩ <;> rcases max_cases (-ey) p with ⟨b2, b2'⟩ | ⟨b2, b2'⟩ <;>
        rcases max_cases (-ey) ey with ⟨b3, b3'⟩ | ⟨b3, b3'⟩ <;> linarith
    rcases le_total x y with hxy | hxy
    · obtain ⟨k1, k2⟩ := hcl x y hxy
      rw [abs_of_nonpos (by linarith), abs_of_nonpos (by linarith)]
      linarith
    · obtain ⟨k1, k2⟩ := hcl y x hxy
      rw [abs_of_nonneg (by linarith), abs_of_nonneg (by linarith)]
      linarith
  refine ⟨N cs, by rw [← hzero]; exact hbot, by linarith, fun ops hops => ?_⟩
  obtain ⟨C, -, hmain⟩ := C73_strength_partial split ms lu h0 h hok hid hd hE0.le hK hstiff
  obtain ⟨r, hr, ⟨c, hc, hchi⟩, hF, -, hra, -⟩ := (hmain (N cs) ops hops).2 (by rw [← hzero]; linarith) (by linarith)
  refine ⟨r, hr, ?_⟩
  have hgood : ∀ s ∈ parts.map ConcretePart.solid, MeasurableSet s.spec.region ∧
      ∀ e chi, chi < 0 → (s.spec.turn (-th)).Good split .stress ![e, chi, 0] := by
    intro s hs
    obtain ⟨p, hp, rfl⟩ := List.mem_map.1 hs
    exact ⟨(hok p hp).encloses.measurable, fun e chi h => concrete_good (hok p hp) e chi h⟩
  have hLaw : E'.Lawful fun _ => .ok (groupBars bars) := marinEngine_lawful _ _ _ _ _ _
  have hAns : E'.Answers (groupBars bars) (crossSection (parts.map ConcretePart.solid) bars) th :=
    marin_answers split (parts.map ConcretePart.solid) bars ms th hid hd hgood
  have hcan := canonical_history lu hLaw rfl ops _ .fresh hops
  obtain ⟨e, c', k, hrun, hre, hrc, -⟩ := bending_spec hLaw rfl hAns hcan hb hst1 (Prod.ext rfl hr)
  have hNc : ∀ chi, st 1 ≤ chi → chi ≤ 0 → (crossSection (parts.map ConcretePart.solid) bars).forces
      ![st 0 + st 1 * yn - chi * yn, chi * Real.cos th, chi * Real.sin th] 0 = N chi := by
    intro chi h1 h2
    have := hN yn (Or.inr rfl) chi h1 h2
    rwa [e2] at this
  have hend := h.end_plane hok hE0.le hK ⟨cn, hcn, eyn⟩ (v := -ecu) (by
    rintro chi (rfl | rfl)
    · exact hadm' _ hsteep (by linarith)
    · exact hadm' _ hst1.le le_rfl)
  have hdrop := fixedPivotFrom_drops
    (fun e c => (crossSection (parts.map ConcretePart.solid) bars).forces ![e, c * Real.cos th, c * Real.sin th] 0) (N cs) yn yp st (m := m) (by
      intro t ht u hu htu
      obtain ⟨a1, a2⟩ := trial_range hsteep ht
      obtain ⟨b1, b2⟩ := trial_range hsteep hu
      rw [hNc _ a1 (by linarith), hNc _ b1 (by linarith)]
      refine hmono _ _ a1 ?_ (by linarith)
      simp only [trial]
      have := mul_le_mul_of_nonneg_right htu (show 0 ≤ -1e-13 - st 1 by linarith)
      linarith) (by
      exact hNc _ hcs1 hcs0) (by
      rw [hN0]
      change N cs + 1e-2 < N (st 1)
      have := (abs_nonneg _).trans hend
      linarith) hrun
  rw [hNc _ hsteep (by linarith)] at hdrop
  have hrn : (crossSection (parts.map ConcretePart.solid) bars).forces ![e, c' * Real.cos th, c' * Real.sin th] 0 = r.n := by
    have h1 : r.chi.1 = c' * Real.cos th := by rw [hrc]
    have h2 : r.chi.2 = c' * Real.sin th := by rw [hrc]
    rw [← hre, ← h1, ← h2, concrete_forces bars hok hra, hF]
    rfl
  rw [hrn] at hdrop
  calc |r.n - (concreteSection parts bars).forces ![-ecu, 0, 0] 0|
      ≤ |r.n - N (-1e-13)| + |N (-1e-13) - (concreteSection parts bars).forces ![-ecu, 0, 0] 0| := abs_sub_le _ _ _
    _ ≤ _ := add_le_add hdrop hend

end SC
