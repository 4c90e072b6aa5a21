import Verif.Props.RCConcrete

/-! # C66: the strength calculation returns -/

set_option autoImplicit false

namespace SC

open Spec MeasureTheory

/-- The pivot search returns when the load is bracketed and the axial force is Lipschitz along the planes of the search. -/
theorem fixedPivotFrom_returns (N : ℝ → ℝ → ℝ) (n yn yp : ℝ) (st : Fin 3 → ℝ)
    (hlip : ∀ y, y = yp ∨ y = yn → ∃ L, L * |-1e-13 - st 1| ≤ 2 ^ 99 * 1e-2 ∧ ∀ t u, t ∈ Set.Icc (0:ℝ) 1 → u ∈ Set.Icc (0:ℝ) 1 →
      |N (st 0 + st 1 * y - (st 1 + t * (-1e-13 - st 1)) * y) (st 1 + t * (-1e-13 - st 1)) -
        N (st 0 + st 1 * y - (st 1 + u * (-1e-13 - st 1)) * y) (st 1 + u * (-1e-13 - st 1))| ≤ L * |t - u| * |-1e-13 - st 1|)
    (hlow : N (st 0 + st 1 * yn - (-1e-13) * yn) (-1e-13) < n)
    (hhigh : n < N (st 0 + st 1 * yp - (-1e-13) * yp) (-1e-13)) :
    ∃ e c k, fixedPivotFrom N n yn yp st = some (.ok (e, c, 0), k) := by
  unfold fixedPivotFrom
  simp only
  split_ifs with h0 hlt
  · exact ⟨_, _, _, rfl⟩
  · obtain ⟨L, hs, hL⟩ := hlip yp (Or.inl rfl)
    obtain ⟨c, k, hb⟩ := bisection_lipschitz (fun chi => N (st 0 + st 1 * yp - chi * yp) chi - n) (st 1) (-1e-13) L (by
        intro t u ht hu
        have := hL t u ht.mem_Icc hu.mem_Icc
        simpa using this) hs (by
        have h1 : st 0 + st 1 * yp - st 1 * yp = st 0 := by ring
        simp only [h1]
        rw [abs_sub_comm, lt_abs]
        left
        have := not_le.1 h0
        rw [abs_of_neg (by linarith)] at this
        linarith)
    have h1 : st 0 + st 1 * yp - st 1 * yp = st 0 := by ring
    simp only [h1] at hb
    refine ⟨st 0 + st 1 * yp - c * yp, c, k + 2, ?_⟩
    rw [hb]
    rfl
  · obtain ⟨L, hs, hL⟩ := hlip yn (Or.inr rfl)
    obtain ⟨c, k, hb⟩ := bisection_lipschitz (fun chi => N (st 0 + st 1 * yn - chi * yn) chi - n) (st 1) (-1e-13) L (by
        intro t u ht hu
        have := hL t u ht.mem_Icc hu.mem_Icc
        simpa using this) hs (by
        have h1 : st 0 + st 1 * yn - st 1 * yn = st 0 := by ring
        simp only [h1]
        rw [lt_abs]
        left
        have := not_le.1 h0
        rw [abs_of_nonneg (by linarith)] at this
        linarith)
    have h1 : st 0 + st 1 * yn - st 1 * yn = st 0 := by ring
    simp only [h1] at hb
    refine ⟨st 0 + st 1 * yn - c * yn, c, k + 2, ?_⟩
    rw [hb]
    rfl

/-- The strength calculation returns when the load is accepted and the search finds a plane with negative curvature. -/
theorem bending_returns {E : Engine} {base : ℝ → Except PyErr (List Group)} (hE : E.Lawful base) {D : List Group}
    (hD : base E.meshSize = .ok D) {S : CrossSection} {th : ℝ} (hA : E.Answers D S th)
    {n : ℝ} {s : CalcState} (hs : Canonical E base s) {yn yp : ℝ} {st : Fin 3 → ℝ}
    (hbal : E.balanced (-th) false = .ok (yn, yp, st)) (hsteep : st 1 < 0) (hst2 : st 2 = 0)
    (hcheck : (checkAxialLoad E n s).2 = .ok ()) {e c : ℝ} {k : ℕ} (hc : c < 0)
    (hrun : fixedPivotFrom (fun e c => S.forces ![e, c * Real.cos th, c * Real.sin th] 0) n yn yp st =
      some (.ok (e, c, 0), k)) :
    ∃ b, (bendingStrength E th n s).2 = .ok b := by
  obtain ⟨D', L, hD', hs1⟩ := check_ok_state hE hs (Prod.ext rfl hcheck : checkAxialLoad E n s = (_, .ok ()))
  rw [hD] at hD'
  cases hD'
  have h1 : checkAxialLoad E n s = (⟨some D, some L⟩, .ok ()) := Prod.ext hs1 hcheck
  have hst : st = ![st 0, st 1, 0] := by funext i; fin_cases i; rfl; rfl; exact hst2
  obtain ⟨F1, hF1, -⟩ := hA (st 1) hsteep (st 0) E.meshSize
  rw [← hst] at hF1
  obtain ⟨F2, hF2, -⟩ := hA c hc e defaultMesh
  have hN : ∀ e c, c < 0 → oracleN E (-th) (some (D.map (rotGroup (-th)))) e c =
      .ok (S.forces ![e, c * Real.cos th, c * Real.sin th] 0) := by
    intro e c hc
    obtain ⟨F, h1, h2, -⟩ := hA c hc e defaultMesh
    rw [oracleN, h1]
    simp only [Response.N, h2]
  have hpiv : pivotM E (-th) n false ⟨some (D.map (rotGroup (-th))), some L⟩ =
      (⟨some (D.map (rotGroup (-th))), some L⟩, .ok ![e, c, 0]) := by
    unfold pivotM
    rw [CalcM.bind_ok (s' := ⟨some (D.map (rotGroup (-th))), some L⟩) (a := (yn, yp, st)) (by simp only [liftE, hbal])]
    rw [CalcM.bind_ok (s' := ⟨some (D.map (rotGroup (-th))), some L⟩) (a := .forces F1) (by rw [call_some, hF1])]
    simp only [withData, fixedPivotFromE_congr hN hsteep, hrun, searchResult]
  refine ⟨⟨F2 0, rot2 th (c, 0), e, rot2 th (F2 1, F2 2)⟩, ?_⟩
  · unfold bendingStrength
    rw [CalcM.bind_ok h1]
    rw [CalcM.bind_ok (s' := ⟨some (D.map (rotGroup (-th))), some L⟩) (a := ()) rfl]
    rw [CalcM.bind_ok hpiv]
    rw [CalcM.bind_ok (s' := ⟨some (D.map (rotGroup (-th))), some L⟩) (a := .forces F2) (by rw [call_some, hF2])]
    rfl

/-! ### Limit axial loads -/

/-- Under a uniform strain a parabola-rectangle surface is integrated exactly, unless the strain is close, but not equal, to
a limit strain. -/
theorem concrete_good_uniform {split : Polygon → ℝ → ℝ → ShapelyResult} {p : ConcretePart}
    (henc : Encloses p.polygon.ext p.polygon.ints p.region) (h0 : 0 < |p.eps_0|) (hu : |p.eps_0| ≤ |p.eps_u|) {e : ℝ}
    (he : snap (p.law.ult false) e = e) :
    SurfSpec.Good split .stress ![e, 0, 0] ⟨p.surf, p.region, p.law.stress⟩ := by
  have hgrad : gradient ![e, 0, 0] = 0 := by simp [gradient]
  have hy : ∀ y, _ := fun y => C13_parabola_rectangle_uniform p.fc p.eps_0 p.eps_u e y h0 hu
  have hr := (hy 0).1
  have h2 : (p.law.marin e 0).2 = e := by
    simp only [ParabolaRectangle.marin, if_true]
    split_ifs <;> exact he
  refine ⟨henc, ?_, ?_⟩
  · rintro ⟨m, rs, hm, hrs⟩
    exfalso
    have : m = (p.law.marin e 0).1 := by
      rw [hgrad] at hm
      simp only [ConcretePart.surf, Surf.ofMarin, Surf.coefficients, Matrix.cons_val, Except.ok.injEq] at hm
      exact hm.symm
    rw [this] at hrs
    have h3 : (p.law.marin e 0).1.ranges = none := hr
    rw [h3] at hrs
    cases hrs
  · rw [hgrad]
    refine ⟨h2, (p.law.marin e 0).1, rfl, Or.inl ⟨hr, ?_⟩⟩
    obtain ⟨c, hc, -⟩ := (hy 0).2
    refine ⟨c, hc, fun y _ => ?_⟩
    obtain ⟨c', hc', h⟩ := (hy y).2
    rw [hc] at hc'
    cases hc'
    simp only [Matrix.cons_val, zero_mul, add_zero]
    exact h

/-- **C66** (limit axial loads). `n_min` and `n_max` are the axial forces of the section under the two uniform limit strains. -/
theorem C66_limits_partial (split : Polygon → ℝ → ℝ → ShapelyResult) (parts : List ConcretePart) (bars : List Bar) (ms : ℝ)
    (henc : ∀ p ∈ parts, Encloses p.polygon.ext p.polygon.ints p.region ∧ 0 < |p.eps_0| ∧ |p.eps_0| ≤ |p.eps_u|)
    (hid : SameIds (bars.map Bar.law)) (hd : EqualSizes (groupBars bars))
    {yn yp : ℝ} {st : Fin 3 → ℝ}
    (hbal : (sectionEngine split (parts.map ConcretePart.solid) bars ms).balanced 0 false = .ok (yn, yp, st))
    (hsnap : ∀ p ∈ parts, snap (p.law.ult false) (st 0 + st 1 * yn) = st 0 + st 1 * yn ∧
      snap (p.law.ult false) (st 0 + st 1 * yp) = st 0 + st 1 * yp) :
    (limits (sectionEngine split (parts.map ConcretePart.solid) bars ms) .fresh).2 =
      .ok ((concreteSection parts bars).forces ![st 0 + st 1 * yn, 0, 0] 0,
        (concreteSection parts bars).forces ![st 0 + st 1 * yp, 0, 0] 0) := by
  have hint : ∀ e m, (∀ p ∈ parts, snap (p.law.ult false) e = e) →
      (sectionEngine split (parts.map ConcretePart.solid) bars ms).integ 0 ![e, 0, 0] .stress (some (groupBars bars)) m =
        .ok (.forces ((concreteSection parts bars).forces ![e, 0, 0]), groupBars bars) := by
    intro e m he
    have h := C50_forces_partial split (parts.map fun p => ⟨p.surf, p.region, p.law.stress⟩) (bars.map (Bar.rotate 0))
      (groupBars bars) hd ![e, 0, 0] (by
        intro s hs
        obtain ⟨p, hp, rfl⟩ := List.mem_map.1 hs
        exact concrete_good_uniform (henc p hp).1 (henc p hp).2.1 (henc p hp).2.2 (he p hp))
    have hsurf : ((parts.map ConcretePart.solid).map fun s => s.spec.surf).map
        (fun g => ({ g with polygon := g.polygon.rotate 0 } : Surf)) =
        (parts.map fun p => (⟨p.surf, p.region, p.law.stress⟩ : SurfSpec)).map SurfSpec.surf := by
      simp only [List.map_map, Function.comp_def, polygon_rotate_zero]
      rfl
    have hbars : resultants ((concreteSection parts bars).rods.map Rod.fibre) ![e, 0, 0] =
        resultants (fibres Law.stress (groupBars bars)) ![e, 0, 0] := by
      rw [resultants_perm (C18_grouping Law.stress bars hid)]
      simp only [concreteSection, List.map_map, Function.comp_def]
    simp only [sectionEngine, marinEngine, hsurf]
    rw [h]
    simp only [CrossSection.forces, hbars]
    simp only [concreteSection, List.map_map, Function.comp_def]
  have hE : (sectionEngine split (parts.map ConcretePart.solid) bars ms).Lawful fun _ => .ok (groupBars bars) :=
    marinEngine_lawful _ _ _ _ _ _
  have hlim : limitAxialLoad (sectionEngine split (parts.map ConcretePart.solid) bars ms) .fresh =
      (⟨some (groupBars bars), none⟩, .ok ((concreteSection parts bars).forces ![st 0 + st 1 * yn, 0, 0] 0,
        (concreteSection parts bars).forces ![st 0 + st 1 * yp, 0, 0] 0)) := by
    simp only [limitAxialLoad, hbal, CalcState.fresh]
    rw [hE.first]
    simp only
    rw [hint _ _ fun p hp => (hsnap p hp).1]
    simp only
    rw [hint _ _ fun p hp => (hsnap p hp).2]
    rfl
  have h2 : (CalcState.fresh).lim = none := rfl
  simp only [limits, h2, hlim]

/-! ### The axial force along the search is Lipschitz -/

theorem pr_core_lipschitz (fc e0 u : ℝ) (h0 : 0 < |e0|) (hu : |e0| < |u|) {x y : ℝ} (hx : -|u| ≤ x) (hy : -|u| ≤ y) :
    |(ParabolaRectangle.new fc e0 u 2).core x - (ParabolaRectangle.new fc e0 u 2).core y| ≤ 2 * |fc| / |e0| * |x - y| := by
  set a := |e0| with ha
  have key : ∀ z, -|u| ≤ z → (ParabolaRectangle.new fc e0 u 2).core z =
      -|fc| * (1 - (1 - min (max (-z) 0) a / a) ^ 2) := by
    intro z hz
    simp only [ParabolaRectangle.core, ← ha]
    by_cases h1 : z < -a
    · rw [if_pos ⟨hz, h1⟩, max_eq_left (by linarith), min_eq_right (by linarith), div_self h0.ne']
      ring
    · push Not at h1
      rw [if_neg (fun h => absurd h.2 (not_lt.2 h1))]
      by_cases h2 : z ≤ 0
      · rw [if_pos ⟨h1, h2⟩, max_eq_left (by linarith), min_eq_left (by linarith)]
        rw [show (2:ℝ) = ((2:ℕ):ℝ) by norm_num, Real.rpow_natCast]
        congr 3
        field_simp
      · push Not at h2
        rw [if_neg (fun h => absurd h.2 (not_le.2 h2)), max_eq_right (by linarith), min_eq_left h0.le]
        ring
  rw [key x hx, key y hy]
  set p := min (max (-x) 0) a with hp
  set q := min (max (-y) 0) a with hq
  have hpq : |p - q| ≤ |x - y| := by
    have h1 : |max (-x) 0 - max (-y) 0| ≤ |-x - -y| := abs_max_sub_max_le_abs _ _ _
    have h2 : |min (max (-x) 0) a - min (max (-y) 0) a| ≤ |max (-x) 0 - max (-y) 0| := by
      have := abs_min_sub_min_le_max (max (-x) 0) a (max (-y) 0) a
      simpa using this
    refine h2.trans (h1.trans_eq ?_)
    rw [← abs_neg]; congr 1; ring
  have hp0 : 0 ≤ p := le_min (le_max_right _ _) h0.le
  have hpa : p ≤ a := min_le_right _ _
  have hq0 : 0 ≤ q := le_min (le_max_right _ _) h0.le
  have hqa : q ≤ a := min_le_right _ _
  have he : -|fc| * (1 - (1 - p / a) ^ 2) - -|fc| * (1 - (1 - q / a) ^ 2) = -|fc| * ((p - q) * (2 * a - p - q)) / a ^ 2 := by
    field_simp; ring
  rw [he, abs_div, abs_mul, abs_mul, abs_neg, abs_abs, abs_of_pos (by positivity : 0 < a ^ 2),
    abs_of_nonneg (by linarith : 0 ≤ 2 * a - p - q), div_le_iff₀ (by positivity)]
  have h3 : |p - q| * (2 * a - p - q) ≤ |x - y| * (2 * a) :=
    mul_le_mul hpq (by linarith) (by linarith) (abs_nonneg _)
  calc |fc| * (|p - q| * (2 * a - p - q)) ≤ |fc| * (|x - y| * (2 * a)) := mul_le_mul_of_nonneg_left h3 (abs_nonneg _)
    _ = 2 * |fc| / a * |x - y| * a ^ 2 := by field_simp

/-- Bound for the change of the axial force per unit change of curvature, rotating about the height `y0`: `K` bounds the
modulus of the bars. -/
noncomputable def forceSlope (parts : List ConcretePart) (bars : List Bar) (K th y0 : ℝ) : ℝ :=
  (parts.map fun p => 2 * |p.fc| / |p.eps_0| * ∫ x in p.region, |height th x - y0|).sum +
    (bars.map fun b => K * |b.area| * |height th (b.x, b.y) - y0|).sum

theorem list_abs_sum_sub {α : Type} (l : List α) (f g B : α → ℝ) (h : ∀ x ∈ l, |f x - g x| ≤ B x) :
    |(l.map f).sum - (l.map g).sum| ≤ (l.map B).sum := by
  induction l with
  | nil => simp
  | cons a l ih =>
    simp only [List.map_cons, List.sum_cons]
    have h1 := h a (by simp)
    have h2 := ih fun x hx => h x (by simp [hx])
    calc |f a + (l.map f).sum - (g a + (l.map g).sum)| = |(f a - g a) + ((l.map f).sum - (l.map g).sum)| := by ring_nf
      _ ≤ |f a - g a| + |(l.map f).sum - (l.map g).sum| := abs_add_le _ _
      _ ≤ _ := by linarith

theorem list_sum_mul_const {α : Type} (l : List α) (f : α → ℝ) (c : ℝ) : (l.map fun x => f x * c).sum = (l.map f).sum * c := by
  induction l with
  | nil => simp
  | cons a l ih => simp only [List.map_cons, List.sum_cons, ih]; ring

theorem list_sum_apply {α : Type} (l : List α) (f : α → Fin 3 → ℝ) (i : Fin 3) : (l.map f).sum i = (l.map fun x => f x i).sum := by
  induction l with
  | nil => simp
  | cons a l ih => simp only [List.map_cons, List.sum_cons, Pi.add_apply, ih]

/-- The axial force of the section under planes through one point. -/
theorem force_lipschitz {split : Polygon → ℝ → ℝ → ShapelyResult} {th : ℝ} {parts : List ConcretePart} {bars : List Bar}
    (hok : ∀ p ∈ parts, p.Ok split th) {K : ℝ}
    (hK : ∀ b ∈ bars, ∀ x ∈ Set.Icc (b.law.law.ult false).1 (b.law.law.ult false).2,
      ∀ y ∈ Set.Icc (b.law.law.ult false).1 (b.law.law.ult false).2, |b.law.law.stress x - b.law.law.stress y| ≤ K * |x - y|)
    {y0 v c c' : ℝ} (hc : c ≤ 0) (hc' : c' ≤ 0)
    (ha : (concreteSection parts bars).Admissible (planeThrough th y0 v c))
    (ha' : (concreteSection parts bars).Admissible (planeThrough th y0 v c')) :
    |(concreteSection parts bars).forces (planeThrough th y0 v c) 0 -
      (concreteSection parts bars).forces (planeThrough th y0 v c') 0| ≤ forceSlope parts bars K th y0 * |c - c'| := by
  rw [← concrete_forces bars hok ha, ← concrete_forces bars hok ha']
  have hrot : ∀ c : ℝ, rotPt th (c, 0) = (c * Real.cos th, c * Real.sin th) := by
    intro c; simp only [rotPt, Prod.mk.injEq]; constructor <;> ring
  have hint : ∀ p ∈ parts, ∀ c ≤ 0, IntegrableOn (fun x : ℝ × ℝ => p.law.core (planeStrain (planeThrough th y0 v c) x.1 x.2))
      p.region := by
    intro p hp c hc
    rcases hc.eq_or_lt with rfl | hc
    · simp only [planeThrough_height, zero_mul, add_zero]
      exact continuous_integrableOn continuous_const (hok p hp).encloses.bounded
    have := turn_integrable (s := p.solid.spec) (hok p hp).encloses.measurable (concrete_good (hok p hp) (v - c * y0) c hc) 0
    rw [hrot] at this
    simpa [lever, planeThrough, ConcretePart.solid] using this
  have h1 : |(parts.map fun p => ∫ x in p.region, p.law.core (planeStrain (planeThrough th y0 v c) x.1 x.2)).sum -
      (parts.map fun p => ∫ x in p.region, p.law.core (planeStrain (planeThrough th y0 v c') x.1 x.2)).sum| ≤
      (parts.map fun p => (2 * |p.fc| / |p.eps_0| * ∫ x in p.region, |height th x - y0|) * |c - c'|).sum := by
    refine list_abs_sum_sub _ _ _ _ fun p hp => ?_
    have hR := (hok p hp).encloses
    have hlt : |p.eps_0| < |p.eps_u| := by
      linarith [(hok p hp).plateau, abs_nonneg p.eps_u, show (0:ℝ) < 1e-6 by norm_num]
    rw [← integral_sub (hint p hp c hc) (hint p hp c' hc'), ← integral_const_mul, ← integral_mul_const]
    rw [← Real.norm_eq_abs (∫ x in p.region, _)]
    refine (norm_integral_le_of_norm_le (g := fun x => 2 * |p.fc| / |p.eps_0| * |height th x - y0| * |c - c'|) ?_ ?_)
    · refine continuous_integrableOn ?_ hR.bounded
      unfold height
      fun_prop
    · refine (ae_restrict_iff' hR.measurable).2 (Filter.Eventually.of_forall fun x hx => ?_)
      have q : (⟨p.region, p.polygon.ext, p.law.stress, (p.law.ult false).1, (p.law.ult false).2⟩ : Plate) ∈
        (concreteSection parts bars).plates := by simp only [concreteSection, List.mem_map]; exact ⟨p, hp, rfl⟩
      have l1 := (ha.1 _ q x ((hok p hp).inHull hx)).1
      have l2 := (ha'.1 _ q x ((hok p hp).inHull hx)).1
      have := pr_core_lipschitz p.fc p.eps_0 p.eps_u (hok p hp).peak hlt l1 l2
      rw [Real.norm_eq_abs]
      refine this.trans_eq ?_
      rw [planeThrough_height, planeThrough_height]
      have : v + c * (height th x - y0) - (v + c' * (height th x - y0)) = (c - c') * (height th x - y0) := by ring
      rw [this, abs_mul]
      ring
  have h2 : |(bars.map fun b => b.area * b.law.law.stress (planeStrain (planeThrough th y0 v c) b.x b.y)).sum -
      (bars.map fun b => b.area * b.law.law.stress (planeStrain (planeThrough th y0 v c') b.x b.y)).sum| ≤
      (bars.map fun b => (K * |b.area| * |height th (b.x, b.y) - y0|) * |c - c'|).sum := by
    refine list_abs_sum_sub _ _ _ _ fun b hb => ?_
    have q : (⟨b.fibre Law.stress, (b.law.law.ult false).1, (b.law.law.ult false).2⟩ : Rod) ∈
      (concreteSection parts bars).rods := by simp only [concreteSection, List.mem_map]; exact ⟨b, hb, rfl⟩
    have := hK b hb _ (ha.2 _ q) _ (ha'.2 _ q)
    simp only [Bar.fibre] at this
    rw [← mul_sub, abs_mul]
    refine (mul_le_mul_of_nonneg_left this (abs_nonneg _)).trans_eq ?_
    have e1 := planeThrough_height th y0 v c (b.x, b.y)
    have e2 := planeThrough_height th y0 v c' (b.x, b.y)
    simp only at e1 e2
    rw [e1, e2]
    have : v + c * (height th (b.x, b.y) - y0) - (v + c' * (height th (b.x, b.y) - y0)) =
      (c - c') * (height th (b.x, b.y) - y0) := by ring
    rw [this, abs_mul]
    ring
  rw [list_sum_mul_const] at h1 h2
  have hf : ∀ e, (crossSection (parts.map ConcretePart.solid) bars).forces e 0 =
      (parts.map fun p => ∫ x in p.region, p.law.core (planeStrain e x.1 x.2)).sum +
      (bars.map fun b => b.area * b.law.law.stress (planeStrain e b.x b.y)).sum := by
    intro e
    simp only [CrossSection.forces, crossSection, List.map_map, Function.comp_def, Pi.add_apply, list_sum_apply, resultants,
      regionResultants, lever, Matrix.cons_val, mul_one, Bar.fibre]
    rfl
  rw [hf, hf, forceSlope, add_mul]
  have : ∀ a b a' b' : ℝ, a + b - (a' + b') = (a - a') + (b - b') := by intros; ring
  rw [this]
  exact (abs_add_le _ _).trans (add_le_add h1 h2)

/-- **C66** (the calculation returns).  If the load is accepted and lies between the axial forces of the two nearly uniform limit
planes, the bars' laws are Lipschitz within their limit strains, and the section is not astronomically stiff, then
`calculate_bending_strength` returns. -/
theorem C66_returns (split : Polygon → ℝ → ℝ → ShapelyResult) (parts : List ConcretePart) (bars : List Bar)
    (ms th n : ℝ) (lu : Matrix (Fin 3) (Fin 3) ℝ → (Fin 3 → ℝ) → (Fin 3 → ℝ)) (ops : List Op)
    (hops : Undisturbed (sectionEngine split (parts.map ConcretePart.solid) bars ms) lu ops .fresh)
    (hok : ∀ p ∈ parts, p.Ok split th)
    (hid : SameIds (bars.map Bar.law)) (hd : EqualSizes (groupBars bars))
    (hlim : ∀ c ∈ (concreteSection parts bars).corners, c.2.1 ≤ 0 ∧ 0 ≤ c.2.2)
    (hflat : ∀ c ∈ (concreteSection parts bars).corners, ∀ d ∈ (concreteSection parts bars).corners,
      1e-13 * (height th d.1 - height th c.1) ≤ c.2.2 - d.2.1)
    {yn yp : ℝ} {st : Fin 3 → ℝ}
    (hbal : (sectionEngine split (parts.map ConcretePart.solid) bars ms).balanced (-th) false = .ok (yn, yp, st))
    (hgov : ∀ c ∈ (concreteSection parts bars).corners, planeStrain st 0 yp ≤ c.2.2 ∧ c.2.1 ≤ planeStrain st 0 yn)
    {K : ℝ}
    (hK : ∀ b ∈ bars, ∀ x ∈ Set.Icc (b.law.law.ult false).1 (b.law.law.ult false).2,
      ∀ y ∈ Set.Icc (b.law.law.ult false).1 (b.law.law.ult false).2, |b.law.law.stress x - b.law.law.stress y| ≤ K * |x - y|)
    (hstiff : ∀ y, y = yp ∨ y = yn → forceSlope parts bars K th y * |-1e-13 - st 1| ≤ 2 ^ 99 * 1e-2)
    (hcheck : (checkAxialLoad (sectionEngine split (parts.map ConcretePart.solid) bars ms) n .fresh).2 = .ok ())
    (hlow : (concreteSection parts bars).forces (planeThrough th yn (planeStrain st 0 yn) (-1e-13)) 0 < n)
    (hhigh : n < (concreteSection parts bars).forces (planeThrough th yp (planeStrain st 0 yp) (-1e-13)) 0) :
    ∃ b, (bendingStrength (sectionEngine split (parts.map ConcretePart.solid) bars ms) th n
        (history (sectionEngine split (parts.map ConcretePart.solid) bars ms) lu ops .fresh)).2 = .ok b := by
  set solids := parts.map ConcretePart.solid with hsol
  set E := sectionEngine split solids bars ms with hEdef
  have hgood : ∀ s ∈ solids, MeasurableSet s.spec.region ∧
      ∀ e chi, chi < 0 → (s.spec.turn (-th)).Good split .stress ![e, chi, 0] := by
    intro s hs
    obtain ⟨p, hp, rfl⟩ := List.mem_map.1 hs
    exact ⟨(hok p hp).encloses.measurable, fun e chi h => concrete_good (hok p hp) e chi h⟩
  have hcor := concrete_corners parts bars
  rw [← hsol] at hcor
  rw [← hcor] at hlim hflat hgov
  have hne := concrete_ne hok
  rw [← hsol] at hne
  have hb : balancedFailure (sectionParts solids bars (-th)) (solids.any Solid.concrete) false = .ok (yn, yp, st) := hbal
  have hsteep := steep_balanced hne hlim hflat hb
  have hln : ∀ g ∈ sectionParts solids bars (-th), compressionLimit false (solids.any Solid.concrete) g ≤ 0 := by
    intro g hg'
    obtain ⟨c, hc, -, h2⟩ := (part_corner hne hg').1
    rw [compressionLimit_ultimate, ← h2]
    exact (hlim c hc).1
  have hlp : ∀ g ∈ sectionParts solids bars (-th), 0 ≤ tensionLimit false g := by
    intro g hg'
    obtain ⟨c, hc, -, h2⟩ := (part_corner hne hg').1
    rw [tensionLimit, ← h2]
    exact (hlim c hc).2
  have hst2 := (C22_balanced _ _ _ hln hlp _ _ _ hb).2.2.2
  have hpl : ∀ x y, planeStrain st x y = st 0 + st 1 * y := by intro x y; simp [planeStrain, hst2]
  have hneg : st 1 < 0 := by linarith [show (0:ℝ) < 1e-13 by norm_num]
  have hE : E.Lawful fun _ => .ok (groupBars bars) := marinEngine_lawful _ _ _ _ _ _
  have hA : E.Answers (groupBars bars) (crossSection solids bars) th := marin_answers split solids bars ms th hid hd hgood
  have hcan := canonical_history lu hE rfl ops _ .fresh hops
  have hadm : ∀ y, y = yp ∨ y = yn → ∀ chi, st 1 ≤ chi → chi ≤ 0 →
      (concreteSection parts bars).Admissible (planeThrough th y (planeStrain st 0 y) chi) := by
    intro y hy chi h1 h2
    rw [← concrete_admissible, ← hsol]
    exact search_admissible hne hlim hb hgov hy h1 h2
  have hN : ∀ y, y = yp ∨ y = yn → ∀ chi, st 1 ≤ chi → chi ≤ 0 →
      (crossSection solids bars).forces ![st 0 + st 1 * y - chi * y, chi * Real.cos th, chi * Real.sin th] 0 =
        (concreteSection parts bars).forces (planeThrough th y (planeStrain st 0 y) chi) 0 := by
    intro y hy chi h1 h2
    rw [← concrete_forces bars hok (hadm y hy chi h1 h2), hpl]
    rfl
  have hpos : (0:ℝ) < 1e-13 := by norm_num
  have hrange : ∀ t ∈ Set.Icc (0:ℝ) 1, st 1 ≤ st 1 + t * (-1e-13 - st 1) ∧ st 1 + t * (-1e-13 - st 1) ≤ -1e-13 := by
    rintro t ⟨t0, t1⟩
    have h1 : 0 ≤ t * (-1e-13 - st 1) := mul_nonneg t0 (by linarith)
    have h2 : t * (-1e-13 - st 1) ≤ 1 * (-1e-13 - st 1) := mul_le_mul_of_nonneg_right t1 (by linarith)
    constructor <;> linarith
  obtain ⟨e, c, k, hrun⟩ := fixedPivotFrom_returns
    (fun e c => (crossSection solids bars).forces ![e, c * Real.cos th, c * Real.sin th] 0) n yn yp st (by
      intro y hy
      refine ⟨forceSlope parts bars K th y, hstiff y hy, fun t u ht hu => ?_⟩
      obtain ⟨a1, a2⟩ := hrange t ht
      obtain ⟨b1, b2⟩ := hrange u hu
      rw [hN y hy _ a1 (by linarith), hN y hy _ b1 (by linarith)]
      refine (force_lipschitz hok hK (by linarith) (by linarith) (hadm y hy _ a1 (by linarith))
        (hadm y hy _ b1 (by linarith))).trans_eq ?_
      have : st 1 + t * (-1e-13 - st 1) - (st 1 + u * (-1e-13 - st 1)) = (t - u) * (-1e-13 - st 1) := by ring
      rw [this, abs_mul]
      ring)
    (by
      rw [hN yn (Or.inr rfl) _ hsteep (by norm_num)]
      exact hlow)
    (by
      rw [hN yp (Or.inl rfl) _ hsteep (by norm_num)]
      exact hhigh)
  have hc0 : c < 0 := by
    obtain ⟨-, hcase⟩ := fixedPivotFrom_spec _ n yn yp st e c 0 k hrun
    rcases hcase with ⟨-, rfl, -⟩ | ⟨y, -, -, ⟨t, ht, rfl⟩, -⟩
    · exact hneg
    · have := (hrange t ht.mem_Icc).2
      linarith
  have hcheck' : (checkAxialLoad E n (history E lu ops .fresh)).2 = .ok () := by
    have h1 := (limits_canonical hE hcan).1
    have h2 := (limits_canonical hE (.fresh : Canonical E _ .fresh)).1
    simp only [checkAxialLoad, CalcM.bind_def] at hcheck ⊢
    rcases hl : limits E (history E lu ops .fresh) with ⟨s', r⟩
    rcases hl' : limits E .fresh with ⟨s'', r'⟩
    rw [hl] at h1
    rw [hl'] at h2 hcheck
    simp only at h1 h2
    rw [← h2] at h1
    subst h1
    cases r with
    | error er => simp at hcheck
    | ok l =>
      simp only at hcheck ⊢
      split_ifs at hcheck ⊢ with hc
      · simp [liftE] at hcheck
      · simp [CalcM.pure_def]
  exact bending_returns hE rfl hA hcan hbal hneg hst2 hcheck' hc0 hrun

end SC
