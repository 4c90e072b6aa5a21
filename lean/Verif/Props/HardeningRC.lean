import Verif.Props.HardeningSearch
import Verif.Props.Maximum

/-! # C76: reinforced concrete with hardening steel -/

set_option autoImplicit false

namespace SC

open Spec MeasureTheory OrdinaryRC

section

variable {split : Polygon → ℝ → ℝ → ShapelyResult} {th ecu eu H : ℝ} {parts : List ConcretePart} {bars : List Bar}

/-- Concrete and bars. -/
theorem force_split (e : Fin 3 → ℝ) : (concreteSection parts bars).forces e 0 =
    (concreteSection parts []).forces e 0 + (bars.map fun b => b.area * b.law.law.stress (planeStrain e b.x b.y)).sum := by
  simp only [CrossSection.forces, concreteSection, List.map_map, Function.comp_def, Pi.add_apply, List.map_nil, resultants,
    lever, Matrix.cons_val, mul_one, Bar.fibre, List.sum_nil, add_zero]

theorem admissible_concrete {e : Fin 3 → ℝ} (ha : (concreteSection parts bars).Admissible e) :
    (concreteSection parts []).Admissible e := ⟨ha.1, by intro r hr; simp [concreteSection] at hr⟩

theorem bar_strain {e : Fin 3 → ℝ} (ha : (concreteSection parts bars).Admissible e) {b : Bar} (hb : b ∈ bars) :
    planeStrain e b.x b.y ∈ Set.Icc (b.law.law.ult false).1 (b.law.law.ult false).2 :=
  ha.2 ⟨b.fibre Law.stress, (b.law.law.ult false).1, (b.law.law.ult false).2⟩
    (by simp only [concreteSection, List.mem_map]; exact ⟨b, hb, rfl⟩)

/-- Change of the axial force between two planes through one point. -/
theorem force_near (hok : ∀ p ∈ parts, p.Ok split th) {K j : ℝ} {y0 v c c' : ℝ} (hc : c ≤ 0) (hc' : c' ≤ 0)
    (hb : ∀ b ∈ bars, |b.law.law.stress (planeStrain (planeThrough th y0 v c) b.x b.y) -
      b.law.law.stress (planeStrain (planeThrough th y0 v c') b.x b.y)| ≤
        K * |planeStrain (planeThrough th y0 v c) b.x b.y - planeStrain (planeThrough th y0 v c') b.x b.y| + j)
    (ha : (concreteSection parts bars).Admissible (planeThrough th y0 v c))
    (ha' : (concreteSection parts bars).Admissible (planeThrough th y0 v c')) :
    |(concreteSection parts bars).forces (planeThrough th y0 v c) 0 -
      (concreteSection parts bars).forces (planeThrough th y0 v c') 0| ≤
      forceSlope parts bars K th y0 * |c - c'| + j * (bars.map fun b => |b.area|).sum := by
  have h1 := force_lipschitz (bars := []) hok (K := K) (by intro b hb; simp at hb) hc hc' (admissible_concrete ha) (admissible_concrete ha')
  have h2 : |(bars.map fun b => b.area * b.law.law.stress (planeStrain (planeThrough th y0 v c) b.x b.y)).sum -
      (bars.map fun b => b.area * b.law.law.stress (planeStrain (planeThrough th y0 v c') b.x b.y)).sum| ≤
      (bars.map fun b => (K * |b.area| * |height th (b.x, b.y) - y0|) * |c - c'| + j * |b.area|).sum := by
    refine list_abs_sum_sub _ _ _ _ fun b hb' => ?_
    have := hb b hb'
    rw [← mul_sub, abs_mul]
    refine (mul_le_mul_of_nonneg_left this (abs_nonneg _)).trans_eq ?_
    have e1 := planeThrough_height th y0 v c (b.x, b.y)
    have e2 := planeThrough_height th y0 v c' (b.x, b.y)
    simp only at e1 e2
    rw [e1, e2]
    have : v + c * (height th (b.x, b.y) - y0) - (v + c' * (height th (b.x, b.y) - y0)) =
      (c - c') * (height th (b.x, b.y) - y0) := by ring
    rw [this, abs_mul]
    ring
  rw [List.sum_map_add, list_sum_mul_const, List.sum_map_mul_left] at h2
  rw [force_split (bars := bars), force_split (bars := bars)]
  have e : forceSlope parts bars K th y0 = forceSlope parts [] K th y0 +
      (bars.map fun b => K * |b.area| * |height th (b.x, b.y) - y0|).sum := by simp [forceSlope]
  rw [e, add_mul]
  have : ∀ a b a' b' : ℝ, a + b - (a' + b') = (a - a') + (b - b') := by intros; ring
  rw [this]
  refine (abs_add_le _ _).trans ((add_le_add h1 h2).trans_eq ?_)
  ring

/-- No bar of the section passes `±t` between the curvatures `a` and `b`: its strain stays on the same side. -/
theorem same_side {y0 v t a b : ℝ} (ht : 0 ≤ t) {x : ℝ × ℝ}
    (hx : ∀ c ∈ Set.uIcc a b, |planeStrain (planeThrough th y0 v c) x.1 x.2| ≠ t) :
    (planeStrain (planeThrough th y0 v a) x.1 x.2 ≤ -t ↔ planeStrain (planeThrough th y0 v b) x.1 x.2 ≤ -t) ∧
    (t ≤ planeStrain (planeThrough th y0 v a) x.1 x.2 ↔ t ≤ planeStrain (planeThrough th y0 v b) x.1 x.2) := by
  have hcont : ContinuousOn (fun c => planeStrain (planeThrough th y0 v c) x.1 x.2) (Set.uIcc a b) := by
    simp only [planeThrough_height]
    fun_prop
  have hiv := intermediate_value_uIcc hcont
  have key : ∀ s, |s| = t → s ∉ Set.uIcc (planeStrain (planeThrough th y0 v a) x.1 x.2) (planeStrain (planeThrough th y0 v b) x.1 x.2) := by
    intro s hs hmem
    obtain ⟨c, hc, e⟩ := hiv hmem
    simp only at e
    exact hx c hc (by rw [e, hs])
  have k1 := key t (abs_of_nonneg ht)
  have k2 := key (-t) (by rw [abs_neg, abs_of_nonneg ht])
  rw [Set.mem_uIcc] at k1 k2
  push Not at k1 k2
  constructor
  · constructor
    · intro h
      by_contra hc
      exact absurd (k2.1 h) (not_lt.2 (not_le.1 hc).le)
    · intro h
      by_contra hc
      exact absurd (k2.2 h) (not_lt.2 (not_le.1 hc).le)
  · constructor
    · intro h
      by_contra hc
      exact absurd (k1.2 (not_le.1 hc).le) (not_lt.2 h)
    · intro h
      by_contra hc
      exact absurd (k1.1 (not_le.1 hc).le) (not_lt.2 h)

/-- What the strength calculation needs of the search. -/
theorem strength_of_search (ms n : ℝ) (lu : Matrix (Fin 3) (Fin 3) ℝ → (Fin 3 → ℝ) → (Fin 3 → ℝ)) (ops : List Op)
    (hops : Undisturbed (sectionEngine split (parts.map ConcretePart.solid) bars ms) lu ops .fresh)
    (hok : ∀ p ∈ parts, p.Ok split th)
    (hid : SameIds (bars.map Bar.law)) (hd : EqualSizes (groupBars bars))
    {yn yp : ℝ} {st : Fin 3 → ℝ}
    (hbal : (sectionEngine split (parts.map ConcretePart.solid) bars ms).balanced (-th) false = .ok (yn, yp, st))
    (hst1 : st 1 ≤ -1e-13) (hst2 : st 2 = 0)
    (hcheck : (checkAxialLoad (sectionEngine split (parts.map ConcretePart.solid) bars ms) n .fresh).2 = .ok ()) :
    (∀ e c k, fixedPivotFrom (fun e c => (crossSection (parts.map ConcretePart.solid) bars).forces ![e, c * Real.cos th, c * Real.sin th] 0)
        n yn yp st = some (.ok (e, c, 0), k) →
      ∃ b, (bendingStrength (sectionEngine split (parts.map ConcretePart.solid) bars ms) th n
        (history (sectionEngine split (parts.map ConcretePart.solid) bars ms) lu ops .fresh)).2 = .ok b) ∧
    (∀ k, fixedPivotFrom (fun e c => (crossSection (parts.map ConcretePart.solid) bars).forces ![e, c * Real.cos th, c * Real.sin th] 0)
        n yn yp st = some (.error .valueError, k) →
      (bendingStrength (sectionEngine split (parts.map ConcretePart.solid) bars ms) th n
        (history (sectionEngine split (parts.map ConcretePart.solid) bars ms) lu ops .fresh)).2 = .error .valueError) := by
  set solids := parts.map ConcretePart.solid with hsol
  set E := sectionEngine split solids bars ms with hEdef
  have hgood : ∀ s ∈ solids, MeasurableSet s.spec.region ∧
      ∀ e chi, chi < 0 → (s.spec.turn (-th)).Good split .stress ![e, chi, 0] := by
    intro s hs
    obtain ⟨p, hp, rfl⟩ := List.mem_map.1 hs
    exact ⟨(hok p hp).encloses.measurable, fun e chi h => concrete_good (hok p hp) e chi h⟩
  have hneg : st 1 < 0 := by linarith [show (0:ℝ) < 1e-13 by norm_num]
  have hE : E.Lawful fun _ => .ok (groupBars bars) := marinEngine_lawful _ _ _ _ _ _
  have hA : E.Answers (groupBars bars) (crossSection solids bars) th := marin_answers split solids bars ms th hid hd hgood
  have hcan := canonical_history lu hE rfl ops _ .fresh hops
  have hcheck' : (checkAxialLoad E n (history E lu ops .fresh)).2 = .ok () := by
    have h1 := (limits_canonical hE hcan).1
    have h2 := (limits_canonical hE (.fresh : Canonical E _ .fresh)).1
    simp only [checkAxialLoad, CalcM.bind_def] at hcheck ⊢
    rcases hl : limits E (history E lu ops .fresh) with ⟨s', r⟩
    rcases hl' : limits E .fresh with ⟨s'', r'⟩
    rw [hl] at h1
    rw [hl'] at h2 hcheck
    simp only at h1 h2
    rw [← h2] at h1
    subst h1
    cases r with
    | error e => simp at hcheck
    | ok L =>
      simp only at hcheck ⊢
      split_ifs at hcheck ⊢ with h
      · simp [liftE] at hcheck
      · simp [CalcM.pure_def]
  constructor
  · intro e c k hrun
    have hc0 : c < 0 := by
      obtain ⟨-, hcase⟩ := fixedPivotFrom_spec _ n yn yp st e c 0 k hrun
      rcases hcase with ⟨-, rfl, -⟩ | ⟨y, -, -, ⟨t, ht, rfl⟩, -⟩
      · exact hneg
      · have h2 : t * (-1e-13 - st 1) ≤ 1 * (-1e-13 - st 1) := mul_le_mul_of_nonneg_right ht.mem_Icc.2 (by linarith)
        have : (0:ℝ) < 1e-13 := by norm_num
        linarith
    exact bending_returns hE rfl hA hcan hbal hneg hst2 hcheck' hc0 hrun
  · intro k hrun
    obtain ⟨D', L, hD', hs1⟩ := check_ok_state hE hcan (Prod.ext rfl hcheck' : checkAxialLoad E n (history E lu ops .fresh) = (_, .ok ()))
    cases hD'
    have h1 : checkAxialLoad E n (history E lu ops .fresh) = (⟨some (groupBars bars), some L⟩, .ok ()) := Prod.ext hs1 hcheck'
    have hst : st = ![st 0, st 1, 0] := by funext i; fin_cases i; rfl; rfl; exact hst2
    obtain ⟨F1, hF1, -⟩ := hA (st 1) hneg (st 0) E.meshSize
    rw [← hst] at hF1
    have hN : ∀ e c, c < 0 → oracleN E (-th) (some ((groupBars bars).map (rotGroup (-th)))) e c =
        .ok ((crossSection solids bars).forces ![e, c * Real.cos th, c * Real.sin th] 0) := by
      intro e c hc
      obtain ⟨F, h1, h2, -⟩ := hA c hc e defaultMesh
      rw [oracleN, h1]
      simp only [Response.N, h2]
    have hpiv : pivotM E (-th) n false ⟨some ((groupBars bars).map (rotGroup (-th))), some L⟩ =
        (⟨some ((groupBars bars).map (rotGroup (-th))), some L⟩, .error .valueError) := by
      unfold pivotM
      rw [CalcM.bind_ok (s' := ⟨some ((groupBars bars).map (rotGroup (-th))), some L⟩) (a := (yn, yp, st)) (by simp only [liftE, hbal])]
      rw [CalcM.bind_ok (s' := ⟨some ((groupBars bars).map (rotGroup (-th))), some L⟩) (a := .forces F1) (by rw [call_some, hF1])]
      simp only [withData, fixedPivotFromE_congr hN hneg, hrun, searchResult]
    unfold bendingStrength
    rw [CalcM.bind_ok h1]
    rw [CalcM.bind_ok (s' := ⟨some ((groupBars bars).map (rotGroup (-th))), some L⟩) (a := ()) rfl, CalcM.bind_error hpiv]

end

end SC
