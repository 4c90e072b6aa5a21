import Verif.Props.RCCurvature
import Verif.Props.DomainExample

/-! # C70: a point of the moment-curvature diagram of the beam of `RCExample` -/

set_option autoImplicit false

namespace SC

open Spec MeasureTheory

/-- The diagram of one curvature returns when the load is accepted and the search returns. -/
theorem mc_single_returns {E : Engine} {base : ℝ → Except PyErr (List Group)} (hE : E.Lawful base) {D : List Group}
    (hD : base E.meshSize = .ok D) {S : CrossSection} {th chi : ℝ} (hA : E.AnswersAt D S th chi)
    {n : ℝ} {s : CalcState} (hs : Canonical E base s) (hcheck : (checkAxialLoad E n s).2 = .ok ()) {e : ℝ} {k : ℕ}
    (hrun : fixedCurvature (fun e c => S.forces ![e, c * Real.cos th, c * Real.sin th] 0) n chi 0 = some (.ok (e, chi, 0), k))
    (c : ℝ) (a b : ℕ) :
    ∃ m, (momentCurvature E th n c a b (some [chi]) s).2 = .ok [(e, m, rot2 th (chi, 0))] := by
  obtain ⟨D', L, hD', hs1⟩ := check_ok_state hE hs (Prod.ext rfl hcheck : checkAxialLoad E n s = (_, .ok ()))
  rw [hD] at hD'
  cases hD'
  have h1 : checkAxialLoad E n s = (⟨some D, some L⟩, .ok ()) := Prod.ext hs1 hcheck
  obtain ⟨F1, hF1, -⟩ := hA 0 defaultMesh
  obtain ⟨F2, hF2, -⟩ := hA e defaultMesh
  have hcur : curvatureM E (-th) n chi 0 ⟨some (D.map (rotGroup (-th))), some L⟩ =
      (⟨some (D.map (rotGroup (-th))), some L⟩, .ok ![e, chi, 0]) := by
    unfold curvatureM
    rw [CalcM.bind_ok (s' := ⟨some (D.map (rotGroup (-th))), some L⟩) (a := .forces F1) (by rw [call_some, hF1])]
    simp only [withData]
    rw [fixedCurvatureE_at (N' := fun e c => S.forces ![e, c * Real.cos th, c * Real.sin th] 0) (fun e => by
      obtain ⟨F, h1, h2, -⟩ := hA e defaultMesh
      rw [oracleN, h1]
      simp only [Response.N, h2]), hrun]
    rfl
  refine ⟨rot2 th (F2 1, F2 2), ?_⟩
  unfold momentCurvature
  rw [CalcM.bind_ok h1]
  rw [CalcM.bind_ok (s' := ⟨some (D.map (rotGroup (-th))), some L⟩) (a := ()) rfl]
  rw [CalcM.bind_ok (s' := ⟨some (D.map (rotGroup (-th))), some L⟩) (a := [chi]) rfl]
  rw [CalcM.bind_ok (s' := ⟨some (D.map (rotGroup (-th))), some L⟩) (a := [(e, rot2 th (F2 1, F2 2), rot2 th (chi, 0))]) ?_]
  · rfl
  · rw [mcLoop, CalcM.bind_ok hcur,
      CalcM.bind_ok (s' := ⟨some (D.map (rotGroup (-th))), some L⟩) (a := .forces F2) (by rw [call_some, hF2])]
    rfl

namespace RCBeam

theorem plane_at (e c x y : ℝ) : planeStrain ![e, c * Real.cos 0, c * Real.sin 0] x y = e + c * y := by
  simp [planeStrain]

/-- Planes of the search at the curvature `-1e-5`. -/
theorem admissible {e : ℝ} (h0 : 0 ≤ e) (h1 : e ≤ 0.004) :
    (concreteSection [concrete] bars).Admissible ![e, -1e-5 * Real.cos 0, -1e-5 * Real.sin 0] := by
  constructor
  · intro p hp x hx
    simp only [concreteSection, List.map_cons, List.map_nil, List.mem_singleton] at hp
    subst hp
    have hxr : x ∈ Set.Icc (-150:ℝ) 150 ×ˢ Set.Icc (-250:ℝ) 250 := by
      refine convexHull_min ?_ ((convex_Icc _ _).prod (convex_Icc _ _)) hx
      rintro ⟨u, v⟩ hv
      simp only [concrete, rectRing, closeRing, Set.mem_ofPred_eq, List.mem_cons, List.cons_append, List.nil_append,
        List.take_succ_cons, List.take_zero, List.not_mem_nil, or_false, Prod.mk.injEq] at hv
      rcases hv with ⟨rfl, rfl⟩ | ⟨rfl, rfl⟩ | ⟨rfl, rfl⟩ | ⟨rfl, rfl⟩ | ⟨rfl, rfl⟩ <;> norm_num
    have l := limits_concrete
    simp only [l, plane_at]
    have := hxr.2
    constructor <;> linarith [this.1, this.2]
  · intro r hr
    simp only [concreteSection, List.mem_map] at hr
    obtain ⟨b, hb, rfl⟩ := hr
    have hl : b.law.law.ult false = (-0.0415, 0.0415) ∧ -200 ≤ b.y ∧ b.y ≤ 200 := by
      simp only [bars, List.mem_cons, List.not_mem_nil, or_false] at hb
      rcases hb with rfl | rfl | rfl | rfl <;> exact ⟨limits_steel, by norm_num [bar], by norm_num [bar]⟩
    simp only [hl.1, Bar.fibre, plane_at]
    constructor <;> linarith [hl.2.1, hl.2.2]

theorem same {e : ℝ} (h0 : 0 ≤ e) (h1 : e ≤ 0.004) :
    (crossSection ([concrete].map ConcretePart.solid) bars).forces ![e, -1e-5 * Real.cos 0, -1e-5 * Real.sin 0] 0 =
      (concreteSection [concrete] bars).forces ![e, -1e-5 * Real.cos 0, -1e-5 * Real.sin 0] 0 := by
  rw [concrete_forces (split := split) (th := 0) bars (by
    intro p hp
    rw [List.mem_singleton.1 hp]
    exact ok) (admissible h0 h1)]

/-- With strain 0 at mid height the bars balance each other and the concrete is in compression. -/
theorem force_at_zero : (concreteSection [concrete] bars).forces ![0, -1e-5 * Real.cos 0, -1e-5 * Real.sin 0] 0 ≤ 0 := by
  rw [force]
  have h1 : (∫ x in concrete.region, concrete.law.stress (planeStrain ![0, -1e-5 * Real.cos 0, -1e-5 * Real.sin 0] x.1 x.2)) ≤ 0 :=
    integral_nonpos fun x => (concrete_law _).1
  simp only [plane_at]
  rw [steel_stress (x := 0 + -1e-5 * -200) (by norm_num) (by norm_num), steel_stress (x := 0 + -1e-5 * 200) (by norm_num) (by norm_num)]
  simp only [plane_at] at h1
  have e1 : max (-0.0025 : ℝ) (min (0 + -1e-5 * -200) 0.0025) = 0.002 := by norm_num
  have e2 : max (-0.0025 : ℝ) (min (0 + -1e-5 * 200) 0.0025) = -0.002 := by norm_num
  rw [e1, e2]
  linarith

theorem force_at_four : 1 < (concreteSection [concrete] bars).forces ![0.004, -1e-5 * Real.cos 0, -1e-5 * Real.sin 0] 0 := by
  rw [force]
  have h1 : (∫ x in concrete.region, concrete.law.stress (planeStrain ![0.004, -1e-5 * Real.cos 0, -1e-5 * Real.sin 0] x.1 x.2)) = 0 := by
    rw [setIntegral_congr_fun (g := fun _ => 0) ok.encloses.measurable fun x hx => ?_]
    · simp
    · refine (concrete_law _).2 ?_
      have := hx.2.2
      rw [plane_at]; norm_num; linarith
  rw [h1]
  simp only [plane_at]
  rw [steel_stress (x := 0.004 + -1e-5 * -200) (by norm_num) (by norm_num), steel_stress (x := 0.004 + -1e-5 * 200) (by norm_num) (by norm_num)]
  have e1 : max (-0.0025 : ℝ) (min (0.004 + -1e-5 * -200) 0.0025) = 0.0025 := by norm_num
  have e2 : max (-0.0025 : ℝ) (min (0.004 + -1e-5 * 200) 0.0025) = 0.002 := by norm_num
  rw [e1, e2]
  norm_num

theorem area : volume.real concrete.region = 150000 := by
  have hm : volume concrete.region = ENNReal.ofReal 150000 := by
    simp only [concrete]
    rw [Measure.volume_eq_prod, Measure.prod_prod, Real.volume_Icc, Real.volume_Icc, ← ENNReal.ofReal_mul (by norm_num)]
    norm_num
  rw [Measure.real, hm, ENNReal.toReal_ofReal (by norm_num)]

/-- The axial force is Lipschitz in the axial strain. -/
theorem force_axial {x y : ℝ} (hx0 : 0 ≤ x) (hx1 : x ≤ 0.004) (hy0 : 0 ≤ y) (hy1 : y ≤ 0.004) :
    |(concreteSection [concrete] bars).forces ![x, -1e-5 * Real.cos 0, -1e-5 * Real.sin 0] 0 -
      (concreteSection [concrete] bars).forces ![y, -1e-5 * Real.cos 0, -1e-5 * Real.sin 0] 0| ≤ 1e10 * |x - y| := by
  have := force_axial_lipschitz (split := split) (th := 0) (parts := [concrete]) (bars := bars) (K := 200000) (by
    intro p hp
    rw [List.mem_singleton.1 hp]
    exact ok) K (c := -1e-5) (by norm_num) (admissible hx0 hx1) (admissible hy0 hy1)
  refine this.trans (mul_le_mul_of_nonneg_right ?_ (abs_nonneg _))
  simp only [axialSlope, bars, bar, List.map_cons, List.map_nil, List.sum_cons, List.sum_nil, area]
  norm_num [concrete, abs_of_pos]

theorem tension : (concreteSection [concrete] bars).forces ![0.0415, 0, 0] 0 = 1e6 := by
  have hp : ∀ a x y : ℝ, planeStrain ![a, 0, 0] x y = a := by
    intro a x y; simp [planeStrain]
  rw [force]
  simp only [hp]
  rw [(concrete_law 0.0415).2 (by norm_num), steel_stress (by norm_num) (by norm_num)]
  have e1 : max (-0.0025 : ℝ) (min 0.0415 0.0025) = 0.0025 := by norm_num
  rw [e1]
  simp
  norm_num

/-- A small tension is accepted. -/
theorem accepted_tension {n : ℝ} (h0 : 0 ≤ n) (h1 : n ≤ 1) : (checkAxialLoad engine n .fresh).2 = .ok () := by
  have hl := limit_loads
  have hp : ∀ a x y : ℝ, planeStrain ![a, 0, 0] x y = a := by
    intro a x y; simp [planeStrain]
  have hc : (concreteSection [concrete] bars).forces ![-0.0035, 0, 0] 0 < 0 := by
    apply force_neg
    intro x y _ _
    rw [hp]; norm_num
  simp only [checkAxialLoad, CalcM.bind_def]
  rcases h : limits engine .fresh with ⟨s, r⟩
  rw [h] at hl
  simp only at hl
  subst hl
  simp only
  rw [if_neg (by rw [tension]; push Not; exact ⟨by linarith, by norm_num; linarith⟩)]
  rfl

/-- For any tension between 0 and 1 N the point of the diagram at the curvature `-1e-5` is returned. -/
theorem diagram_returns {n : ℝ} (h0 : 0 < n) (h1 : n ≤ 1) :
    ∃ pts, (momentCurvature engine 0 n 1e-8 10 10 (some [-1e-5]) .fresh).2 = .ok pts := by
  have hok : ∀ p ∈ [concrete], p.Ok split 0 := by
    intro p hp
    rw [List.mem_singleton.1 hp]
    exact ok
  have hE : engine.Lawful fun _ => .ok (groupBars bars) := marinEngine_lawful _ _ _ _ _ _
  have hA := concrete_answers 0.01 hok ids sizes (c := -1e-5) (by norm_num) (fun h => absurd h (by norm_num))
  have hneg : (crossSection ([concrete].map ConcretePart.solid) bars).forces ![0, -1e-5 * Real.cos 0, -1e-5 * Real.sin 0] 0 - n < 0 := by
    rw [same le_rfl (by norm_num)]
    linarith [force_at_zero]
  obtain ⟨e, k, hrun⟩ := fixedCurvature_returns
    (fun e c => (crossSection ([concrete].map ConcretePart.solid) bars).forces ![e, c * Real.cos 0, c * Real.sin 0] 0) n (-1e-5) 0 1e10
    (i := 2) (by norm_num) (by
      rw [preSign_neg hneg]
      refine mul_neg_of_neg_of_pos hneg ?_
      have e1 : (0:ℝ) + 1 * (1e-3 * 2 ^ 2) = 0.004 := by norm_num
      rw [e1, same (by norm_num) le_rfl]
      linarith [force_at_four]) (by norm_num) (by
      intro x y hx hy hx' hy'
      rw [preSign_neg hneg] at hx' hy'
      have e1 : (1e-3:ℝ) * 2 ^ 2 = 0.004 := by norm_num
      rw [e1, abs_le] at hx hy
      rw [same (by linarith) (by linarith [hx.2]), same (by linarith) (by linarith [hy.2])]
      exact force_axial (by linarith) (by linarith [hx.2]) (by linarith) (by linarith [hy.2])) (by norm_num)
  obtain ⟨m, hm⟩ := mc_single_returns hE rfl hA (s := .fresh) .fresh (accepted_tension h0.le h1) hrun 1e-8 10 10
  exact ⟨_, hm⟩

/-- All hypotheses of `C70_reinforced_concrete_partial` hold together for some load, and the diagram is returned. -/
example (lu : Matrix (Fin 3) (Fin 3) ℝ → (Fin 3 → ℝ) → (Fin 3 → ℝ)) :
    ∃ n ∈ Set.Ioc (0:ℝ) 1, ∃ p, (momentCurvature engine 0 n 1e-8 10 10 (some [-1e-5]) .fresh).2 = .ok [p] ∧
      p.2.2 = (-1e-5, 0) ∧
      (|(crossSection ([concrete].map ConcretePart.solid) bars).forces p.plane 0 - n| ≤ 1e-2 ∨
        DrivenAway (crossSection ([concrete].map ConcretePart.solid) bars) n p 0) := by
  have hok : ∀ p ∈ [concrete], p.Ok split 0 := by
    intro p hp
    rw [List.mem_singleton.1 hp]
    exact ok
  obtain ⟨C, hC, h⟩ := C70_reinforced_concrete_partial split [concrete] bars 0.01 0 lu hok ids sizes [-1e-5] (by norm_num)
    (by rintro ⟨c, hc, h⟩; rw [List.mem_singleton.1 hc] at h; norm_num at h)
  obtain ⟨n, hn, hnC⟩ : (Set.Ioc (0:ℝ) 1 \ C).Nonempty := by
    have hnc : ¬ (Set.Ioc (0:ℝ) 1).Countable := fun h => by
      have := h.measure_zero volume
      rw [Real.volume_Ioc] at this
      norm_num at this
    by_contra hcon
    rw [Set.not_nonempty_iff_eq_empty, Set.sdiff_eq_empty] at hcon
    exact hnc (hC.mono hcon)
  obtain ⟨pts, hp⟩ := diagram_returns hn.1 hn.2
  obtain ⟨h1, -, -, h3⟩ := h n hnC 1e-8 10 10 [] pts trivial hp
  match pts, hp, h1, h3 with
  | [], _, h1, _ => simp at h1
  | [p], hp, h1, h3 =>
    refine ⟨n, hn, p, hp, ?_, ?_⟩
    · simpa using h1
    · exact h3 (0, p) (by simp)
  | _ :: _ :: _, _, h1, _ => simp at h1

/-- The hypotheses of `C70_concrete_default_partial` hold for the beam and the default numbers of points. -/
example (lu : Matrix (Fin 3) (Fin 3) ℝ → (Fin 3 → ℝ) → (Fin 3 → ℝ)) :
    ∃ C : Set ℝ, C.Countable ∧ ∀ n ∉ C, ∀ pts : List MCPoint, (momentCurvature engine 0 n 1e-8 10 10 none .fresh).2 = .ok pts →
      ∃ cy < 0, ∃ cu < 0, pts[9]?.map (fun p => p.2.2) = some ((cy, 0) : ℝ × ℝ) ∧
        ∀ b, (bendingStrength engine 0 n .fresh).2 = .ok b → b.chi = (cu, 0) := by
  have hok : ∀ p ∈ [concrete], p.Ok split 0 := by
    intro p hp
    rw [List.mem_singleton.1 hp]
    exact ok
  obtain ⟨b1, b2⟩ := failures true
  obtain ⟨C, hC, h⟩ := C70_concrete_default_partial split [concrete] bars 0.01 0 lu hok ids sizes b1 b2 (by norm_num) (by norm_num)
    1e-8 (by norm_num) 10 10 (by norm_num) (by norm_num)
  refine ⟨C, hC, fun n hn pts hp => ?_⟩
  obtain ⟨cy, hy, cu, hu, -, -, hb, ⟨chis, h1, -, -, h2, -⟩, -⟩ := h n hn [] pts trivial hp
  refine ⟨cy, hy, cu, hu, ?_, fun b hb' => by simpa using hb [] b trivial hb'⟩
  rw [← List.getElem?_map, h1, List.getElem?_map, h2]
  simp

end RCBeam

end SC
