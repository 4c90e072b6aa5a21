import Verif.Props.DiagramDesign
import Verif.Props.MaximumDesign

/-! # C70 and C78: default diagrams of designed sections -/

set_option autoImplicit false

namespace SC

open Spec MeasureTheory OrdinaryRC

variable {lower : String → String}

/-- Two admissible planes of the same curvature: moments. -/
theorem moments_close {S : CrossSection} (h : S.NonSoftening) {th R : ℝ} (hR : S.Within th R) (hR0 : 0 ≤ R) {v v' c n : ℝ}
    (ha : S.Admissible (planeThrough th 0 v c)) (ha' : S.Admissible (planeThrough th 0 v' c))
    (hn : |S.forces (planeThrough th 0 v c) 0 - n| ≤ 1e-2) (hn' : |S.forces (planeThrough th 0 v' c) 0 - n| ≤ 1e-2) :
    |bendingMoment th (S.forces (planeThrough th 0 v' c)) - bendingMoment th (S.forces (planeThrough th 0 v c))| ≤ 2e-2 * R := by
  have h1 := moment_curvature_mono h hR hR0 le_rfl ha ha'
  have h2 := moment_curvature_mono h hR hR0 le_rfl ha' ha
  have hd : |S.forces (planeThrough th 0 v' c) 0 - S.forces (planeThrough th 0 v c) 0| ≤ 2e-2 := by
    rw [abs_le] at *
    constructor <;> norm_num at * <;> linarith [hn.1, hn.2, hn'.1, hn'.2]
  have hd' : |S.forces (planeThrough th 0 v c) 0 - S.forces (planeThrough th 0 v' c) 0| ≤ 2e-2 := by rw [abs_sub_comm]; exact hd
  have e1 := mul_le_mul_of_nonneg_left hd hR0
  have e2 := mul_le_mul_of_nonneg_left hd' hR0
  rw [abs_le]
  constructor <;> linarith

set_option maxHeartbeats 1600000 in
/-- **C70** (designed sections, default curvatures; partial: the searches that are driven away, the countably many loads). A section of
normal strength concrete with bars of one perfectly plastic steel, both from the constructors. Every default diagram that is returned
runs through the curvature of a plane at which the lowest bar yields or the highest concrete reaches its peak strain and ends at the
curvature of the bending strength; its curvatures grow strictly; its moments are those of its planes; and each of its points is in
equilibrium within 0.01, unless its search was driven away. -/
theorem C70_design_partial (hl : PyLower lower) (ccls : ConcClass) (ca : ConcArgs) (c : Built Conc)
    (hc : newConcrete lower ccls ca = some (.ok c)) (hcn : ca.law = .name "parabolarectangle")
    (hci : ca.initialStrain = none ∧ ca.initialStress = none) (hce : ca.eps_c2 = none ∧ ca.eps_cu2 = none ∧ ca.n = none)
    (hcf : ccls ≠ .ec2_2023 → |ca.fck| ≤ 50)
    (scls : SteelClass) (sa : SteelArgs) (s : Built Steel)
    (hs : newSteel lower scls sa = some (.ok s)) (hsn : sa.law = .name "elasticperfectlyplastic")
    (hsi : sa.initialStrain = none ∧ sa.initialStress = none)
    (hgap : designYield sa + 1e-6 + 1e-5 * designUltimate scls sa ≤ designUltimate scls sa)
    (heu : 0.0035 ≤ designUltimate scls sa ∧ designUltimate scls sa ≤ 0.09) (hey : 1e-4 ≤ designYield sa)
    (split : Polygon → ℝ → ℝ → ShapelyResult) (ms th : ℝ) (lu : Matrix (Fin 3) (Fin 3) ℝ → (Fin 3 → ℝ) → (Fin 3 → ℝ))
    (shapes : List (Polygon × Set (ℝ × ℝ))) (bars : List Bar) (id : ℕ) (hbars : ∀ b ∈ bars, b.law = ⟨id, s.mat.law⟩)
    (henc : ∀ p ∈ shapes, Encloses p.1.ext p.1.ints p.2) (hull : ∀ p ∈ shapes, p.2 ⊆ convexHull ℝ {v | v ∈ p.1.ext})
    (hsplit : ∀ p ∈ shapes,
      SplitsExactly split ((p.1.rotate (-th)).rotate (-Real.pi)) (rotPt (-Real.pi) '' (rotPt (-th) '' p.2)))
    {H : ℝ} (hg : RCGeometry th shapes (bars.map fun b => (b.x, b.y)) H)
    (fc : ℝ) (hfc : fc = designConcrete ccls ca) (S : CrossSection) (hS : S = concreteSection (normalParts fc shapes) bars)
    (S' : CrossSection) (hS' : S' = crossSection ((normalParts fc shapes).map ConcretePart.solid) bars)
    (E : Engine) (hE : E = sectionEngine split ((normalParts fc shapes).map ConcretePart.solid) bars ms)
    (cf : ℝ) (hcf0 : cf ≠ 0) (num_pre num_post : ℕ) (ha : 2 ≤ num_pre) (hb : 1 ≤ num_post) :
    (∀ p ∈ normalParts fc shapes, p.law.law = c.mat.law) ∧
    ∃ C : Set ℝ, C.Countable ∧ ∀ n ∉ C, ∀ (ops : List Op) (pts : List MCPoint), Undisturbed E lu ops .fresh →
      (momentCurvature E th n cf num_pre num_post none (history E lu ops .fresh)).2 = .ok pts →
      ∃ cy < 0, ∃ cu < 0,
        (∃ e, (∃ b ∈ bars, planeStrain (planeThrough th 0 e cy) b.x b.y = designYield sa) ∨
          ∃ p ∈ shapes, ∃ v ∈ p.1.ext, planeStrain (planeThrough th 0 e cy) v.1 v.2 = -0.002) ∧
        (∀ (ops' : List Op) (r : BendingResult), Undisturbed E lu ops' .fresh →
          (bendingStrength E th n (history E lu ops' .fresh)).2 = .ok r → r.chi = (cu * Real.cos th, cu * Real.sin th)) ∧
        (∃ chis : List ℝ, pts.map (fun p => p.2.2) = chis.map (fun c => (c * Real.cos th, c * Real.sin th)) ∧
          chis.Pairwise (fun x y => y < x) ∧ (∀ x ∈ chis, x < 0) ∧ chis[num_pre - 1]? = some cy ∧
          (|cy| + 1e-8 < |cu| → chis.length = num_pre + num_post ∧ chis.getLast? = some cu) ∧
          (|cu| ≤ |cy| + 1e-8 → chis.length = num_pre)) ∧
        (∀ p ∈ pts, (S'.forces p.plane 1, S'.forces p.plane 2) = p.2.1) ∧
        (∀ p ∈ pts, S.Admissible p.plane → S.forces p.plane = S'.forces p.plane) ∧
        ∀ q ∈ (0 :: pts.map Prod.fst).zip pts, |S'.forces q.2.plane 0 - n| ≤ 1e-2 ∨ DrivenAway S' n q.2 q.1 := by
  have hlaw := C73_concrete hl ccls ca c hc hcn hci.1 hci.2 hce.1 hce.2.1 hce.2.2 hcf
  obtain ⟨hult, hst, hlip⟩ := C73_steel hl scls sa s hs hsn hsi.1 hsi.2 hgap
  refine ⟨?_, ?_⟩
  · intro p hp
    obtain ⟨q, -, rfl⟩ := List.mem_map.1 hp
    rw [hlaw, hfc]
    rfl
  have hok : ∀ p ∈ normalParts fc shapes, p.Ok split th := by
    intro p hp
    obtain ⟨q, hq, rfl⟩ := List.mem_map.1 hp
    exact ⟨henc q hq, hull q hq, hsplit q hq, by norm_num, by norm_num [abs_of_pos]⟩
  have ho : OrdinaryRC th (normalParts fc shapes) bars 0.0035 (designUltimate scls sa) H := hg.ordinary (fc := fc) hbars hult heu.1 heu.2
  obtain ⟨yn, yp, st, hbal, -, -, hst2, -, hst1, -⟩ := ho.search ms hok
  obtain ⟨yn', yp', sty, hbaly, g1, g2, hsty2, hsty, ⟨b0, hb0, hyp⟩, p0, hp0, v0, hv0, hyn⟩ := ho.yielding_steep (split := split) (ms := ms)
    (e0 := 0.002) (ey := designYield sa) ⟨by
      intro p hp
      obtain ⟨q, hq, rfl⟩ := List.mem_map.1 hp
      norm_num [abs_of_pos], fun b hb => by
        rw [hbars b hb, steel_yield hl scls sa s hs hsn hsi.1 hsi.2], by norm_num, hey, by
        have := heu.1; norm_num at *; linarith⟩
    fun p hp => concrete_ne hok _ (List.mem_map_of_mem hp)
  obtain ⟨C, hC, hmain⟩ := C70_concrete_default_partial split (normalParts fc shapes) bars ms th lu hok (single_ids hbars)
    (single_sizes hbars) hbal hbaly hst1 hsty cf hcf0 num_pre num_post ha hb
  refine ⟨C, hC, fun n hn ops pts hops hrun => ?_⟩
  rw [hE] at hops hrun ⊢
  obtain ⟨cy, hcy, cu, hcu, ⟨e, y, hy, hp⟩, -, h1, ⟨chis, k1, k2, k3, k4, k5, k6⟩, h2, h3, h4⟩ := hmain n hn ops pts hops hrun
  refine ⟨cy, hcy, cu, hcu, ⟨e, ?_⟩, h1, ⟨chis, k1, k2, k3, k4, fun hlt => ?_, k6⟩, ?_, ?_, ?_⟩
  · have hpl : planeStrain ![e, cy, 0] 0 y = e + cy * y := by simp [planeStrain]
    rw [hpl] at hp
    rcases hy with rfl | rfl
    · right
      obtain ⟨q, hq, rfl⟩ := List.mem_map.1 hp0
      refine ⟨q, hq, v0, hv0, ?_⟩
      rw [planeThrough_at, hyn, hp, g2]
    · left
      refine ⟨b0, hb0, ?_⟩
      have := planeThrough_at th e cy (b0.x, b0.y)
      simp only at this
      rw [this, hyp, hp, g1]
  · obtain ⟨l1, l2⟩ := k5 hlt
    exact ⟨l1, by rw [List.getLast?_eq_getElem?, l1]; exact l2⟩
  · rw [hS']; exact h2
  · intro p hp hadm
    rw [hS] at hadm
    rw [hS, hS', concrete_forces bars hok hadm]
  · rw [hS']; exact h4

set_option maxHeartbeats 1600000 in
/-- **C78** (partial: the points of the default diagram that are in equilibrium and within the limit strains). The sections of C70, with a
bending strength in equilibrium (C73: every load within the limit loads but for countably many). None
of these points has a moment above the bending strength by more than `2e-2 R`, and the one at the curvature of the bending strength
has its moment up to `2e-2 R`. -/
theorem C78_end_partial (hl : PyLower lower) (ccls : ConcClass) (ca : ConcArgs) (c : Built Conc)
    (hc : newConcrete lower ccls ca = some (.ok c)) (hcn : ca.law = .name "parabolarectangle")
    (hci : ca.initialStrain = none ∧ ca.initialStress = none) (hce : ca.eps_c2 = none ∧ ca.eps_cu2 = none ∧ ca.n = none)
    (hcf : ccls ≠ .ec2_2023 → |ca.fck| ≤ 50)
    (scls : SteelClass) (sa : SteelArgs) (s : Built Steel)
    (hs : newSteel lower scls sa = some (.ok s)) (hsn : sa.law = .name "elasticperfectlyplastic")
    (hsi : sa.initialStrain = none ∧ sa.initialStress = none)
    (hgap : designYield sa + 1e-6 + 1e-5 * designUltimate scls sa ≤ designUltimate scls sa)
    (heu : 0.0035 ≤ designUltimate scls sa ∧ designUltimate scls sa ≤ 0.09) (hey : 1e-4 ≤ designYield sa)
    (split : Polygon → ℝ → ℝ → ShapelyResult) (ms th : ℝ) (lu : Matrix (Fin 3) (Fin 3) ℝ → (Fin 3 → ℝ) → (Fin 3 → ℝ))
    (shapes : List (Polygon × Set (ℝ × ℝ))) (bars : List Bar) (id : ℕ) (hbars : ∀ b ∈ bars, b.law = ⟨id, s.mat.law⟩)
    (hA : ∀ b ∈ bars, 0 ≤ b.area)
    (henc : ∀ p ∈ shapes, Encloses p.1.ext p.1.ints p.2) (hull : ∀ p ∈ shapes, p.2 ⊆ convexHull ℝ {v | v ∈ p.1.ext})
    (hsplit : ∀ p ∈ shapes,
      SplitsExactly split ((p.1.rotate (-th)).rotate (-Real.pi)) (rotPt (-Real.pi) '' (rotPt (-th) '' p.2)))
    {H R : ℝ} (hg : RCGeometry th shapes (bars.map fun b => (b.x, b.y)) H) (hR : ∀ p ∈ shapes, ∀ v ∈ p.1.ext, |height th v| ≤ R)
    (fc : ℝ) (hfc : fc = designConcrete ccls ca) (S : CrossSection) (hS : S = concreteSection (normalParts fc shapes) bars)
    (E : Engine) (hE : E = sectionEngine split ((normalParts fc shapes).map ConcretePart.solid) bars ms)
    (cf : ℝ) (hcf0 : cf ≠ 0) (num_pre num_post : ℕ) (ha : 2 ≤ num_pre) (hb : 1 ≤ num_post) :
    ∃ C : Set ℝ, C.Countable ∧ ∀ n ∉ C, ∀ (ops ops' : List Op) (pts : List MCPoint) (r : BendingResult),
      Undisturbed E lu ops .fresh → Undisturbed E lu ops' .fresh →
      (momentCurvature E th n cf num_pre num_post none (history E lu ops .fresh)).2 = .ok pts →
      (bendingStrength E th n (history E lu ops' .fresh)).2 = .ok r → |r.n - n| ≤ 1e-2 →
      ∀ p ∈ pts, S.Admissible p.plane → |S.forces p.plane 0 - n| ≤ 1e-2 →
        bendingMoment th ![n, p.2.1.1, p.2.1.2] ≤ bendingMoment th ![n, r.m.1, r.m.2] + 2e-2 * R ∧
        (p.2.2 = r.chi → |bendingMoment th ![n, p.2.1.1, p.2.1.2] - bendingMoment th ![n, r.m.1, r.m.2]| ≤ 2e-2 * R) := by
  obtain ⟨hult, hst, -⟩ := C73_steel hl scls sa s hs hsn hsi.1 hsi.2 hgap
  have hok : ∀ p ∈ normalParts fc shapes, p.Ok split th := by
    intro p hp
    obtain ⟨q, hq, rfl⟩ := List.mem_map.1 hp
    exact ⟨henc q hq, hull q hq, hsplit q hq, by norm_num, by norm_num [abs_of_pos]⟩
  have ho : OrdinaryRC th (normalParts fc shapes) bars 0.0035 (designUltimate scls sa) H := hg.ordinary (fc := fc) hbars hult heu.1 heu.2
  have hmono : ∀ b ∈ bars, MonotoneOn b.law.law.stress (Set.Icc (b.law.law.ult false).1 (b.law.law.ult false).2) := by
    intro b hb
    rw [hbars b hb]
    intro x hx y hy hxy
    simp only [hult] at hx hy
    rw [hst x (abs_le.2 hx), hst y (abs_le.2 hy)]
    exact mul_le_mul_of_nonneg_left (max_le_max_left _ (min_le_min_right _ hxy)) (abs_nonneg _)
  obtain ⟨-, C1, hC1, h1⟩ := C70_design_partial hl ccls ca c hc hcn hci hce hcf scls sa s hs hsn hsi hgap heu hey split ms th lu shapes
    bars id hbars henc hull hsplit hg fc hfc S hS _ rfl E hE cf hcf0 num_pre num_post ha hb
  have hne : ∀ p ∈ normalParts fc shapes, p.polygon.ext ≠ [] := fun p hp => concrete_ne hok _ (List.mem_map_of_mem hp)
  obtain ⟨yn, yp, st, hbal, -, -, -, -, -, -, -, hgov⟩ := ho.balanced (split := split) (ms := ms) hne
  obtain ⟨C2, -, h2⟩ := C66_reinforced_concrete_partial split (normalParts fc shapes) bars ms th lu hok (single_ids hbars)
    (single_sizes hbars) ho.lim ho.flat hbal hgov
  refine ⟨C1, hC1, fun n hn ops ops' pts r hops hops' hrun hr hrn0 p hp hadm hbalp => ?_⟩
  obtain ⟨cy, hcy, cu, hcu, -, hchi, ⟨chis, k1, -⟩, k3, k4, -⟩ := h1 n hn ops pts hops hrun
  have hns : S.NonSoftening := by rw [hS]; exact concrete_nonSoftening hok hA hmono
  have hw := ho.within hok (R := R) (by
    intro p hp
    obtain ⟨q, hq, rfl⟩ := List.mem_map.1 hp
    exact hR q hq)
  rw [← hS] at hw
  -- the plane of the strength
  have hchi' := hchi ops' r hops' hr
  rw [hE] at hops' hr
  obtain ⟨⟨cr, hcr, er⟩, hf, hlimr, hadr, -⟩ := h2 n ops' r hops' hr
  have hpl : ![r.eps_a, r.chi.1, r.chi.2] = planeThrough th 0 r.eps_a cr := by rw [planeThrough_curvature, er]
  rw [hpl] at hf hlimr hadr
  have hult' := ho.ultimate hok hmono hcr.le hadr hlimr
  rw [← hS] at hf hadr hult'
  have hrn : |S.forces (planeThrough th 0 r.eps_a cr) 0 - n| ≤ 1e-2 := by rw [hf]; exact hrn0
  have hrm : bendingMoment th ![n, r.m.1, r.m.2] = bendingMoment th (S.forces (planeThrough th 0 r.eps_a cr)) := by
    rw [hf]; simp [bendingMoment]
  -- the plane of the point
  have hmem : p.2.2 ∈ pts.map (fun p => p.2.2) := List.mem_map_of_mem hp
  rw [k1] at hmem
  obtain ⟨k, -, ek⟩ := List.mem_map.1 hmem
  have hpp : p.plane = planeThrough th 0 p.1 k := by rw [planeThrough_curvature, MCPoint.plane, ← ek]
  have hpm : bendingMoment th ![n, p.2.1.1, p.2.1.2] = bendingMoment th (S.forces (planeThrough th 0 p.1 k)) := by
    rw [← hpp, k4 p hp hadm, ← k3 p hp]; simp [bendingMoment]
  rw [hpp] at hadm hbalp
  rw [hrm, hpm]
  have hdn : |S.forces (planeThrough th 0 p.1 k) 0 - S.forces (planeThrough th 0 r.eps_a cr) 0| ≤ 2e-2 := by
    rw [abs_le] at *
    constructor <;> norm_num at * <;> linarith [hbalp.1, hbalp.2, hrn.1, hrn.2]
  refine ⟨?_, fun heq => ?_⟩
  · have := ultimate_maximal hns hw.1 hw.2 hadr hult' hadm
    have e2 := mul_le_mul_of_nonneg_left hdn hw.2
    linarith
  · have hkr : k = cr := by
      have e3 : (k * Real.cos th, k * Real.sin th) = (cr * Real.cos th, cr * Real.sin th) := by rw [ek, heq, er]
      simp only [Prod.mk.injEq] at e3
      have hsq := Real.sin_sq_add_cos_sq th
      linear_combination (-k + cr) * hsq + e3.1 * Real.cos th + e3.2 * Real.sin th
    rw [hkr] at hadm hbalp ⊢
    exact moments_close hns hw.1 hw.2 hadr hadm hrn hbalp

end SC
