import Verif.Props.FiberMotion
import Verif.Props.FiberCompareDesign
import Verif.Props.DomainTransport

/-! # C93 for the constructors of the library -/

set_option autoImplicit false

namespace SC

open Spec MeasureTheory MeshedConcrete

variable {lower : String → String}

theorem areaMoment_moved (m : Motion) {R : Set (ℝ × ℝ)} (hR : MeasurableSet R) : areaMoment 0 0 (m.point '' R) = areaMoment 0 0 R := by
  simp only [areaMoment, pow_zero, mul_one]
  exact integral_point m hR fun _ => 1

theorem weight_moved (m : Motion) {fc : ℝ} {shapes : List (Polygon × Set (ℝ × ℝ))} (hR : ∀ p ∈ shapes, MeasurableSet p.2) :
    weight (normalParts fc (shapes.map (movedShape m))) 0 = weight (normalParts fc shapes) 0 := by
  simp only [weight, normalParts, List.map_map]
  congr 2
  refine List.map_congr_left fun p hp => ?_
  simp only [Function.comp_apply, movedShape, areaMoment_moved m (hR p hp)]
  congr 1
  rw [integral_point m (hR p hp)]
  simp [lever]

theorem RCGeometry.moved {th H : ℝ} {shapes : List (Polygon × Set (ℝ × ℝ))} {pts : List (ℝ × ℝ)} (h : RCGeometry th shapes pts H)
    (m : Motion) : RCGeometry (m.inclination th) (shapes.map (movedShape m)) (pts.map m.point) H := by
  have hset : ∀ l : List (ℝ × ℝ), {v | v ∈ l.map m.point} = m.point '' {v | v ∈ l} := by
    intro l; ext v; simp
  refine ⟨?_, ?_, h.size, ?_⟩
  · intro b hb
    obtain ⟨x, hx, rfl⟩ := List.mem_map.1 hb
    obtain ⟨p, hp, hin⟩ := h.inside x hx
    refine ⟨_, List.mem_map_of_mem hp, ?_⟩
    simp only [movedShape]
    rw [hset, ← motion_hull]
    exact ⟨_, hin, rfl⟩
  · intro p hp v hv q hq w hw
    obtain ⟨p0, hp0, rfl⟩ := List.mem_map.1 hp
    obtain ⟨q0, hq0, rfl⟩ := List.mem_map.1 hq
    obtain ⟨v0, hv0, rfl⟩ := List.mem_map.1 hv
    obtain ⟨w0, hw0, rfl⟩ := List.mem_map.1 hw
    rw [m.height_point, m.height_point]
    linarith [h.span p0 hp0 v0 hv0 q0 hq0 w0 hw0]
  · obtain ⟨x, hx, p, hp, v, hv, hd⟩ := h.depth
    refine ⟨_, List.mem_map_of_mem hx, _, List.mem_map_of_mem hp, _, List.mem_map_of_mem hv, ?_⟩
    rw [m.height_point, m.height_point]
    linarith

set_option maxHeartbeats 1000000 in
/-- **C93** (design, partial: the loads of C73). For normal strength concrete and bars of one perfectly plastic steel, and for all loads
between the limit loads of the section (up to a margin, and except countably many loads) the fibre integrator answers for the section
and for the moved section, and the second strength is the first, moved, up to the error of the two meshes and the tolerance of the
equilibrium. -/
theorem C93_design_partial (hl : PyLower lower) (ccls : ConcClass) (ca : ConcArgs) (c : Built Conc)
    (hc : newConcrete lower ccls ca = some (.ok c)) (hcn : ca.law = .name "parabolarectangle")
    (hci : ca.initialStrain = none ∧ ca.initialStress = none) (hce : ca.eps_c2 = none ∧ ca.eps_cu2 = none ∧ ca.n = none)
    (hcf : ccls ≠ .ec2_2023 → |ca.fck| ≤ 50)
    (scls : SteelClass) (sa : SteelArgs) (s : Built Steel)
    (hs : newSteel lower scls sa = some (.ok s)) (hsn : sa.law = .name "elasticperfectlyplastic")
    (hsi : sa.initialStrain = none ∧ sa.initialStress = none)
    (hgap : designYield sa + 1e-6 + 1e-5 * designUltimate scls sa ≤ designUltimate scls sa)
    (heu : 0.0035 ≤ designUltimate scls sa ∧ designUltimate scls sa ≤ 0.09)
    (turned turned' : ℝ → List MeshSurf) {ms ms' : ℝ} (hms : 0 < ms) (hms1 : ms ≤ 1) (hms' : 0 < ms') (hms1' : ms' ≤ 1) (th : ℝ)
    (shapes : List (Polygon × Set (ℝ × ℝ))) (bars : List Bar) (id : ℕ) (hbars : ∀ b ∈ bars, b.law = ⟨id, s.mat.law⟩)
    (hA : ∀ b ∈ bars, 0 ≤ b.area) (idc idc' : ℕ) (mesh mesh' : Polygon × Set (ℝ × ℝ) → ℝ → List ((ℝ × ℝ) × (ℝ × ℝ) × (ℝ × ℝ)))
    (mo : Motion)
    (hmesh : ∀ p ∈ shapes, Triangulates (mesh p (areaMoment 0 0 p.2 * ms)) p.2 ∧
      Quality (areaMoment 0 0 p.2 * ms) (mesh p (areaMoment 0 0 p.2 * ms)))
    (hmesh' : ∀ p ∈ shapes.map (movedShape mo), Triangulates (mesh' p (areaMoment 0 0 p.2 * ms')) p.2 ∧
      Quality (areaMoment 0 0 p.2 * ms') (mesh' p (areaMoment 0 0 p.2 * ms')))
    (henc : ∀ p ∈ shapes, Encloses p.1.ext p.1.ints p.2) (hull : ∀ p ∈ shapes, p.2 ⊆ convexHull ℝ {v | v ∈ p.1.ext})
    {H H0 H1 R R' D : ℝ} (hg0 : RCGeometry 0 shapes (bars.map fun b => (b.x, b.y)) H0)
    (hg1 : RCGeometry 0 (shapes.map (movedShape mo)) ((bars.map fun b => (b.x, b.y)).map mo.point) H1)
    (hg : RCGeometry th shapes (bars.map fun b => (b.x, b.y)) H)
    (hR : ∀ p ∈ shapes, ∀ v ∈ p.1.ext, |height th v| ≤ R)
    (hR' : ∀ p ∈ shapes, ∀ v ∈ p.1.ext, |height (mo.inclination th) (mo.point v)| ≤ R')
    (hD0 : 0 < D) (hD : ∃ b ∈ bars, ∃ p ∈ shapes, ∃ w ∈ p.1.ext, D ≤ height th w - height th (b.x, b.y))
    (fc : ℝ) (hfc : fc = designConcrete ccls ca) (δ : ℝ)
    (hδ : δ = max (2 * |fc| / 0.002) |sa.Es| * ((shapes.map fun p => areaMoment 0 0 p.2).sum + (bars.map fun b => |b.area|).sum) * H)
    (hsmall : δ ≤ 1e22) (S : CrossSection) (hS : S = concreteSection (normalParts fc shapes) bars)
    (m : ℝ) (hm : m = (δ + 2 * (max √ms √ms' * weight (normalParts fc shapes) 0)) * 1e-13) :
    ∃ C : Set ℝ, C.Countable ∧ ∀ n ∉ C,
      S.forces ![-0.0035, 0, 0] 0 + m < n → n < S.forces ![designUltimate scls sa, 0, 0] 0 - m →
        ∃ b b' : BendingResult, FibreResult turned (normalMeshed fc shapes idc mesh) bars ms th n b ∧
          FibreResult turned' (normalMeshed fc (shapes.map (movedShape mo)) idc' mesh') (bars.map (Bar.moved mo)) ms' (mo.inclination th) n b' ∧
          |b.n - n| ≤ 1e-2 ∧ |b'.n - n| ≤ 1e-2 ∧
          |bendingMoment (mo.inclination th) ![b'.n, b'.m.1, b'.m.2] -
              bendingMoment (mo.inclination th) (mo.forces ![b.n, b.m.1, b.m.2])| ≤ R' * 2e-2 +
            (momentWeight (normalParts fc shapes) th 0.0035 (designUltimate scls sa) D (R' + |height (mo.inclination th) mo.shift|) * √ms +
              momentWeight (normalParts fc (shapes.map (movedShape mo))) (mo.inclination th) 0.0035 (designUltimate scls sa) D R' * √ms') := by
  have hmeas : ∀ p ∈ shapes, MeasurableSet p.2 := fun p hp => (henc p hp).measurable
  have hpts : (bars.map (Bar.moved mo)).map (fun b => (b.x, b.y)) = (bars.map fun b => (b.x, b.y)).map mo.point := by
    rw [List.map_map, List.map_map]
    rfl
  have hw0 := weight_nonneg (normalParts fc shapes) 0
  obtain ⟨-, hb1, -, C, hC, h1⟩ := C92_design_partial hl ccls ca c hc hcn hci hce hcf scls sa s hs hsn hsi hgap heu turned hms hms1 th shapes
    bars id hbars hA idc mesh hmesh henc hull hg0 hg hR hD0 hD fc hfc δ hδ hsmall S hS _ rfl
  have hparts : (normalParts fc (shapes.map (movedShape mo))) = (normalParts fc shapes).map (ConcretePart.moved mo) := by
    simp only [normalParts, List.map_map]
    rfl
  have hS' : concreteSection (normalParts fc (shapes.map (movedShape mo))) (bars.map (Bar.moved mo)) = S.moved mo := by
    rw [hparts, concreteSection_moved, hS]
  have hfor : ∀ e, (S.moved mo).forces ![e, 0, 0] 0 = S.forces ![e, 0, 0] 0 := by
    intro e
    rw [hS]
    refine uniform_moved mo (fun p hp => ?_) e
    obtain ⟨q, hq, rfl⟩ := List.mem_map.1 hp
    exact henc q hq
  obtain ⟨-, -, -, C', hC', h2⟩ := C92_design_partial hl ccls ca c hc hcn hci hce hcf scls sa s hs hsn hsi hgap heu turned' hms' hms1'
    (mo.inclination th) (shapes.map (movedShape mo)) (bars.map (Bar.moved mo)) id (by
      intro b hb
      obtain ⟨b0, hb0, rfl⟩ := List.mem_map.1 hb
      exact hbars b0 hb0) (by
      intro b hb
      obtain ⟨b0, hb0, rfl⟩ := List.mem_map.1 hb
      exact hA b0 hb0) idc' mesh' hmesh' (by
      intro p hp
      obtain ⟨q, hq, rfl⟩ := List.mem_map.1 hp
      exact encloses_moved mo (henc q hq)) (by
      intro p hp
      obtain ⟨q, hq, rfl⟩ := List.mem_map.1 hp
      have hset : ∀ l : List (ℝ × ℝ), {v | v ∈ l.map mo.point} = mo.point '' {v | v ∈ l} := by
        intro l; ext v; simp
      simp only [movedShape, hset]
      exact (Set.image_mono (hull q hq)).trans (hull_moved mo _)) (by rw [hpts]; exact hg1) (by rw [hpts]; exact hg.moved mo)
    (R := R') (D := D) (by
      intro p hp v hv
      obtain ⟨q, hq, rfl⟩ := List.mem_map.1 hp
      obtain ⟨w, hw, rfl⟩ := List.mem_map.1 hv
      exact hR' q hq w hw) hD0 (by
      obtain ⟨x, hx, p, hp, w, hw, hd⟩ := hD
      refine ⟨_, List.mem_map_of_mem hx, _, List.mem_map_of_mem hp, _, List.mem_map_of_mem hw, ?_⟩
      have e' : height (mo.inclination th) ((x.moved mo).x, (x.moved mo).y) = height (mo.inclination th) (mo.point (x.x, x.y)) := rfl
      rw [e', mo.height_point, mo.height_point]
      linarith) fc hfc δ (by
      rw [hδ, List.map_map, List.map_map]
      congr 4
      exact List.map_congr_left fun p hp => (areaMoment_moved mo (hmeas p hp)).symm) hsmall _ hS'.symm _ rfl
  refine ⟨C ∪ C', hC.union hC', fun n hn hlo hhi => ?_⟩
  have m1 : (δ + 2 * (√ms * weight (normalParts fc shapes) 0)) * 1e-13 ≤ m := by
    rw [hm]
    have := mul_le_mul_of_nonneg_right (le_max_left √ms √ms') hw0
    exact mul_le_mul_of_nonneg_right (by linarith) (by norm_num)
  have m2 : (δ + 2 * (√ms' * weight (normalParts fc (shapes.map (movedShape mo))) 0)) * 1e-13 ≤ m := by
    rw [hm, weight_moved mo hmeas]
    have := mul_le_mul_of_nonneg_right (le_max_right √ms √ms') hw0
    exact mul_le_mul_of_nonneg_right (by linarith) (by norm_num)
  rw [hfor, hfor] at h2
  obtain ⟨b, r, t⟩ := h1 n (fun h => hn (Or.inl h)) (by linarith) (by linarith)
  obtain ⟨b', r', t'⟩ := h2 n (fun h => hn (Or.inr h)) (by linarith) (by linarith)
  refine ⟨b, b', r, r', t, t', ?_⟩
  have key := C93_moved mo (by rw [normalMeshed_part, normalMeshed_part, hparts]) hb1 (R' := R') (by
    intro q hq v hv
    obtain ⟨p, hp, rfl⟩ := List.mem_map.1 hq
    exact hR' p hp v hv) r r'
  rw [normalMeshed_part, normalMeshed_part] at key
  refine key.trans (add_le_add_left (mul_le_mul_of_nonneg_left ?_ ?_) _)
  · have : b'.n - b.n = (b'.n - n) - (b.n - n) := by ring
    rw [this]
    refine (abs_sub _ _).trans ((add_le_add t' t).trans (by norm_num))
  · obtain ⟨-, -, p, hp, w, hw, -⟩ := hD
    exact (abs_nonneg _).trans (hR' p hp w hw)

end SC
