import Verif.Props.FiberMotionDesign
import Verif.Props.ScalingDesign

/-! # C93: scaled sections, for the constructors of the library -/

set_option autoImplicit false

namespace SC

open Spec MeasureTheory MeshedConcrete

variable {lower : String → String}

theorem RCGeometry.scaled {th H : ℝ} {shapes : List (Polygon × Set (ℝ × ℝ))} {pts : List (ℝ × ℝ)} (h : RCGeometry th shapes pts H)
    (s : Scale) (hH : 1e-3 ≤ s.len * H ∧ s.len * H ≤ 1e9) : RCGeometry th (shapes.map (scaledShape s)) (pts.map s.point) (s.len * H) := by
  have hl := s.len_pos
  have hset : ∀ l : List (ℝ × ℝ), {v | v ∈ l.map s.point} = s.point '' {v | v ∈ l} := by
    intro l; ext v; simp
  refine ⟨?_, ?_, hH, ?_⟩
  · intro b hb
    obtain ⟨x, hx, rfl⟩ := List.mem_map.1 hb
    obtain ⟨p, hp, hin⟩ := h.inside x hx
    refine ⟨_, List.mem_map_of_mem hp, ?_⟩
    simp only [scaledShape]
    rw [hset, ← scale_hull]
    exact ⟨_, hin, rfl⟩
  · intro p hp v hv q hq w hw
    obtain ⟨p0, hp0, rfl⟩ := List.mem_map.1 hp
    obtain ⟨q0, hq0, rfl⟩ := List.mem_map.1 hq
    obtain ⟨v0, hv0, rfl⟩ := List.mem_map.1 hv
    obtain ⟨w0, hw0, rfl⟩ := List.mem_map.1 hw
    rw [s.height_point, s.height_point, ← mul_sub]
    exact mul_le_mul_of_nonneg_left (h.span p0 hp0 v0 hv0 q0 hq0 w0 hw0) hl.le
  · obtain ⟨x, hx, p, hp, v, hv, hd⟩ := h.depth
    refine ⟨_, List.mem_map_of_mem hx, _, List.mem_map_of_mem hp, _, List.mem_map_of_mem hv, ?_⟩
    rw [s.height_point, s.height_point, ← mul_sub]
    have := mul_le_mul_of_nonneg_left hd hl.le
    linarith

set_option maxHeartbeats 1000000 in
/-- **C93** (scaled sections of the library, partial: the loads of C73). For normal strength concrete and bars of one perfectly plastic
steel, all lengths multiplied by `sc.len` and bar areas by its square: for all loads between the limit loads of the section (up to a
margin, and except countably many loads) the fibre integrator answers for the section and, under the scaled load, for the scaled
section; the second strength is the first times the cube of the factor, up to the error of the two meshes and the tolerance of the
equilibrium. The meshes need not correspond. -/
theorem C93_scaled_design_partial (hl : PyLower lower) (ccls : ConcClass) (ca : ConcArgs) (c : Built Conc)
    (hc : newConcrete lower ccls ca = some (.ok c)) (hcn : ca.law = .name "parabolarectangle")
    (hci : ca.initialStrain = none ∧ ca.initialStress = none) (hce : ca.eps_c2 = none ∧ ca.eps_cu2 = none ∧ ca.n = none)
    (hcf : ccls ≠ .ec2_2023 → |ca.fck| ≤ 50)
    (scls : SteelClass) (sa : SteelArgs) (s : Built Steel)
    (hs : newSteel lower scls sa = some (.ok s)) (hsn : sa.law = .name "elasticperfectlyplastic")
    (hsi : sa.initialStrain = none ∧ sa.initialStress = none)
    (hgap : designYield sa + 1e-6 + 1e-5 * designUltimate scls sa ≤ designUltimate scls sa)
    (heu : 0.0035 ≤ designUltimate scls sa ∧ designUltimate scls sa ≤ 0.09)
    (turned turned' : ℝ → List MeshSurf) {ms ms' : ℝ} (hms : 0 < ms) (hms1 : ms ≤ 1) (hms' : 0 < ms') (hms1' : ms' ≤ 1) (th : ℝ)
    (shapes : List (Polygon × Set (ℝ × ℝ))) (bars : List Bar) (id : ℕ) (hbars : ∀ b ∈ bars, b.law = ⟨id, s.mat.law⟩)
    (hA : ∀ b ∈ bars, 0 ≤ b.area) (idc idc' : ℕ) (mesh mesh' : Polygon × Set (ℝ × ℝ) → ℝ → List ((ℝ × ℝ) × (ℝ × ℝ) × (ℝ × ℝ)))
    (sc : Scale) (hsc : sc.stress = 1)
    (hmesh : ∀ p ∈ shapes, Triangulates (mesh p (areaMoment 0 0 p.2 * ms)) p.2 ∧
      Quality (areaMoment 0 0 p.2 * ms) (mesh p (areaMoment 0 0 p.2 * ms)))
    (hmesh' : ∀ p ∈ shapes.map (scaledShape sc), Triangulates (mesh' p (areaMoment 0 0 p.2 * ms')) p.2 ∧
      Quality (areaMoment 0 0 p.2 * ms') (mesh' p (areaMoment 0 0 p.2 * ms')))
    (henc : ∀ p ∈ shapes, Encloses p.1.ext p.1.ints p.2) (hull : ∀ p ∈ shapes, p.2 ⊆ convexHull ℝ {v | v ∈ p.1.ext})
    {H H0 R D : ℝ} (hg0 : RCGeometry 0 shapes (bars.map fun b => (b.x, b.y)) H0)
    (hg : RCGeometry th shapes (bars.map fun b => (b.x, b.y)) H)
    (hH0 : 1e-3 ≤ sc.len * H0 ∧ sc.len * H0 ≤ 1e9) (hH : 1e-3 ≤ sc.len * H ∧ sc.len * H ≤ 1e9)
    (hR : ∀ p ∈ shapes, ∀ v ∈ p.1.ext, |height th v| ≤ R)
    (hD0 : 0 < D) (hD : ∃ b ∈ bars, ∃ p ∈ shapes, ∃ w ∈ p.1.ext, D ≤ height th w - height th (b.x, b.y))
    (fc : ℝ) (hfc : fc = designConcrete ccls ca) (δ : ℝ)
    (hδ : δ = max (2 * |fc| / 0.002) |sa.Es| * ((shapes.map fun p => areaMoment 0 0 p.2).sum + (bars.map fun b => |b.area|).sum) * H)
    (hsmall : δ ≤ 1e22) (hsmall' : sc.len ^ 3 * δ ≤ 1e22) (S : CrossSection) (hS : S = concreteSection (normalParts fc shapes) bars)
    (m : ℝ) (hm : (δ + 2 * (√ms * weight (normalParts fc shapes) 0)) * 1e-13 ≤ m)
    (hm' : (sc.len ^ 3 * δ + 2 * (√ms' * weight (normalParts fc (shapes.map (scaledShape sc))) 0)) * 1e-13 ≤ sc.len ^ 2 * m) :
    ∃ C : Set ℝ, C.Countable ∧ ∀ n ∉ C,
      S.forces ![-0.0035, 0, 0] 0 + m < n → n < S.forces ![designUltimate scls sa, 0, 0] 0 - m →
        ∃ b b' : BendingResult, FibreResult turned (normalMeshed fc shapes idc mesh) bars ms th n b ∧
          FibreResult turned' (normalMeshed fc (shapes.map (scaledShape sc)) idc' mesh')
            (bars.map fun b => ⟨sc.len * b.x, sc.len * b.y, sc.len ^ 2 * b.area, b.law⟩) ms' th (sc.len ^ 2 * n) b' ∧
          |b.n - n| ≤ 1e-2 ∧ |b'.n - sc.len ^ 2 * n| ≤ 1e-2 ∧
          |bendingMoment th ![b'.n, b'.m.1, b'.m.2] - sc.len ^ 3 * bendingMoment th ![b.n, b.m.1, b.m.2]| ≤
            sc.len * R * ((1 + sc.len ^ 2) * 1e-2) +
            (sc.len ^ 3 * (momentWeight (normalParts fc shapes) th 0.0035 (designUltimate scls sa) D R * √ms) +
              momentWeight (normalParts fc (shapes.map (scaledShape sc))) th 0.0035 (designUltimate scls sa) (sc.len * D) (sc.len * R) *
                √ms') := by
  have hlen := sc.len_pos
  have hpts : (bars.map (Bar.scaled sc)).map (fun b => (b.x, b.y)) = (bars.map fun b => (b.x, b.y)).map sc.point := by
    rw [List.map_map, List.map_map]
    rfl
  have hbs : (bars.map fun b => (⟨sc.len * b.x, sc.len * b.y, sc.len ^ 2 * b.area, b.law⟩ : Bar)) = bars.map (Bar.scaled sc) := rfl
  have hbars' : ∀ b ∈ bars.map (Bar.scaled sc), b.law = ⟨id, s.mat.law⟩ := by
    intro b hb
    obtain ⟨b0, hb0, rfl⟩ := List.mem_map.1 hb
    exact hbars b0 hb0
  have hb : List.Forall₂ (Bar.ScaledTo sc) bars (bars.map (Bar.scaled sc)) := by
    rw [List.forall₂_map_right_iff, List.forall₂_same]
    exact fun b _ => ⟨rfl, rfl, rfl, fun e => by rw [hsc, one_mul]; rfl, rfl⟩
  have hparts : normalParts fc (shapes.map (scaledShape sc)) = (normalParts fc shapes).map (ConcretePart.scaled sc) := by
    simp only [normalParts, List.map_map]
    refine List.map_congr_left fun p _ => ?_
    simp only [Function.comp_apply, ConcretePart.scaled, scaledShape, hsc, one_mul]
  obtain ⟨-, hb1, -, C, hC, h1⟩ := C92_design_partial hl ccls ca c hc hcn hci hce hcf scls sa s hs hsn hsi hgap heu turned hms hms1 th shapes
    bars id hbars hA idc mesh hmesh henc hull hg0 hg hR hD0 hD fc hfc δ hδ hsmall S hS _ rfl
  have hS' : concreteSection (normalParts fc (shapes.map (scaledShape sc))) (bars.map (Bar.scaled sc)) = S.scaled sc := by
    rw [hparts, concreteSection_scaled sc _ hb, hS]
  have hfor : ∀ u : ℝ, (S.scaled sc).forces ![u, 0, 0] 0 = sc.len ^ 2 * S.forces ![u, 0, 0] 0 := by
    intro u
    have e : (![u, 0, 0] : Fin 3 → ℝ) = sc.plane ![u, 0, 0] := by simp [Scale.plane]
    conv_lhs => rw [e, scaled_forces]
    simp [Scale.forces, hsc]
  obtain ⟨-, -, -, C', hC', h2⟩ := C92_design_partial hl ccls ca c hc hcn hci hce hcf scls sa s hs hsn hsi hgap heu turned' hms' hms1'
    th (shapes.map (scaledShape sc)) (bars.map (Bar.scaled sc)) id hbars' (by
      intro b hb
      obtain ⟨b0, hb0, rfl⟩ := List.mem_map.1 hb
      exact mul_nonneg (sq_nonneg _) (hA b0 hb0)) idc' mesh' hmesh' (by
      intro p hp
      obtain ⟨q, hq, rfl⟩ := List.mem_map.1 hp
      exact encloses_scaled sc (henc q hq)) (by
      intro p hp
      obtain ⟨q, hq, rfl⟩ := List.mem_map.1 hp
      have hset : ∀ l : List (ℝ × ℝ), {v | v ∈ l.map sc.point} = sc.point '' {v | v ∈ l} := by
        intro l; ext v; simp
      simp only [scaledShape, hset]
      exact (Set.image_mono (hull q hq)).trans (scale_hull sc _).le) (H := sc.len * H) (H0 := sc.len * H0)
    (by rw [hpts]; exact hg0.scaled sc hH0) (by rw [hpts]; exact hg.scaled sc hH)
    (R := sc.len * R) (D := sc.len * D) (by
      intro p hp v hv
      obtain ⟨q, hq, rfl⟩ := List.mem_map.1 hp
      obtain ⟨w, hw, rfl⟩ := List.mem_map.1 hv
      rw [sc.height_point, abs_mul, abs_of_pos hlen]
      exact mul_le_mul_of_nonneg_left (hR q hq w hw) hlen.le) (mul_pos hlen hD0) (by
      obtain ⟨x, hx, p, hp, w, hw, hd⟩ := hD
      refine ⟨_, List.mem_map_of_mem hx, _, List.mem_map_of_mem hp, _, List.mem_map_of_mem hw, ?_⟩
      have e' : height th ((x.scaled sc).x, (x.scaled sc).y) = height th (sc.point (x.x, x.y)) := rfl
      rw [e', sc.height_point, sc.height_point, ← mul_sub]
      exact mul_le_mul_of_nonneg_left hd hlen.le) fc hfc (sc.len ^ 3 * δ) (by
      have e1 : ((shapes.map (scaledShape sc)).map fun p => areaMoment 0 0 p.2).sum =
          sc.len ^ 2 * (shapes.map fun p => areaMoment 0 0 p.2).sum := by
        rw [List.map_map, ← List.sum_map_mul_left]
        congr 1
        refine List.map_congr_left fun p _ => ?_
        simp only [Function.comp_apply, scaledShape, areaMoment_scaled]
      have e2 : ((bars.map (Bar.scaled sc)).map fun b => |b.area|).sum = sc.len ^ 2 * (bars.map fun b => |b.area|).sum := by
        rw [List.map_map, ← List.sum_map_mul_left]
        congr 1
        refine List.map_congr_left fun b _ => ?_
        simp only [Function.comp_apply, Bar.scaled, abs_mul, abs_of_pos (pow_pos hlen 2)]
      rw [hδ, e1, e2]
      ring) hsmall' _ hS'.symm _ rfl
  have hl2 : 0 < sc.len ^ 2 := pow_pos hlen 2
  refine ⟨C ∪ (fun n => sc.len ^ 2 * n) ⁻¹' C', hC.union (hC'.preimage (mul_right_injective₀ hl2.ne')), fun n hn hlo hhi => ?_⟩
  rw [hfor, hfor] at h2
  have e1 := mul_lt_mul_of_pos_left hlo hl2
  have e2 := mul_lt_mul_of_pos_left hhi hl2
  rw [mul_add] at e1
  rw [mul_sub] at e2
  obtain ⟨b, r, t⟩ := h1 n (fun h => hn (Or.inl h)) (by linarith) (by linarith)
  obtain ⟨b', r', t'⟩ := h2 (sc.len ^ 2 * n) (fun h => hn (Or.inr h)) (by linarith) (by linarith)
  refine ⟨b, b', r, r', t, t', ?_⟩
  have key := C93_scaled sc (by rw [normalMeshed_part, normalMeshed_part, hparts]) hb (single_ids hbars') hH hb1 r r'
  rw [normalMeshed_part, normalMeshed_part, hsc, one_mul, one_mul] at key
  refine key.trans (add_le_add_left (mul_le_mul_of_nonneg_left ?_ ?_) _)
  · have e : b'.n - sc.len ^ 2 * b.n = (b'.n - sc.len ^ 2 * n) - sc.len ^ 2 * (b.n - n) := by ring
    rw [e]
    refine (abs_sub _ _).trans ?_
    rw [abs_mul, abs_of_pos hl2, add_mul, one_mul]
    exact add_le_add t' (mul_le_mul_of_nonneg_left t hl2.le)
  · obtain ⟨-, -, p, hp, w, hw, -⟩ := hD
    exact mul_nonneg hlen.le ((abs_nonneg _).trans (hR p hp w hw))

end SC
