import Verif.Props.FiberCompare
import Verif.Props.FiberDesignExample

/-! # C92 for the constructors of the library, and examples -/

set_option autoImplicit false

namespace SC

open Spec MeasureTheory MeshedConcrete

variable {lower : String → String}

set_option maxHeartbeats 1000000 in
/-- **C92** (design, partial: the loads of C73). For normal strength concrete and bars of one perfectly plastic steel the sections
compared are as `MeshedBeam` asks, and for every axial load between the limit loads (up to a margin, and except countably many loads)
there is a result, in equilibrium with the load up to the tolerance. -/
theorem C92_design_partial (hl : PyLower lower) (ccls : ConcClass) (ca : ConcArgs) (c : Built Conc)
    (hc : newConcrete lower ccls ca = some (.ok c)) (hcn : ca.law = .name "parabolarectangle")
    (hci : ca.initialStrain = none ∧ ca.initialStress = none) (hce : ca.eps_c2 = none ∧ ca.eps_cu2 = none ∧ ca.n = none)
    (hcf : ccls ≠ .ec2_2023 → |ca.fck| ≤ 50)
    (scls : SteelClass) (sa : SteelArgs) (s : Built Steel)
    (hs : newSteel lower scls sa = some (.ok s)) (hsn : sa.law = .name "elasticperfectlyplastic")
    (hsi : sa.initialStrain = none ∧ sa.initialStress = none)
    (hgap : designYield sa + 1e-6 + 1e-5 * designUltimate scls sa ≤ designUltimate scls sa)
    (heu : 0.0035 ≤ designUltimate scls sa ∧ designUltimate scls sa ≤ 0.09)
    (turned : ℝ → List MeshSurf) {ms : ℝ} (hms : 0 < ms) (hms1 : ms ≤ 1) (th : ℝ)
    (shapes : List (Polygon × Set (ℝ × ℝ))) (bars : List Bar) (id : ℕ) (hbars : ∀ b ∈ bars, b.law = ⟨id, s.mat.law⟩)
    (hA : ∀ b ∈ bars, 0 ≤ b.area) (idc : ℕ) (mesh : Polygon × Set (ℝ × ℝ) → ℝ → List ((ℝ × ℝ) × (ℝ × ℝ) × (ℝ × ℝ)))
    (hmesh : ∀ p ∈ shapes, Triangulates (mesh p (areaMoment 0 0 p.2 * ms)) p.2 ∧
      Quality (areaMoment 0 0 p.2 * ms) (mesh p (areaMoment 0 0 p.2 * ms)))
    (henc : ∀ p ∈ shapes, Encloses p.1.ext p.1.ints p.2) (hull : ∀ p ∈ shapes, p.2 ⊆ convexHull ℝ {v | v ∈ p.1.ext})
    {H H0 R D : ℝ} (hg0 : RCGeometry 0 shapes (bars.map fun b => (b.x, b.y)) H0)
    (hg : RCGeometry th shapes (bars.map fun b => (b.x, b.y)) H)
    (hR : ∀ p ∈ shapes, ∀ v ∈ p.1.ext, |height th v| ≤ R)
    (hD0 : 0 < D) (hD : ∃ b ∈ bars, ∃ p ∈ shapes, ∃ w ∈ p.1.ext, D ≤ height th w - height th (b.x, b.y))
    (fc : ℝ) (hfc : fc = designConcrete ccls ca) (δ : ℝ)
    (hδ : δ = max (2 * |fc| / 0.002) |sa.Es| * ((shapes.map fun p => areaMoment 0 0 p.2).sum + (bars.map fun b => |b.area|).sum) * H)
    (hsmall : δ ≤ 1e22) (S : CrossSection) (hS : S = concreteSection (normalParts fc shapes) bars)
    (m : ℝ) (hm : m = (δ + 2 * (√ms * weight (normalParts fc shapes) 0)) * 1e-13) :
    (∀ q ∈ normalMeshed fc shapes idc mesh, q.part.law.law = c.mat.law) ∧
    MeshedBeam (normalMeshed fc shapes idc mesh) bars th 0.0035 (designUltimate scls sa) H D R ∧
    (∀ b ∈ bars, b.law.law.stress 0 = 0) ∧
    ∃ C : Set ℝ, C.Countable ∧ ∀ n ∉ C,
      S.forces ![-0.0035, 0, 0] 0 + m < n → n < S.forces ![designUltimate scls sa, 0, 0] 0 - m →
        ∃ b : BendingResult, FibreResult turned (normalMeshed fc shapes idc mesh) bars ms th n b ∧ |b.n - n| ≤ 1e-2 := by
  have hlaw := C73_concrete hl ccls ca c hc hcn hci.1 hci.2 hce.1 hce.2.1 hce.2.2 hcf
  obtain ⟨hult, hst, hlip⟩ := C73_steel hl scls sa s hs hsn hsi.1 hsi.2 hgap
  set qs := normalMeshed fc shapes idc mesh with hqs
  have hpart : qs.map MeshedConcrete.part = normalParts fc shapes := normalMeshed_part ..
  have hq : ∀ q ∈ qs, ∃ p ∈ shapes, q = ⟨⟨p.1, p.2, fc, 0.002, 0.0035⟩, idc, mesh p⟩ := by
    intro q hq
    obtain ⟨p, hp, rfl⟩ := List.mem_map.1 hq
    exact ⟨p, hp, rfl⟩
  have hsound : ∀ q ∈ qs, q.part.Sound := by
    intro q hq'
    obtain ⟨p, hp, rfl⟩ := hq q hq'
    exact ⟨henc p hp, hull p hp, by norm_num, by norm_num [abs_of_pos]⟩
  have hfine : ∀ q ∈ qs, q.Fine ms := by
    intro q hq'
    obtain ⟨p, hp, rfl⟩ := hq q hq'
    exact ⟨(hmesh p hp).1, (hmesh p hp).2⟩
  have hmono : ∀ b ∈ bars, MonotoneOn b.law.law.stress (Set.Icc (b.law.law.ult false).1 (b.law.law.ult false).2) := by
    intro b hb
    rw [hbars b hb]
    intro x hx y hy hxy
    simp only [hult] at hx hy
    rw [hst x (abs_le.2 hx), hst y (abs_le.2 hy)]
    exact mul_le_mul_of_nonneg_left (max_le_max_left _ (min_le_min_right _ hxy)) (abs_nonneg _)
  have hzero : ∀ b ∈ bars, b.law.law.stress 0 = 0 := by
    intro b hb
    rw [hbars b hb]
    have hy : 0 ≤ designYield sa := by
      obtain ⟨-, law, hm, hx⟩ := C48_law hl scls sa s _ hs hsn
      simp only [String.reduceEq, false_and, true_and, false_or, or_false] at hx
      obtain ⟨g, -, -⟩ := hx
      simp only [designYield]
      positivity
    rw [hst 0 (by rw [abs_zero]; linarith [heu.1]), min_eq_left hy, max_eq_right (by linarith), mul_zero]
  have hRC := hg.ordinary (fc := fc) (L := ⟨id, s.mat.law⟩) hbars hult heu.1 heu.2
  have hRC0 := hg0.ordinary (fc := fc) (L := ⟨id, s.mat.law⟩) hbars hult heu.1 heu.2
  rw [← hpart] at hRC hRC0
  have hmod : totalModulus (qs.map MeshedConcrete.part) bars (max (2 * |fc| / 0.002) |sa.Es|) * H = δ := by
    rw [hδ, hpart]
    simp only [totalModulus, normalParts, List.map_map, Function.comp_def]
  refine ⟨fun q hq' => ?_, ⟨hRC, hsound, single_ids hbars, hA, hmono, hD0, ?_, ?_⟩, hzero, ?_⟩
  · obtain ⟨p, hp, rfl⟩ := hq q hq'
    rw [hlaw, hfc]
    rfl
  · obtain ⟨x, hx, p, hp, w, hw, hle⟩ := hD
    exact ⟨x, hx, ⟨⟨p.1, p.2, fc, 0.002, 0.0035⟩, idc, mesh p⟩, List.mem_map_of_mem hp, w, hw, hle⟩
  · intro q hq'
    obtain ⟨p, hp, rfl⟩ := hq q hq'
    exact hR p hp
  · obtain ⟨-, C, hC, hmain⟩ := C80_strength_partial turned qs hms hms1 0 hRC0 hRC hsound hfine (single_ids hbars)
      (L := max (2 * |fc| / 0.002) |sa.Es|) ((abs_nonneg sa.Es).trans (le_max_right _ _)) (by
        intro q hq'
        obtain ⟨p, hp, rfl⟩ := hq q hq'
        rw [abs_of_pos (by norm_num : (0:ℝ) < 0.002)]
        exact le_max_left _ _) (by
        intro b hb x hx y hy
        rw [hbars b hb] at hx hy ⊢
        exact (hlip x hx y hy).trans (mul_le_mul_of_nonneg_right (le_max_right _ _) (abs_nonneg _)))
      (by rw [hmod]; exact hsmall) (S := S) (by rw [hS, hpart]) (δ := δ + 2 * (√ms * weight (normalParts fc shapes) 0))
      (by rw [hmod, hpart]) (E := engine turned qs bars ms) rfl
    refine ⟨C, hC, fun n hn hlo hhi => ?_⟩
    obtain ⟨b, hb, htol⟩ := (hmain n [] (Or.inl rfl) trivial).2 (by rw [← hm]; exact hlo) (by rw [← hm]; exact hhi)
    exact ⟨b, ⟨⟨hms, hms1⟩, hfine, 0, [], Or.inl rfl, trivial, hb⟩, htol hn⟩

end SC
