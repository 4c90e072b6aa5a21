import Verif.Props.MaximumDomain

/-! # C74 from the arguments of the material constructors -/

set_option autoImplicit false

namespace SC

open Spec MeasureTheory

variable {lower : String → String}

/-- **C74** (design, partial: as `C73_design_partial`). For a section of normal strength concrete with bars of one perfectly plastic
steel, the bending strength under the axial load `n` is, up to `R` times the tolerance of the search, the largest moment of all strain
planes about an axis parallel to that of the calculation which keep all strains within the limits and have the axial force `n`. -/
theorem C74_design_partial (hl : PyLower lower) (ccls : ConcClass) (ca : ConcArgs) (c : Built Conc)
    (hc : newConcrete lower ccls ca = some (.ok c)) (hcn : ca.law = .name "parabolarectangle")
    (hci : ca.initialStrain = none ∧ ca.initialStress = none) (hce : ca.eps_c2 = none ∧ ca.eps_cu2 = none ∧ ca.n = none)
    (hcf : ccls ≠ .ec2_2023 → |ca.fck| ≤ 50)
    (scls : SteelClass) (sa : SteelArgs) (s : Built Steel)
    (hs : newSteel lower scls sa = some (.ok s)) (hsn : sa.law = .name "elasticperfectlyplastic")
    (hsi : sa.initialStrain = none ∧ sa.initialStress = none)
    (hgap : designYield sa + 1e-6 + 1e-5 * designUltimate scls sa ≤ designUltimate scls sa)
    (heu : 0.0035 ≤ designUltimate scls sa ∧ designUltimate scls sa ≤ 0.09)
    (split : Polygon → ℝ → ℝ → ShapelyResult) (ms th : ℝ) (lu : Matrix (Fin 3) (Fin 3) ℝ → (Fin 3 → ℝ) → (Fin 3 → ℝ))
    (shapes : List (Polygon × Set (ℝ × ℝ))) (bars : List Bar) (id : ℕ) (hbars : ∀ b ∈ bars, b.law = ⟨id, s.mat.law⟩)
    (hA : ∀ b ∈ bars, 0 ≤ b.area)
    (henc : ∀ p ∈ shapes, Encloses p.1.ext p.1.ints p.2) (hull : ∀ p ∈ shapes, p.2 ⊆ convexHull ℝ {v | v ∈ p.1.ext})
    (hsplit : ∀ p ∈ shapes,
      SplitsExactly split ((p.1.rotate (-th)).rotate (-Real.pi)) (rotPt (-Real.pi) '' (rotPt (-th) '' p.2)))
    {H H0 R : ℝ} (hg0 : RCGeometry 0 shapes (bars.map fun b => (b.x, b.y)) H0)
    (hg : RCGeometry th shapes (bars.map fun b => (b.x, b.y)) H) (hR : ∀ p ∈ shapes, ∀ v ∈ p.1.ext, |height th v| ≤ R)
    (fc : ℝ) (hfc : fc = designConcrete ccls ca) (δ : ℝ)
    (hδ : δ = (2 * |fc| / 0.002 * (shapes.map fun p => areaMoment 0 0 p.2).sum + |sa.Es| * (bars.map fun b => |b.area|).sum) * H)
    (hsmall : δ ≤ 1e22) (S : CrossSection) (hS : S = concreteSection (normalParts fc shapes) bars)
    (E : Engine) (hE : E = sectionEngine split ((normalParts fc shapes).map ConcretePart.solid) bars ms) :
    (∀ p ∈ normalParts fc shapes, p.law.law = c.mat.law) ∧
    ∃ C : Set ℝ, C.Countable ∧ ∀ (n : ℝ) (ops : List Op), n ∉ C → Undisturbed E lu ops .fresh →
      S.forces ![-0.0035, 0, 0] 0 + δ * 1e-13 < n → n < S.forces ![designUltimate scls sa, 0, 0] 0 - δ * 1e-13 →
        ∃ b : BendingResult, (bendingStrength E th n (history E lu ops .fresh)).2 = .ok b ∧ |b.n - n| ≤ 1e-2 ∧
          (∃ v c, S.Admissible (planeThrough th 0 v c) ∧ S.forces (planeThrough th 0 v c) = ![b.n, b.m.1, b.m.2]) ∧
          ∀ v c, S.Admissible (planeThrough th 0 v c) → S.forces (planeThrough th 0 v c) 0 = n →
            bendingMoment th (S.forces (planeThrough th 0 v c)) ≤ bendingMoment th ![b.n, b.m.1, b.m.2] + R * 1e-2 := by
  have hlaw := C73_concrete hl ccls ca c hc hcn hci.1 hci.2 hce.1 hce.2.1 hce.2.2 hcf
  obtain ⟨hult, hst, hlip⟩ := C73_steel hl scls sa s hs hsn hsi.1 hsi.2 hgap
  refine ⟨?_, ?_⟩
  · intro p hp
    obtain ⟨q, -, rfl⟩ := List.mem_map.1 hp
    rw [hlaw, hfc]
    rfl
  have hr : OrdinaryRC.axialRigidity (normalParts fc shapes) bars |sa.Es| * H = δ := by
    have e1 : (shapes.map fun p => 2 * |fc| / |(0.002:ℝ)| * areaMoment 0 0 p.2).sum =
        2 * |fc| / 0.002 * (shapes.map fun p => areaMoment 0 0 p.2).sum := by
      rw [List.sum_map_mul_left, abs_of_pos (by norm_num : (0:ℝ) < 0.002)]
    have e2 : (bars.map fun b => |sa.Es| * |b.area|).sum = |sa.Es| * (bars.map fun b => |b.area|).sum := List.sum_map_mul_left ..
    rw [hδ, OrdinaryRC.axialRigidity, e2, ← e1]
    simp only [normalParts, List.map_map, Function.comp_def]
  have hok : ∀ p ∈ normalParts fc shapes, p.Ok split th := by
    intro p hp
    obtain ⟨q, hq, rfl⟩ := List.mem_map.1 hp
    exact ⟨henc q hq, hull q hq, hsplit q hq, by norm_num, by norm_num [abs_of_pos]⟩
  have := C74_load_partial split ms lu (hg0.ordinary (fc := fc) hbars hult heu.1 heu.2)
    (hg.ordinary (fc := fc) hbars hult heu.1 heu.2) hok (single_ids hbars) (single_sizes hbars) hA (by
      intro b hb
      rw [hbars b hb]
      intro x hx y hy hxy
      simp only [hult] at hx hy
      rw [hst x (abs_le.2 hx), hst y (abs_le.2 hy)]
      exact mul_le_mul_of_nonneg_left (max_le_max_left _ (min_le_min_right _ hxy)) (abs_nonneg _)) (abs_nonneg sa.Es) (by
      intro b hb
      rw [hbars b hb]
      exact hlip) (by rw [hr]; exact hsmall) (R := R) (by
      intro p hp
      obtain ⟨q, hq, rfl⟩ := List.mem_map.1 hp
      exact hR q hq)
  rw [hr] at this
  rw [hS, hE]
  exact this

end SC
