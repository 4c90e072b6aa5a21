import Verif.Props.LoadSlope
import Verif.Props.AddedDesign
import Verif.Props.OrdinaryExample
import Verif.Props.AddedExample

/-! # C81 from the arguments of the material constructors -/

set_option autoImplicit false

namespace SC

open Spec MeasureTheory

variable {lower : String → String}

/-- **C81** (design, partial: the loads of C73). For a section of normal strength concrete with bars of one perfectly plastic steel,
between the heights `lo` and `hi`: raising the axial load from `n` to `n'` (less compression, or more tension) changes the bending
strength by at least `-hi * (n' - n)` and at most `-lo * (n' - n)`, up to the tolerances of the two searches, whatever calls come before
either of the two calculations. -/
theorem C81_design_partial (hl : PyLower lower) (ccls : ConcClass) (ca : ConcArgs) (c : Built Conc)
    (hc : newConcrete lower ccls ca = some (.ok c)) (hcn : ca.law = .name "parabolarectangle")
    (hci : ca.initialStrain = none ∧ ca.initialStress = none) (hce : ca.eps_c2 = none ∧ ca.eps_cu2 = none ∧ ca.n = none)
    (hcf : ccls ≠ .ec2_2023 → |ca.fck| ≤ 50)
    (scls : SteelClass) (sa : SteelArgs) (s : Built Steel)
    (hs : newSteel lower scls sa = some (.ok s)) (hsn : sa.law = .name "elasticperfectlyplastic")
    (hsi : sa.initialStrain = none ∧ sa.initialStress = none)
    (hgap : designYield sa + 1e-6 + 1e-5 * designUltimate scls sa ≤ designUltimate scls sa)
    (heu : 0.0035 ≤ designUltimate scls sa ∧ designUltimate scls sa ≤ 0.09)
    (split : Polygon → ℝ → ℝ → ShapelyResult) (ms th : ℝ) (lu : Matrix (Fin 3) (Fin 3) ℝ → (Fin 3 → ℝ) → (Fin 3 → ℝ))
    (shapes : List (Polygon × Set (ℝ × ℝ))) (bars : List Bar) (id : ℕ) (hbars : ∀ b ∈ bars, b.law = ⟨id, s.mat.law⟩)
    (hA : ∀ b ∈ bars, 0 ≤ b.area)
    (henc : ∀ p ∈ shapes, Encloses p.1.ext p.1.ints p.2) (hull : ∀ p ∈ shapes, p.2 ⊆ convexHull ℝ {v | v ∈ p.1.ext})
    (hsplit : ∀ p ∈ shapes,
      SplitsExactly split ((p.1.rotate (-th)).rotate (-Real.pi)) (rotPt (-Real.pi) '' (rotPt (-th) '' p.2)))
    {H H0 lo hi R : ℝ} (hg0 : RCGeometry 0 shapes (bars.map fun b => (b.x, b.y)) H0)
    (hg : RCGeometry th shapes (bars.map fun b => (b.x, b.y)) H)
    (hrange : ∀ p ∈ shapes, ∀ v ∈ p.1.ext, lo ≤ height th v ∧ height th v ≤ hi) (hR : |lo| ≤ R ∧ |hi| ≤ R)
    (fc : ℝ) (hfc : fc = designConcrete ccls ca) (δ : ℝ)
    (hδ : δ = (2 * |fc| / 0.002 * (shapes.map fun p => areaMoment 0 0 p.2).sum + |sa.Es| * (bars.map fun b => |b.area|).sum) * H)
    (hsmall : δ ≤ 1e22) (S : CrossSection) (hS : S = concreteSection (normalParts fc shapes) bars)
    (E : Engine) (hE : E = sectionEngine split ((normalParts fc shapes).map ConcretePart.solid) bars ms) :
    (∀ p ∈ normalParts fc shapes, p.law.law = c.mat.law) ∧
    ∃ C : Set ℝ, C.Countable ∧ ∀ (n n' : ℝ) (ops ops' : List Op), n ∉ C → n' ∉ C → Undisturbed E lu ops .fresh →
      Undisturbed E lu ops' .fresh → S.forces ![-0.0035, 0, 0] 0 + δ * 1e-13 < n → n ≤ n' →
      n' < S.forces ![designUltimate scls sa, 0, 0] 0 - δ * 1e-13 →
        ∃ b b' : BendingResult, (bendingStrength E th n (history E lu ops .fresh)).2 = .ok b ∧
          (bendingStrength E th n' (history E lu ops' .fresh)).2 = .ok b' ∧
          bendingMoment th ![b.n, b.m.1, b.m.2] - hi * (n' - n) - R * 6e-2 ≤ bendingMoment th ![b'.n, b'.m.1, b'.m.2] ∧
          bendingMoment th ![b'.n, b'.m.1, b'.m.2] ≤ bendingMoment th ![b.n, b.m.1, b.m.2] - lo * (n' - n) + R * 6e-2 := by
  obtain ⟨hult, hst, -⟩ := C73_steel hl scls sa s hs hsn hsi.1 hsi.2 hgap
  obtain ⟨hpl, C, hC, hmain⟩ := C73_design_partial hl ccls ca c hc hcn hci hce hcf scls sa s hs hsn hsi hgap heu split ms th lu shapes bars
    id hbars henc hull hsplit hg0 hg fc hfc δ hδ hsmall S hS E hE
  refine ⟨hpl, C, hC, fun n n' ops ops' hn hn' hops hops' r1 hnn r2 => ?_⟩
  obtain ⟨b, hb, -, -, -, -, htol⟩ := (hmain n ops hops).2 r1 (lt_of_le_of_lt hnn r2)
  obtain ⟨b', hb', -, -, -, -, htol'⟩ := (hmain n' ops' hops').2 (lt_of_lt_of_le r1 hnn) r2
  refine ⟨b, b', hb, hb', ?_⟩
  have t1 := htol hn
  have t2 := htol' hn'
  have hok : ∀ p ∈ normalParts fc shapes, p.Ok split th := by
    intro p hp
    obtain ⟨q, hq, rfl⟩ := List.mem_map.1 hp
    exact ⟨henc q hq, hull q hq, hsplit q hq, by norm_num, by norm_num [abs_of_pos]⟩
  have hmono : ∀ b ∈ bars, MonotoneOn b.law.law.stress (Set.Icc (b.law.law.ult false).1 (b.law.law.ult false).2) := by
    intro b hb
    rw [hbars b hb]
    intro x hx y hy hxy
    simp only [hult] at hx hy
    rw [hst x (abs_le.2 hx), hst y (abs_le.2 hy)]
    exact mul_le_mul_of_nonneg_left (max_le_max_left _ (min_le_min_right _ hxy)) (abs_nonneg _)
  have hRC := hg.ordinary (fc := fc) (L := ⟨id, s.mat.law⟩) hbars hult heu.1 heu.2
  have hpr : ∀ p ∈ normalParts fc shapes, ∀ v ∈ p.polygon.ext, lo ≤ height th v ∧ height th v ≤ hi := by
    intro p hp
    obtain ⟨q, hq, rfl⟩ := List.mem_map.1 hp
    exact hrange q hq
  rw [hE] at hb hb' hops hops'
  have k1 := C81_load hRC hok (single_ids hbars) (single_sizes hbars) hA hmono hpr n n' ops ops' b b' hops hb hops' hb'
  have k2 := C81_load hRC hok (single_ids hbars) (single_sizes hbars) hA hmono hpr n' n ops' ops b' b hops' hb' hops hb
  generalize bendingMoment th ![b.n, b.m.1, b.m.2] = M at k1 k2 ⊢
  generalize bendingMoment th ![b'.n, b'.m.1, b'.m.2] = M' at k1 k2 ⊢
  obtain ⟨u1, u2⟩ := abs_le.1 t1
  obtain ⟨w1, w2⟩ := abs_le.1 t2
  obtain ⟨l1, l2⟩ := abs_le.1 hR.1
  obtain ⟨i1, i2⟩ := abs_le.1 hR.2
  have hR0 : 0 ≤ R := (abs_nonneg _).trans hR.1
  have prod : ∀ a x t : ℝ, |a| ≤ R → |x| ≤ t → |a * x| ≤ R * t := fun a x t h1 h2 => by
    rw [abs_mul]; exact mul_le_mul h1 h2 (abs_nonneg _) hR0
  rcases le_total b.n b'.n with hle | hle
  · obtain ⟨q1, q2⟩ := k1 hle
    have a1 := abs_le.1 (prod lo (b.n - n) _ hR.1 t1)
    have a2 := abs_le.1 (prod lo (b'.n - n') _ hR.1 t2)
    have a3 := abs_le.1 (prod hi (b.n - n) _ hR.2 t1)
    have a4 := abs_le.1 (prod hi (b'.n - n') _ hR.2 t2)
    constructor <;> norm_num at * <;> linarith
  · obtain ⟨q1, q2⟩ := k2 hle
    have d1 : |b.n - b'.n| ≤ 2e-2 := by
      rw [abs_of_nonneg (by linarith)]; norm_num at *; linarith
    have d2 : |n' - n| ≤ 2e-2 := by
      rw [abs_of_nonneg (by linarith)]; norm_num at *; linarith
    have a1 := abs_le.1 (prod lo (b.n - b'.n) _ hR.1 d1)
    have a2 := abs_le.1 (prod hi (b.n - b'.n) _ hR.2 d1)
    have a3 := abs_le.1 (prod lo (n' - n) _ hR.1 d2)
    have a4 := abs_le.1 (prod hi (n' - n) _ hR.2 d2)
    constructor <;> norm_num at * <;> linarith

namespace OrdinaryBeam

/-- The hypotheses of `C81_design_partial` hold together: from an axial load between 0.25 N and 0.75 N to a load between 1 N and 1.5 N of
tension, the bending strength of the beam changes by at most 250 mm times the change of the load, up to 15 N mm. -/
example (hl : PyLower lower) (ccls : ConcClass) (scls : SteelClass) (lu : Matrix (Fin 3) (Fin 3) ℝ → (Fin 3 → ℝ) → (Fin 3 → ℝ)) :
    ∃ c s, newConcrete lower ccls (defaultArgs 30) = some (.ok c) ∧ newSteel lower scls sargs = some (.ok s) ∧
    ∀ E, E = sectionEngine RCBeam.split
        ((normalParts (designConcrete ccls (defaultArgs 30)) shapes).map ConcretePart.solid) (bars s.mat.law) 0.01 →
    ∃ n ∈ Set.Ioc (0.25:ℝ) 0.75, ∃ n' ∈ Set.Ioc (1:ℝ) 1.5, ∃ b b' : BendingResult,
      (bendingStrength E 0 n (history E lu [] .fresh)).2 = .ok b ∧ (bendingStrength E 0 n' (history E lu [] .fresh)).2 = .ok b' ∧
      |-b'.m.1 - -b.m.1| ≤ 250 * (n' - n) + 15 := by
  obtain ⟨c, s, hc, hs⟩ := accepted hl ccls scls
  refine ⟨c, s, hc, hs, fun E hE => ?_⟩
  have hu := ultimate_range scls
  have hall : ∀ b ∈ bars s.mat.law, b.law = ⟨1, s.mat.law⟩ ∧ b.area = 500 := by
    intro b hb
    simp only [bars, bar, List.mem_cons, List.not_mem_nil, or_false] at hb
    rcases hb with rfl | rfl | rfl | rfl <;> exact ⟨rfl, rfl⟩
  obtain ⟨a1, a2, a3⟩ := margins_bars hl ccls scls s hs (bars s.mat.law) hall (by simp [bars]) (by simp [bars])
  set fc := designConcrete ccls (defaultArgs 30) with hfc
  obtain ⟨-, C, hC, hmain⟩ := C81_design_partial hl ccls (defaultArgs 30) c hc rfl ⟨rfl, rfl⟩ ⟨rfl, rfl, rfl⟩
    (fun _ => by norm_num [defaultArgs, abs_of_pos]) scls sargs s hs rfl ⟨rfl, rfl⟩ (gap scls) ⟨by linarith [hu.1], by linarith [hu.2]⟩
    RCBeam.split 0.01 0 lu shapes (bars s.mat.law) 1 (fun b hb => (hall b hb).1) (fun b hb => by rw [(hall b hb).2]; norm_num)
    (by intro p hp; rw [List.mem_singleton.1 hp]; exact RCBeam.ok.encloses)
    (by intro p hp; rw [List.mem_singleton.1 hp]; exact hull)
    (by intro p hp; rw [List.mem_singleton.1 hp]; exact RCBeam.ok.splits)
    (geometry _) (geometry _) (lo := -250) (hi := 250) (R := 250) (by
      intro p hp v hv
      rw [List.mem_singleton.1 hp] at hv
      rw [RCBeam.height_zero]
      rcases mem_ring hv with rfl | rfl | rfl | rfl <;> norm_num) (by norm_num) fc hfc _ rfl (a1.trans (by norm_num)) _ rfl E hE
  have pick : ∀ a : ℝ, ∃ n ∈ Set.Ioc a (a + 0.5), n ∉ C := by
    intro a
    obtain ⟨n, hn, hnC⟩ : (Set.Ioc a (a + 0.5) \ C).Nonempty := by
      have hnc : ¬ (Set.Ioc a (a + 0.5)).Countable := fun h => by
        have := h.measure_zero volume
        rw [Real.volume_Ioc] at this
        norm_num at this
      by_contra hcon
      rw [Set.not_nonempty_iff_eq_empty, Set.sdiff_eq_empty] at hcon
      exact hnc (hC.mono hcon)
    exact ⟨n, hn, hnC⟩
  obtain ⟨n, hn, hnC⟩ := pick 0.25
  obtain ⟨n', hn', hnC'⟩ := pick 1
  norm_num at hn hn'
  obtain ⟨b, b', h1, h2, h3, h4⟩ := hmain n n' [] [] hnC hnC' trivial trivial (by norm_num at *; linarith) (by linarith) (by norm_num at *; linarith)
  refine ⟨n, by norm_num; exact hn, n', by norm_num; exact hn', b, b', h1, h2, ?_⟩
  simp only [bendingMoment, Real.cos_zero, Real.sin_zero, Matrix.cons_val, mul_one, mul_zero, add_zero] at h3 h4
  norm_num at h3 h4
  rw [abs_le]
  constructor <;> linarith

end OrdinaryBeam

end SC
