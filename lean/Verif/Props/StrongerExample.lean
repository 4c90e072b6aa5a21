import Verif.Props.StrongerDesign

/-! # C82: a singly reinforced beam of C30 and of C40 -/

set_option autoImplicit false

namespace SC.OrdinaryBeam

open Spec MeasureTheory

variable {lower : String → String}

/-- Four bars in one layer. -/
noncomputable def layer (L : Law) : List Bar := [bar L (-110) (-200), bar L (-40) (-200), bar L 40 (-200), bar L 110 (-200)]

theorem layer_geometry (L : Law) : RCGeometry 0 shapes ((layer L).map fun b => (b.x, b.y)) 500 := by
  refine ⟨?_, (geometry L).span, by norm_num, ?_⟩
  · intro b hb
    refine ⟨_, List.mem_singleton.2 rfl, hull ?_⟩
    simp only [layer, bar, List.map_cons, List.map_nil, List.mem_cons, List.not_mem_nil, or_false] at hb
    rcases hb with rfl | rfl | rfl | rfl <;> constructor <;> constructor <;> norm_num
  · refine ⟨(-110, -200), by simp [layer, bar], _, List.mem_singleton.2 rfl, (150, 250), ?_, ?_⟩
    · simp [rectRing, closeRing]
    · rw [RCBeam.height_zero, RCBeam.height_zero]; norm_num

theorem accepted40 (hl : PyLower lower) (ccls : ConcClass) : ∃ c, newConcrete lower ccls (defaultArgs 40) = some (.ok c) := by
  have hinc : ¬ Inconsistent (defaultArgs 40) := by
    simp [Inconsistent, defaultArgs]
  by_cases h : ccls = .ec2_2023
  · subst h
    exact (C47_accepts_2023 hl (defaultArgs 40) rfl rfl rfl).2 ⟨hinc, by right; left,
      by norm_num [defaultArgs, abs_of_pos], by simp [defaultArgs]⟩
  · exact (C47_accepts hl ccls h (defaultArgs 40) rfl rfl rfl).2 hinc

theorem concrete_range40 (ccls : ConcClass) : designConcrete ccls (defaultArgs 30) ≤ designConcrete ccls (defaultArgs 40) ∧
    designConcrete ccls (defaultArgs 40) ≤ 40 := by
  cases ccls <;> simp only [designConcrete, defaultArgs, factor, Option.getD_none] <;>
    rw [abs_of_pos (by norm_num : (0:ℝ) < 30), abs_of_pos (by norm_num : (0:ℝ) < 40)]
  · norm_num
  · norm_num
  · have h1 : min (((40:ℝ) / 30) ^ ((1:ℝ) / 3)) 1 ≤ 1 := min_le_right _ _
    have h2 : min (((40:ℝ) / 40) ^ ((1:ℝ) / 3)) 1 = 1 := by norm_num
    have h3 : 0 < min (((40:ℝ) / 30) ^ ((1:ℝ) / 3)) 1 := lt_min (by positivity) one_pos
    rw [h2]
    constructor
    · refine div_le_div_of_nonneg_right ?_ (by norm_num)
      nlinarith
    · norm_num

/-- The hypotheses of `C82_design_partial` hold together: the beam with four bars of 500 mm² in one layer, for every combination of
classes, has with C40 at least the strength it has with C30, up to 5 N mm, under some axial load between 1 N and 2 N. -/
example (hl : PyLower lower) (ccls : ConcClass) (scls : SteelClass) (lu : Matrix (Fin 3) (Fin 3) ℝ → (Fin 3 → ℝ) → (Fin 3 → ℝ)) :
    ∃ c c' s, newConcrete lower ccls (defaultArgs 30) = some (.ok c) ∧ newConcrete lower ccls (defaultArgs 40) = some (.ok c') ∧
    newSteel lower scls sargs = some (.ok s) ∧
    ∀ E : ℝ → Engine, (∀ fc, E fc = sectionEngine RCBeam.split
        ((normalParts fc shapes).map ConcretePart.solid) (layer s.mat.law) 0.01) →
    ∃ n ∈ Set.Ioc (1:ℝ) 2, ∃ b b' : BendingResult,
      (bendingStrength (E (designConcrete ccls (defaultArgs 30))) 0 n
        (history (E (designConcrete ccls (defaultArgs 30))) lu [] .fresh)).2 = .ok b ∧
      (bendingStrength (E (designConcrete ccls (defaultArgs 40))) 0 n
        (history (E (designConcrete ccls (defaultArgs 40))) lu [] .fresh)).2 = .ok b' ∧
      -b.m.1 ≤ -b'.m.1 + 5 := by
  obtain ⟨c, s, hc, hs⟩ := accepted hl ccls scls
  obtain ⟨c', hc'⟩ := accepted40 hl ccls
  refine ⟨c, c', s, hc, hc', hs, fun E hE => ?_⟩
  have hu := ultimate_range scls
  have hall : ∀ b ∈ layer s.mat.law, b.law = ⟨1, s.mat.law⟩ ∧ b.area = 500 ∧ b.y = -200 := by
    intro b hb
    simp only [layer, bar, List.mem_cons, List.not_mem_nil, or_false] at hb
    rcases hb with rfl | rfl | rfl | rfl <;> exact ⟨rfl, rfl, rfl⟩
  have r30 := concrete_range ccls
  have r40 := concrete_range40 ccls
  obtain ⟨a1, a2, a3⟩ := margins_strength hl (fc := designConcrete ccls (defaultArgs 30)) ⟨r30.1, by linarith [r30.2]⟩ scls s hs
    (layer s.mat.law) (fun b hb => ⟨(hall b hb).1, (hall b hb).2.1⟩) (by simp [layer]) (by simp [layer])
  obtain ⟨b1, b2, b3⟩ := margins_strength hl (fc := designConcrete ccls (defaultArgs 40)) ⟨by linarith [r30.1, r40.1], r40.2⟩ scls s hs
    (layer s.mat.law) (fun b hb => ⟨(hall b hb).1, (hall b hb).2.1⟩) (by simp [layer]) (by simp [layer])
  set fc := designConcrete ccls (defaultArgs 30) with hfc
  set fc' := designConcrete ccls (defaultArgs 40) with hfc'
  have hf : |fc| ≤ |fc'| := by
    rw [abs_of_pos r30.1, abs_of_pos (by linarith [r30.1, r40.1])]; exact r40.1
  obtain ⟨-, -, C, hC, hmain⟩ := C82_design_partial hl ccls ccls (defaultArgs 30) (defaultArgs 40) c c' hc rfl ⟨rfl, rfl⟩ ⟨rfl, rfl, rfl⟩
    (fun _ => by norm_num [defaultArgs, abs_of_pos]) hc' rfl ⟨rfl, rfl⟩ ⟨rfl, rfl, rfl⟩ (fun _ => by norm_num [defaultArgs, abs_of_pos])
    scls sargs s hs rfl ⟨rfl, rfl⟩ (gap scls) ⟨by linarith [hu.1], by linarith [hu.2]⟩
    RCBeam.split 0.01 0 lu shapes (layer s.mat.law) 1 (fun b hb => (hall b hb).1) (fun b hb => by rw [(hall b hb).2.1]; norm_num)
    (by intro p hp; rw [List.mem_singleton.1 hp]; exact RCBeam.ok.encloses)
    (by intro p hp; rw [List.mem_singleton.1 hp]; exact hull)
    (by intro p hp; rw [List.mem_singleton.1 hp]; exact RCBeam.ok.splits)
    (layer_geometry _) (layer_geometry _)
    (R := 250) (by
      intro p hp v hv
      rw [List.mem_singleton.1 hp] at hv
      rw [RCBeam.height_zero]
      rcases mem_ring hv with rfl | rfl | rfl | rfl <;> norm_num)
    (-200) 250 (by intro b hb; rw [RCBeam.height_zero]; exact (hall b hb).2.2)
    (by
      intro p hp v hv
      rw [List.mem_singleton.1 hp] at hv
      rw [RCBeam.height_zero]
      rcases mem_ring hv with rfl | rfl | rfl | rfl <;> norm_num) (by norm_num) fc fc' hfc hfc' hf _ (fun _ => rfl)
    ⟨a1.trans (by norm_num), b1.trans (by norm_num)⟩ _ (fun _ => rfl) E hE
  obtain ⟨n, hn, hnC⟩ : (Set.Ioc (1:ℝ) 2 \ C).Nonempty := by
    have hnc : ¬ (Set.Ioc (1:ℝ) 2).Countable := fun h => by
      have := h.measure_zero volume
      rw [Real.volume_Ioc] at this
      norm_num at this
    by_contra hcon
    rw [Set.not_nonempty_iff_eq_empty, Set.sdiff_eq_empty] at hcon
    exact hnc (hC.mono hcon)
  obtain ⟨b, b', h1, h2, h3⟩ := hmain n [] [] hnC trivial trivial (by
    intro l hl
    simp only [List.mem_cons, List.not_mem_nil, or_false] at hl
    have := hn.1
    have := hn.2
    rcases hl with rfl | rfl
    · constructor <;> norm_num at * <;> linarith
    · constructor <;> norm_num at * <;> linarith) (by
    have hnon : (concreteSection (normalParts fc shapes) (layer s.mat.law)).forces
        (planeThrough 0 250 (-0.0035) (-(0.0035 / (250 - -200)))) 0 ≤ 0 := by
      obtain ⟨-, hst, -⟩ := C73_steel hl scls sargs s hs rfl rfl rfl (gap scls)
      have hc8 := C08_parabola_rectangle fc 0.002 0.0035 2 (by norm_num [abs_of_pos]) (by norm_num [abs_of_pos]) (by norm_num [abs_of_pos])
        (by norm_num)
      rw [force_split (bars := layer s.mat.law)]
      have e1 : (concreteSection (normalParts fc shapes) []).forces (planeThrough 0 250 (-0.0035) (-(0.0035 / (250 - -200)))) 0 ≤ 0 := by
        simp only [CrossSection.forces, concreteSection, normalParts, shapes, resultants, regionResultants, lever,
          List.map_cons, List.map_nil, List.sum_cons, List.sum_nil, Pi.add_apply, Matrix.cons_val, mul_one, add_zero]
        exact integral_nonpos fun x => (hc8.bounded _).2
      have e2 : ∀ b ∈ layer s.mat.law, b.area * b.law.law.stress
          (planeStrain (planeThrough 0 250 (-0.0035) (-(0.0035 / (250 - -200)))) b.x b.y) ≤ 0 := by
        intro b hb
        rw [(hall b hb).1, (hall b hb).2.1]
        refine mul_nonpos_of_nonneg_of_nonpos (by norm_num) ?_
        have hp := planeThrough_height 0 250 (-0.0035) (-(0.0035 / (250 - -200))) (b.x, b.y)
        rw [RCBeam.height_zero] at hp
        simp only at hp
        rw [hp, (hall b hb).2.2, show (-0.0035 + -(0.0035 / (250 - -200)) * (-200 - 250) : ℝ) = 0 by norm_num,
          hst 0 (by rw [abs_zero]; linarith [hu.1])]
        have hy := yield_range
        rw [min_eq_left (by linarith [hy.1]), max_eq_right (by linarith [hy.1]), mul_zero]
      have e3 : ((layer s.mat.law).map fun b => b.area * b.law.law.stress
          (planeStrain (planeThrough 0 250 (-0.0035) (-(0.0035 / (250 - -200)))) b.x b.y)).sum ≤ 0 := by
        have := List.sum_le_sum (g := fun _ => (0:ℝ)) e2
        simpa using this
      linarith
    have := hn.1
    have : (1e-2:ℝ) < 1 := by norm_num
    linarith)
  refine ⟨n, hn, b, b', h1, h2, ?_⟩
  simp only [bendingMoment, Real.cos_zero, Real.sin_zero, Matrix.cons_val, mul_one, mul_zero, add_zero] at h3
  norm_num at h3
  linarith

end SC.OrdinaryBeam
