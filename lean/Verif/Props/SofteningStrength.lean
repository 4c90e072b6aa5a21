import Verif.Props.BilinearStrength

/-! # C86: the strength of sections of concrete that softens -/

set_option autoImplicit false

namespace SC

open Spec MeasureTheory

section Near

variable {shapes : List (Polygon × Set (ℝ × ℝ))} {bars : List Bar} {f g : ℝ → ℝ} {u cf cg δ : ℝ}

/-- If two stresses differ by at most `δ`, the axial forces differ by at most `δ` times the area and the moments by at most `δ` times the
area and the distance of the farthest point. -/
theorem plate_near (mf : Measurable f) (mg : Measurable g) (bf : ∀ e, -cf ≤ f e ∧ f e ≤ 0) (bg : ∀ e, -cg ≤ g e ∧ g e ≤ 0)
    (henc : ∀ p ∈ shapes, Encloses p.1.ext p.1.ints p.2) (hull : ∀ p ∈ shapes, p.2 ⊆ convexHull ℝ {v | v ∈ p.1.ext})
    (hfg : ∀ e, -u ≤ e → |f e - g e| ≤ δ) {e : Fin 3 → ℝ} (ha : (plateSection shapes bars f u).Admissible e) :
    |(plateSection shapes bars f u).forces e 0 - (plateSection shapes bars g u).forces e 0| ≤ δ * grossArea shapes ∧
    ((∀ e, -u ≤ e → g e ≤ f e) → (plateSection shapes bars g u).forces e 0 ≤ (plateSection shapes bars f u).forces e 0) ∧
    ∀ th R, (∀ p ∈ shapes, ∀ x ∈ p.2, |height th x| ≤ R) →
      |bendingMoment th ((plateSection shapes bars f u).forces e) - bendingMoment th ((plateSection shapes bars g u).forces e)| ≤
        R * (δ * grossArea shapes) := by
  set D : (ℝ × ℝ → ℝ) → ℝ := fun w =>
    (shapes.map fun p => ∫ x in p.2, (f (planeStrain e x.1 x.2) - g (planeStrain e x.1 x.2)) * w x).sum with hD
  have hadm : ∀ p ∈ shapes, ∀ x ∈ p.2, -u ≤ planeStrain e x.1 x.2 := by
    intro p hp x hx
    refine (ha.1 ⟨p.2, p.1.ext, f, -u, 100⟩ ?_ x (hull p hp hx)).1
    simp only [plateSection, List.mem_map]
    exact ⟨p, hp, rfl⟩
  have hint : ∀ p ∈ shapes, ∀ w : ℝ × ℝ → ℝ, Continuous w →
      IntegrableOn (fun x => (f (planeStrain e x.1 x.2) - g (planeStrain e x.1 x.2)) * w x) p.2 := by
    intro p hp w hw
    refine ((integrable_law mf bf e (henc p hp).bounded hw).sub (integrable_law mg bg e (henc p hp).bounded hw)).congr
      (Filter.Eventually.of_forall fun x => ?_)
    simp only [Pi.sub_apply]; ring
  have hlev : ∀ i : Fin 3, Continuous fun x : ℝ × ℝ => lever x.1 x.2 i := by
    intro i; fin_cases i <;> simp only [lever] <;> fun_prop
  have hdiff : ∀ i, (plateSection shapes bars f u).forces e i - (plateSection shapes bars g u).forces e i =
      D fun x => lever x.1 x.2 i := by
    intro i
    simp only [CrossSection.forces, plateSection, List.map_map, Function.comp_def, Pi.add_apply, list_sum_apply, regionResultants]
    rw [add_sub_add_right_eq_sub, hD]
    simp only
    rw [show (∀ a b c : ℝ, c + b = a → a - b = c) from fun a b c h => by linarith]
    rw [← List.sum_map_add]
    congr 1
    refine List.map_congr_left fun p hp => ?_
    rw [← integral_add (hint p hp _ (hlev i)) (integrable_law mg bg e (henc p hp).bounded (hlev i))]
    congr 1; funext x; ring
  have harea : ∀ (c : ℝ) (R : Set (ℝ × ℝ)), ∫ _ in R, c = c * areaMoment 0 0 R := by
    intro c R
    simp only [areaMoment, pow_zero, mul_one]
    rw [← integral_const_mul]
    simp
  have h0 := hdiff 0
  have e0 : (fun x : ℝ × ℝ => lever x.1 x.2 0) = fun _ => (1:ℝ) := by funext x; simp [lever]
  rw [e0] at h0
  refine ⟨?_, fun hle => ?_, fun th R hR => ?_⟩
  · rw [h0, hD, grossArea, ← List.sum_map_mul_left]
    have := list_abs_sum_sub shapes (fun p => ∫ x in p.2, (f (planeStrain e x.1 x.2) - g (planeStrain e x.1 x.2)) * 1)
      (fun _ => 0) (fun p => δ * areaMoment 0 0 p.2) (by
        intro p hp
        rw [sub_zero, ← Real.norm_eq_abs, ← harea]
        refine norm_integral_le_of_norm_le (continuous_integrableOn continuous_const (henc p hp).bounded)
          ((ae_restrict_iff' (henc p hp).measurable).2 (Filter.Eventually.of_forall fun x hx => ?_))
        rw [Real.norm_eq_abs, mul_one]
        exact hfg _ (hadm p hp x hx))
    simpa using this
  · have : 0 ≤ D fun _ => 1 := List.sum_nonneg fun y hy => by
      obtain ⟨p, hp, rfl⟩ := List.mem_map.1 hy
      refine setIntegral_nonneg (henc p hp).measurable fun x hx => ?_
      rw [mul_one]; exact sub_nonneg.2 (hle _ (hadm p hp x hx))
    linarith
  · have hmom : bendingMoment th ((plateSection shapes bars f u).forces e) - bendingMoment th ((plateSection shapes bars g u).forces e) =
        -D fun x => height th x := by
      have e1 : (D fun x => height th x) = Real.cos th * (D fun x => lever x.1 x.2 1) + Real.sin th * D fun x => lever x.1 x.2 2 := by
        simp only [hD]
        rw [← List.sum_map_mul_left, ← List.sum_map_mul_left, ← List.sum_map_add]
        congr 1
        refine List.map_congr_left fun p hp => ?_
        rw [← integral_const_mul, ← integral_const_mul, ← integral_add ((hint p hp _ (hlev 1)).const_mul _)
          ((hint p hp _ (hlev 2)).const_mul _)]
        congr 1; funext x
        simp only [height, lever, Matrix.cons_val]; ring
      rw [e1, ← hdiff, ← hdiff]
      simp only [bendingMoment]; ring
    rw [hmom, abs_neg, hD, grossArea, ← mul_assoc, ← List.sum_map_mul_left]
    have := list_abs_sum_sub shapes (fun p => ∫ x in p.2, (f (planeStrain e x.1 x.2) - g (planeStrain e x.1 x.2)) * height th x)
      (fun _ => 0) (fun p => R * δ * areaMoment 0 0 p.2) (by
        intro p hp
        rw [sub_zero, ← Real.norm_eq_abs, ← harea]
        refine norm_integral_le_of_norm_le (continuous_integrableOn continuous_const (henc p hp).bounded)
          ((ae_restrict_iff' (henc p hp).measurable).2 (Filter.Eventually.of_forall fun x hx => ?_))
        rw [Real.norm_eq_abs, abs_mul, mul_comm]
        exact mul_le_mul (hR p hp x hx) (hfg _ (hadm p hp x hx)) (abs_nonneg _) ((abs_nonneg _).trans (hR p hp x hx)))
    simpa using this

end Near

/-- The parts of a section of concrete with the stress `stress`. -/
noncomputable def softParts (stress : ℝ → ℝ) (ult : Bool → ℝ × ℝ) (u : ℝ) (shapes : List (Polygon × Set (ℝ × ℝ))) : List PolyPart :=
  shapes.map fun s => ⟨s.1, s.2, stress, ult, u⟩

/-- A concrete law that the Marin integrator replaces by ten straight pieces, against the diagram `g` it stands for. -/
structure Pieces (stress : ℝ → ℝ) (ult : Bool → ℝ × ℝ) (g : ℝ → ℝ) (u fc Lc d : ℝ) : Prop where
  limits : ult false = (-u, 100)
  compression : CompressionOnly stress fc u
  zero : stress 0 = 0
  steps : ∀ i < 10, |stress (tenth u (i + 1)) - stress (tenth u i)| ≤ Lc * (u / 10)
  measurable : Measurable g
  bounds : ∀ e, -u ≤ e → -fc ≤ g e ∧ g e ≤ 0
  tension : ∀ e, 0 ≤ e → g e = 0
  ultimate : stress (-u) = g (-u)
  near : ∀ e, -u ≤ e → |polygonal stress u e - g e| ≤ d

theorem soft_fits {split : Polygon → ℝ → ℝ → ShapelyResult} {stress : ℝ → ℝ} {ult : Bool → ℝ × ℝ} {g : ℝ → ℝ} {th u fc Lc d eu L : ℝ}
    {shapes : List (Polygon × Set (ℝ × ℝ))} (h : Pieces stress ult g u fc Lc d)
    (henc : ∀ p ∈ shapes, Encloses p.1.ext p.1.ints p.2) (hull : ∀ p ∈ shapes, p.2 ⊆ convexHull ℝ {v | v ∈ p.1.ext})
    (hsplit : ∀ p ∈ shapes,
      SplitsExactly split ((p.1.rotate (-th)).rotate (-Real.pi)) (rotPt (-Real.pi) '' (rotPt (-th) '' p.2)))
    (hu : 1e-3 ≤ u) (hL0 : 0 ≤ Lc) (heu : 1e-4 ≤ eu) (hL : Lc ≤ L) :
    ∀ s ∈ (softParts stress ult u shapes).map PolyPart.solid, s.Fits split th u eu L := by
  intro s hs
  obtain ⟨p, hp, rfl⟩ := List.mem_map.1 hs
  obtain ⟨q, hq, rfl⟩ := List.mem_map.1 hp
  have hu' : (2e-5:ℝ) ≤ u := by norm_num at *; linarith
  have hpos : 0 < u := by linarith
  have hok : PolyPart.Ok split th ⟨q.1, q.2, stress, ult, u⟩ := ⟨henc q hq, hull q hq, hsplit q hq, h.zero, h.limits⟩
  have hend : snap (-u, 100) (-u) = -u := by
    have := tenth_snap hu' 0 (by norm_num)
    rwa [tenth_zero] at this
  obtain ⟨s1, s2⟩ := snap_pair hend hu heu
  have hlip := fun x y hx hy => polygonal_lipschitz (x := x) (y := y) hpos hL0 h.steps h.zero hx hy
  exact ⟨henc q hq, hull q hq, fun e chi hchi => poly_good hok hpos e chi hchi,
    ⟨poly_good_uniform (p := ⟨q.1, q.2, stress, ult, u⟩) (henc q hq) hpos s1,
      poly_good_uniform (p := ⟨q.1, q.2, stress, ult, u⟩) (henc q hq) hpos s2⟩, h.limits, measurable_polygonal _ _,
    ⟨fc, polygonal_bounded hpos h.compression⟩, fun e he => polygonal_tension hpos h.zero he,
    fun x y hx hy => (hlip x y hx hy).trans (mul_le_mul_of_nonneg_right hL (abs_nonneg _))⟩

theorem soft_section {stress : ℝ → ℝ} {ult : Bool → ℝ × ℝ} {u : ℝ} (h : ult false = (-u, 100)) (shapes : List (Polygon × Set (ℝ × ℝ)))
    (bars : List Bar) : crossSection ((softParts stress ult u shapes).map PolyPart.solid) bars =
      plateSection shapes bars (polygonal stress u) u := by
  simp only [crossSection, plateSection, softParts, List.map_map, Function.comp_def, PolyPart.solid, PolyPart.surf,
    Surf.ofMarin, h]

/-- Strength of a section of such a concrete, and bars of one steel. -/
theorem soft_strength (split : Polygon → ℝ → ℝ → ShapelyResult) (ms : ℝ) (lu : Matrix (Fin 3) (Fin 3) ℝ → (Fin 3 → ℝ) → (Fin 3 → ℝ))
    (shapes : List (Polygon × Set (ℝ × ℝ))) (bars : List Bar) {stress : ℝ → ℝ} {ult : Bool → ℝ × ℝ} {g : ℝ → ℝ}
    {fc u Lc d el eu K L H H0 R th δ A : ℝ} (h : Pieces stress ult g u fc Lc d) (hLc : 0 ≤ Lc) (hu : 1e-3 ≤ u ∧ u ≤ 5e-3)
    {M : LawObj} (hbars : ∀ b ∈ bars, b.law = M) (hult : M.law.ult false = (-el, eu)) (heu : u ≤ el ∧ 1e-4 ≤ eu ∧ eu ≤ 0.09)
    (hK : ∀ x ∈ Set.Icc (-el) eu, ∀ y ∈ Set.Icc (-el) eu, |M.law.stress x - M.law.stress y| ≤ K * |x - y|)
    (henc : ∀ p ∈ shapes, Encloses p.1.ext p.1.ints p.2) (hull : ∀ p ∈ shapes, p.2 ⊆ convexHull ℝ {v | v ∈ p.1.ext})
    (hsplit : ∀ p ∈ shapes,
      SplitsExactly split ((p.1.rotate (-th)).rotate (-Real.pi)) (rotPt (-Real.pi) '' (rotPt (-th) '' p.2)))
    (hg0 : RCGeometry 0 shapes (bars.map fun b => (b.x, b.y)) H0) (hg : RCGeometry th shapes (bars.map fun b => (b.x, b.y)) H)
    (hR : ∀ p ∈ shapes, ∀ v ∈ p.1.ext, |height th v| ≤ R) (hL : L = max Lc K)
    (hδ : δ = L * (grossArea shapes + (bars.map fun b => |b.area|).sum) * H) (hsmall : δ ≤ 1e22)
    (hAr : A = d * grossArea shapes)
    {T : CrossSection} (hT : T = plateSection shapes bars g u)
    {E : Engine} (hE : E = sectionEngine split ((softParts stress ult u shapes).map PolyPart.solid) bars ms) :
    (limits E .fresh).2 = .ok (T.forces ![-u, 0, 0] 0, T.forces ![eu, 0, 0] 0) ∧
    (∃ C : Set ℝ, C.Countable ∧ ∀ (n : ℝ) (ops : List Op), Undisturbed E lu ops .fresh →
      (n < T.forces ![-u, 0, 0] 0 ∨ T.forces ![eu, 0, 0] 0 < n →
        (bendingStrength E th n (history E lu ops .fresh)).2 = .error .valueError) ∧
      (T.forces ![-u, 0, 0] 0 + δ * 1e-13 < n → n < T.forces ![eu, 0, 0] 0 - δ * 1e-13 →
        ∃ b : BendingResult, (bendingStrength E th n (history E lu ops .fresh)).2 = .ok b ∧ (n ∉ C → |b.n - n| ≤ 1e-2))) ∧
    ∀ (n : ℝ) (ops : List Op) (b : BendingResult), Undisturbed E lu ops .fresh →
      (bendingStrength E th n (history E lu ops .fresh)).2 = .ok b → ∃ c < 0, ∃ e, e = planeThrough th 0 b.eps_a c ∧
        ![b.eps_a, b.chi.1, b.chi.2] = e ∧ T.Admissible e ∧ T.AtLimit e ∧
        |b.n - T.forces e 0| ≤ A ∧ ((∀ x, -u ≤ x → g x ≤ polygonal stress u x) → T.forces e 0 ≤ b.n) ∧
        |bendingMoment th ![b.n, b.m.1, b.m.2] - bendingMoment th (T.forces e)| ≤ R * A := by
  have hpos : 0 < u := by have := hu.1; norm_num at *; linarith
  have hL1 : Lc ≤ L := by rw [hL]; exact le_max_left _ _
  have hL2 : K ≤ L := by rw [hL]; exact le_max_right _ _
  have hLn : 0 ≤ L := hLc.trans hL1
  have hf := soft_fits (split := split) (th := th) (eu := eu) (L := L) h henc hull hsplit hu.1 hLc
    heu.2.1 hL1
  have hmapS : ((softParts stress ult u shapes).map PolyPart.solid).map Solid.shadow =
      shapes.map fun s => (PolyPart.solid ⟨s.1, s.2, stress, ult, u⟩).shadow := by
    simp only [softParts, List.map_map, Function.comp_def]
  have hsh : ∀ s ∈ shapes, (PolyPart.solid ⟨s.1, s.2, stress, ult, u⟩).shadow.polygon = s.1 ∧
      |(PolyPart.solid ⟨s.1, s.2, stress, ult, u⟩).shadow.eps_u| = u := by
    intro s hs
    refine ⟨rfl, ?_⟩
    show |(ult false).1| = u
    rw [h.limits, abs_neg, abs_of_pos hpos]
  have o0 := hg0.solids hbars hult hu heu.1 heu.2.1 heu.2.2 _ hsh
  have o := hg.solids hbars hult hu heu.1 heu.2.1 heu.2.2 _ hsh
  rw [← hmapS] at o0 o
  have hK' : ∀ b ∈ bars, ∀ x ∈ Set.Icc (b.law.law.ult false).1 (b.law.law.ult false).2,
      ∀ y ∈ Set.Icc (b.law.law.ult false).1 (b.law.law.ult false).2, |b.law.law.stress x - b.law.law.stress y| ≤ L * |x - y| := by
    intro b hb
    rw [hbars b hb, hult]
    intro x hx y hy
    exact (hK x hx y hy).trans (mul_le_mul_of_nonneg_right hL2 (abs_nonneg _))
  have hmod : Solid.totalModulus ((softParts stress ult u shapes).map PolyPart.solid) bars L * H = δ := by
    rw [hδ, Solid.totalModulus, grossArea]
    simp only [softParts, List.map_map, Function.comp_def]
    rfl
  have hS := soft_section (stress := stress) h.limits shapes bars
  have u1 : (plateSection shapes bars (polygonal stress u) u).forces ![-u, 0, 0] = T.forces ![-u, 0, 0] := by
    rw [hT]
    refine plate_uniform ?_
    have e2 := polygonal_node stress hpos 0 (by norm_num)
    rw [tenth_zero] at e2
    rw [e2, h.ultimate]
  have u2 : (plateSection shapes bars (polygonal stress u) u).forces ![eu, 0, 0] = T.forces ![eu, 0, 0] := by
    rw [hT]
    refine plate_uniform ?_
    rw [polygonal_tension hpos h.zero (by have := heu.2.1; norm_num at *; linarith), h.tension _ (by have := heu.2.1; norm_num at *; linarith)]
  have hstr := Solid.strength split _ bars ms lu hf o0 o (single_ids hbars) (single_sizes hbars) hLn hK' (by rw [hmod]; exact hsmall)
    rfl hmod.symm hE
  rw [hS, u1, u2] at hstr
  refine ⟨hstr.1, hstr.2, ?_⟩
  intro n ops b hops hrun
  rw [hE] at hops hrun
  have hR' : ∀ p ∈ shapes, ∀ x ∈ p.2, |height th x| ≤ R := fun p hp x hx => height_hull (hR p hp) (hull p hp hx)
  obtain ⟨c, hc, e1, ha, hl, hfor⟩ := Solid.strength_plane hf o (single_ids hbars) (single_sizes hbars) n ops b hops hrun
  rw [hS] at ha hl hfor
  have hmax : ∀ e, -u ≤ e → g (max e (-u)) = g e := fun e he => by rw [max_eq_left he]
  obtain ⟨c1, c2, c3⟩ := plate_near (bars := bars) (g := fun e => g (max e (-u))) (δ := d) (measurable_polygonal stress u)
    (h.measurable.comp (by fun_prop)) (polygonal_bounded hpos h.compression) (fun e => h.bounds _ (le_max_right _ _)) henc hull
    (fun e he => by rw [hmax e he]; exact h.near e he) ha
  have hcg := plate_congr (bars := bars) henc hull hmax ((plate_admissible (polygonal stress u) (fun e => g (max e (-u))) _).1 ha)
  rw [hcg] at c1 c2 c3
  have c2 : (∀ x, -u ≤ x → g x ≤ polygonal stress u x) → _ := fun hle => c2 fun e he => by rw [hmax e he]; exact hle e he
  have c3 := c3 th R hR'
  rw [hfor, ← hT, ← hAr] at c1 c3
  rw [hfor, ← hT] at c2
  refine ⟨c, hc, _, rfl, e1, ?_, ?_, c1, c2, c3⟩
  · rw [hT]; exact (plate_admissible _ _ _).1 ha
  · rw [hT]; exact (plate_limit _ _ _).1 hl

end SC
