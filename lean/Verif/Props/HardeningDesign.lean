import Verif.Props.HardeningGap
import Verif.Props.OrdinaryExample

/-! # C76: hardening steel, from the material objects -/

set_option autoImplicit false

namespace SC

open Spec MeasureTheory OrdinaryRC

variable {lower : String → String}

/-- **C76** (how often). Between the limit loads, the loads for which no bending strength within the tolerance of `1e-2` is returned
have total length at most `8·bars·(j ΣA + 1e-2)`. -/
theorem C76_gaps {th ecu eu H : ℝ} {parts : List ConcretePart} {bars : List Bar} (split : Polygon → ℝ → ℝ → ShapelyResult) (ms : ℝ)
    (lu : Matrix (Fin 3) (Fin 3) ℝ → (Fin 3 → ℝ) → (Fin 3 → ℝ))
    {H0 : ℝ} (h0 : OrdinaryRC 0 parts bars ecu eu H0) (h : OrdinaryRC th parts bars ecu eu H)
    (hok : ∀ p ∈ parts, p.Ok split th) (hid : SameIds (bars.map Bar.law)) (hd : EqualSizes (groupBars bars))
    {K j t : ℝ} (hK0 : 0 ≤ K) (hj0 : 0 ≤ j)
    (hK : ∀ b ∈ bars, NearLipschitz b.law.law.stress (b.law.law.ult false).1 (b.law.law.ult false).2 K j t)
    (ht1 : ecu + 1e-13 * H < t) (ht2 : t + 1e-13 * H ≤ eu)
    (hstiff : axialRigidity parts bars K * H ≤ 1e22) :
    volume {n : ℝ | (concreteSection parts bars).forces ![-ecu, 0, 0] 0 + axialRigidity parts bars K * H * 1e-13 < n ∧
      n < (concreteSection parts bars).forces ![eu, 0, 0] 0 - axialRigidity parts bars K * H * 1e-13 ∧
      ¬ ∀ ops : List Op, Undisturbed (sectionEngine split (parts.map ConcretePart.solid) bars ms) lu ops .fresh →
        ∃ b : BendingResult, (bendingStrength (sectionEngine split (parts.map ConcretePart.solid) bars ms) th n
          (history (sectionEngine split (parts.map ConcretePart.solid) bars ms) lu ops .fresh)).2 = .ok b ∧ |b.n - n| ≤ 1e-2} ≤
      ENNReal.ofReal (8 * bars.length * (j * (bars.map fun b => |b.area|).sum + 1e-2)) := by
  obtain ⟨C, hC, G, hlen, -, hmain⟩ := C76_strength_partial split ms lu h0 h hok hid hd hK0 hj0 hK ht1 ht2 hstiff
  set r := j * (bars.map fun b => |b.area|).sum + 1e-2 with hr
  have hr0 : 0 ≤ r := by
    have : 0 ≤ (bars.map fun b => |b.area|).sum := List.sum_nonneg (by
      intro x hx
      obtain ⟨b, -, rfl⟩ := List.mem_map.1 hx
      exact abs_nonneg _)
    rw [hr]
    positivity
  have hG : ∀ G : List ℝ, volume {n : ℝ | ∃ g ∈ G, |g - n| ≤ r} ≤ ENNReal.ofReal (G.length * (2 * r)) := by
    intro G
    induction G with
    | nil => simp
    | cons g G ih =>
      have e : {n : ℝ | ∃ g' ∈ g :: G, |g' - n| ≤ r} = Set.Icc (g - r) (g + r) ∪ {n : ℝ | ∃ g ∈ G, |g - n| ≤ r} := by
        ext n
        simp only [Set.mem_ofPred_eq, List.mem_cons, exists_eq_or_imp, Set.mem_union, Set.mem_Icc, abs_le]
        constructor
        · rintro (⟨h1, h2⟩ | h)
          · left; constructor <;> linarith
          · exact Or.inr h
        · rintro (⟨h1, h2⟩ | h)
          · left; constructor <;> linarith
          · exact Or.inr h
      rw [e]
      refine (measure_union_le _ _).trans ((add_le_add le_rfl ih).trans_eq ?_)
      rw [Real.volume_Icc, ← ENNReal.ofReal_add (by linarith) (by positivity)]
      congr 1
      push_cast [List.length_cons]
      ring
  refine (measure_mono (t := C ∪ {n : ℝ | ∃ g ∈ G, |g - n| ≤ r}) ?_).trans ?_
  · rintro n ⟨h1, h2, h3⟩
    by_contra hcon
    rw [Set.mem_union, not_or] at hcon
    apply h3
    intro ops hops
    refine (hmain n ops hops).2.2 h1 h2 hcon.1 fun g hg => ?_
    by_contra hc
    exact hcon.2 ⟨g, hg, not_lt.1 hc⟩
  · refine (measure_union_le _ _).trans ?_
    rw [hC.measure_zero, zero_add]
    refine (hG G).trans (ENNReal.ofReal_le_ofReal ?_)
    have : (G.length : ℝ) ≤ 4 * bars.length := by exact_mod_cast hlen
    nlinarith

/-- The slope of the design diagram beyond yielding. -/
noncomputable def Spec.designHardening (cls : SteelClass) (a : SteelArgs) : ℝ :=
  (designStrength a a.ftk - designStrength a a.fyk) / (designUltimate cls a - designYield a)

/-- **C76** (steel). A steel with the law `elasticplastic` - the default - with `ftk` not below `fyk`. -/
theorem C76_steel (hl : PyLower lower) (cls : SteelClass) (a : SteelArgs) (b : Built Steel)
    (h : newSteel lower cls a = some (.ok b)) (hn : a.law = .name "elasticplastic")
    (hi1 : a.initialStrain = none) (hi2 : a.initialStress = none)
    (hft : |a.fyk| ≤ |a.ftk|) (hslope : designHardening cls a ≤ |a.Es|)
    (hgap : designYield a + 1e-6 + snapWidth (designUltimate cls a) ≤ designUltimate cls a) :
    ∃ l : ElasticPlastic, Hardening l (designUltimate cls a) ∧ l.E = |a.Es| ∧ l.eps_sy = designYield a ∧ l.Eh = designHardening cls a ∧
      b.mat.law.stress = l.stress ∧ b.mat.law.ult false = (-designUltimate cls a, designUltimate cls a) := by
  obtain ⟨hE, law, hm, hx⟩ := C48_law hl cls a b _ h hn
  simp only [String.reduceEq, false_and, true_and, false_or] at hx
  obtain ⟨g, gs, hne, hlaw⟩ := hx
  rw [hi1, hi2, C15_none] at hm
  simp only [Option.some.injEq, Except.ok.injEq] at hm
  have hml : b.mat.law = law := by rw [← hm]
  have hdy : 0 ≤ designYield a := div_nonneg (div_nonneg (abs_nonneg _) (by linarith)) (abs_nonneg _)
  have hpos : 0 < designUltimate cls a - designYield a := by
    by_contra hc
    unfold snapWidth at hgap
    norm_num at hgap
    have : designUltimate cls a < 0 := by linarith
    linarith
  refine ⟨⟨|a.Es|, designStrength a a.fyk, designHardening cls a, some (designUltimate cls a)⟩, ⟨abs_pos.2 hE,
    div_nonneg (abs_nonneg _) (by linarith), ⟨div_nonneg (sub_nonneg.2 ?_) hpos.le, hslope⟩, rfl, hgap⟩, rfl, rfl, rfl, ?_, ?_⟩
  · exact div_le_div_of_nonneg_right hft (by linarith)
  · rw [hml, hlaw]; rfl
  · rw [hml, hlaw]; simp [ElasticPlastic.law, ElasticPlastic.ult]

/-- **C76** (design). Sections of normal strength concrete with bars of one steel with the default law: whatever is returned is a limit
state of the section; outside the limit loads nothing is returned; between them the loads without a result within the tolerance have
total length at most `8·bars·(2 Eh w ΣA + 1e-2)`, `w` being the width of the comparison with the limit strain; and if the lowest bar
is not tiny there is such a load. Partial: loads within `1e-13 δ` of a limit load. -/
theorem C76_design_partial (hl : PyLower lower) (ccls : ConcClass) (ca : ConcArgs) (c : Built Conc)
    (hc : newConcrete lower ccls ca = some (.ok c)) (hcn : ca.law = .name "parabolarectangle")
    (hci : ca.initialStrain = none ∧ ca.initialStress = none) (hce : ca.eps_c2 = none ∧ ca.eps_cu2 = none ∧ ca.n = none)
    (hcf : ccls ≠ .ec2_2023 → |ca.fck| ≤ 50)
    (scls : SteelClass) (sa : SteelArgs) (s : Built Steel)
    (hs : newSteel lower scls sa = some (.ok s)) (hsn : sa.law = .name "elasticplastic")
    (hsi : sa.initialStrain = none ∧ sa.initialStress = none)
    (hft : |sa.fyk| ≤ |sa.ftk|) (hslope : designHardening scls sa ≤ |sa.Es|)
    (hgap : designYield sa + 1e-6 + snapWidth (designUltimate scls sa) ≤ designUltimate scls sa)
    (heu : 0.0035 ≤ designUltimate scls sa ∧ designUltimate scls sa ≤ 0.09)
    (split : Polygon → ℝ → ℝ → ShapelyResult) (ms th : ℝ) (lu : Matrix (Fin 3) (Fin 3) ℝ → (Fin 3 → ℝ) → (Fin 3 → ℝ))
    (shapes : List (Polygon × Set (ℝ × ℝ))) (bars : List Bar) (id : ℕ) (hbars : ∀ b ∈ bars, b.law = ⟨id, s.mat.law⟩)
    (henc : ∀ p ∈ shapes, Encloses p.1.ext p.1.ints p.2) (hull : ∀ p ∈ shapes, p.2 ⊆ convexHull ℝ {v | v ∈ p.1.ext})
    (hsplit : ∀ p ∈ shapes,
      SplitsExactly split ((p.1.rotate (-th)).rotate (-Real.pi)) (rotPt (-Real.pi) '' (rotPt (-th) '' p.2)))
    {H H0 : ℝ} (hg0 : RCGeometry 0 shapes (bars.map fun b => (b.x, b.y)) H0)
    (hg : RCGeometry th shapes (bars.map fun b => (b.x, b.y)) H)
    (fc : ℝ) (hfc : fc = designConcrete ccls ca) (δ : ℝ)
    (hδ : δ = (2 * |fc| / 0.002 * (shapes.map fun p => areaMoment 0 0 p.2).sum + |sa.Es| * (bars.map fun b => |b.area|).sum) * H)
    (hsmall : δ ≤ 1e22) (S : CrossSection) (hS : S = concreteSection (normalParts fc shapes) bars)
    (E : Engine) (hE : E = sectionEngine split ((normalParts fc shapes).map ConcretePart.solid) bars ms)
    (J : ℝ) (hJ : J = designHardening scls sa * snapWidth (designUltimate scls sa)) :
    (∀ p ∈ normalParts fc shapes, p.law.law = c.mat.law) ∧
    (0.0035 + 1e-13 * H < designUltimate scls sa - snapWidth (designUltimate scls sa) →
      1e-13 * H ≤ snapWidth (designUltimate scls sa) →
      (∀ (n : ℝ) (ops : List Op), Undisturbed E lu ops .fresh →
        (n < S.forces ![-0.0035, 0, 0] 0 ∨ S.forces ![designUltimate scls sa, 0, 0] 0 < n →
          (bendingStrength E th n (history E lu ops .fresh)).2 = .error .valueError) ∧
        (∀ b : BendingResult, (bendingStrength E th n (history E lu ops .fresh)).2 = .ok b →
          (∃ c < 0, b.chi = (c * Real.cos th, c * Real.sin th)) ∧
          S.forces ![b.eps_a, b.chi.1, b.chi.2] = ![b.n, b.m.1, b.m.2] ∧
          S.AtLimit ![b.eps_a, b.chi.1, b.chi.2] ∧ S.Admissible ![b.eps_a, b.chi.1, b.chi.2])) ∧
      volume {n : ℝ | S.forces ![-0.0035, 0, 0] 0 + δ * 1e-13 < n ∧ n < S.forces ![designUltimate scls sa, 0, 0] 0 - δ * 1e-13 ∧
        ¬ ∀ ops : List Op, Undisturbed E lu ops .fresh →
          ∃ b : BendingResult, (bendingStrength E th n (history E lu ops .fresh)).2 = .ok b ∧ |b.n - n| ≤ 1e-2} ≤
        ENNReal.ofReal (8 * bars.length * (2 * J * (bars.map fun b => |b.area|).sum + 1e-2))) ∧
    ((∀ b ∈ bars, 0 ≤ b.area) → ∀ b0 ∈ bars, (∀ b ∈ bars, height th (b0.x, b0.y) ≤ height th (b.x, b.y)) → 2e-2 < b0.area * J →
      ∃ n, S.forces ![-0.0035, 0, 0] 0 + 1e-2 < n ∧ n + 1e-2 < S.forces ![designUltimate scls sa, 0, 0] 0 ∧
        ∀ ops : List Op, Undisturbed E lu ops .fresh → (bendingStrength E th n (history E lu ops .fresh)).2 = .error .valueError) := by
  have hlaw := C73_concrete hl ccls ca c hc hcn hci.1 hci.2 hce.1 hce.2.1 hce.2.2 hcf
  obtain ⟨l, hh, hlE, -, hlEh, hst, hult⟩ := C76_steel hl scls sa s hs hsn hsi.1 hsi.2 hft hslope hgap
  have hr : axialRigidity (normalParts fc shapes) bars |sa.Es| * H = δ := by
    have e1 : (shapes.map fun p => 2 * |fc| / |(0.002:ℝ)| * areaMoment 0 0 p.2).sum =
        2 * |fc| / 0.002 * (shapes.map fun p => areaMoment 0 0 p.2).sum := by
      rw [List.sum_map_mul_left, abs_of_pos (by norm_num : (0:ℝ) < 0.002)]
    have e2 : (bars.map fun b => |sa.Es| * |b.area|).sum = |sa.Es| * (bars.map fun b => |b.area|).sum := List.sum_map_mul_left ..
    rw [hδ, axialRigidity, e2, ← e1]
    simp only [normalParts, List.map_map, Function.comp_def]
  have hok : ∀ p ∈ normalParts fc shapes, p.Ok split th := by
    intro p hp
    obtain ⟨q, hq, rfl⟩ := List.mem_map.1 hp
    exact ⟨henc q hq, hull q hq, hsplit q hq, by norm_num, by norm_num [abs_of_pos]⟩
  have o0 := hg0.ordinary (fc := fc) hbars hult heu.1 heu.2
  have o := hg.ordinary (fc := fc) hbars hult heu.1 heu.2
  have hbl : ∀ b ∈ bars, b.law.law.stress = l.stress ∧ b.law.law.ult false = (-designUltimate scls sa, designUltimate scls sa) := by
    intro b hb
    rw [hbars b hb]
    exact ⟨hst, hult⟩
  have hJ2 : 2 * (l.Eh * snapWidth (designUltimate scls sa)) = 2 * J := by rw [hlEh, hJ]
  have hnear : ∀ b ∈ bars, NearLipschitz b.law.law.stress (b.law.law.ult false).1 (b.law.law.ult false).2 |sa.Es| (2 * J)
      (designUltimate scls sa - snapWidth (designUltimate scls sa)) := by
    intro b hb
    rw [(hbl b hb).1, (hbl b hb).2, ← hJ2, ← hlE]
    exact hh.near
  have hJ0 : 0 ≤ 2 * J := by
    rw [← hJ2]
    have := hh.Eh.1
    have := hh.u_pos.2.1
    positivity
  rw [hS, hE]
  refine ⟨?_, fun ht1 ht2 => ⟨?_, ?_⟩, ?_⟩
  · intro p hp
    obtain ⟨q, -, rfl⟩ := List.mem_map.1 hp
    rw [hlaw, hfc]
    rfl
  · obtain ⟨_, -, _, -, -, hm⟩ := C76_strength_partial split ms lu o0 o hok (single_ids hbars) (single_sizes hbars) (abs_nonneg sa.Es) hJ0 hnear
      ht1 (by linarith) (by rw [hr]; exact hsmall)
    exact fun n ops hops => ⟨(hm n ops hops).1, (hm n ops hops).2.1⟩
  · have := C76_gaps split ms lu o0 o hok (single_ids hbars) (single_sizes hbars) (abs_nonneg sa.Es) hJ0 hnear
      ht1 (by linarith) (by rw [hr]; exact hsmall)
    rw [hr] at this
    exact this
  · intro hA b0 hb0 hlow h2
    exact C76_violated split ms lu o0 o hok (single_ids hbars) (single_sizes hbars) hh hbl hA hb0 hlow (by rw [hlEh, ← hJ]; exact h2)

end SC
