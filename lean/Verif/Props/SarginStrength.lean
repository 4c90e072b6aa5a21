import Verif.Props.SofteningStrength
import Verif.Props.FiberLaws

/-! # C86: sections of concrete with the laws of Sargin and Popovics -/

set_option autoImplicit false

namespace SC

open Spec MeasureTheory

/-! ### Sargin -/

section Sargin

variable {fc e1 u k m : ℝ}

theorem sargin_spec (h0 : 0 < |e1|) {e : ℝ} (he : -|u| ≤ e) : (Sargin.new fc e1 u k).core e = sarginDiagram |fc| |e1| k e := by
  rcases le_or_gt e 0 with h | h
  · rw [sargin_core fc e1 u k he h, sarginDiagram, max_eq_left (show (0:ℝ) ≤ -e by linarith)]
    ring
  · rw [sarginDiagram, max_eq_right (show -e ≤ (0:ℝ) by linarith)]
    simp only [Sargin.core]
    rw [if_pos (Or.inr h)]
    simp

theorem sargin_node (h0 : 0 < |e1|) (hu : 2e-5 ≤ |u|) (i : ℕ) (hi : i ≤ 10) :
    (Sargin.new fc e1 u k).stress (tenth |u| i) = sarginDiagram |fc| |e1| k (tenth |u| i) := by
  have hpos : 0 < |u| := by linarith
  rw [← sargin_spec (u := u) h0 (tenth_mem hpos hi).1, Sargin.stress,
    show (Sargin.new fc e1 u k).ult false = (-|u|, 100) from rfl, tenth_snap hu i hi]

theorem sargin_zero (h0 : 0 < |e1|) (hu : 2e-5 ≤ |u|) : (Sargin.new fc e1 u k).stress 0 = 0 := by
  have := sargin_node (fc := fc) (k := k) h0 hu 10 le_rfl
  rw [tenth_ten] at this
  rw [this, sarginDiagram]
  simp

/-- Slope of the diagram. -/
noncomputable def sarginSlope (fc e1 u k m : ℝ) : ℝ := |fc| / |e1| * ((k + 2 * (|u| / |e1|) + |k - 2| * (|u| / |e1|) ^ 2) / m ^ 2)

/-- The error of ten straight pieces. -/
noncomputable def sarginError (fc e1 u k m : ℝ) : ℝ := |fc| * ((k - 1) ^ 2 * (|u| / |e1|) ^ 2 / (400 * m ^ 3))

theorem sarginSlope_nonneg (hk : 1 < k) : 0 ≤ sarginSlope fc e1 u k m := by
  unfold sarginSlope; positivity

theorem sargin_steps (h0 : 0 < |e1|) (hk : 1 < k) (hm : 0 < m) (hm1 : m ≤ 1) (hmu : m ≤ 1 + (k - 2) * (|u| / |e1|)) {a b : ℝ}
    (h1 : -|u| ≤ a) (h2 : a ≤ b) (h3 : b ≤ 0) :
    |sarginDiagram |fc| |e1| k b - sarginDiagram |fc| |e1| k a| ≤ sarginSlope fc e1 u k m * (b - a) := by
  have key := sargin_lip hm hm1 hmu (by linarith : 0 ≤ k) (x := -b / |e1|) (y := -a / |e1|) (div_nonneg (by linarith) h0.le)
    (div_le_div_of_nonneg_right (by linarith) h0.le) (div_le_div_of_nonneg_right (by linarith) h0.le)
  simp only [sarginDiagram]
  rw [max_eq_left (show (0:ℝ) ≤ -a by linarith), max_eq_left (show (0:ℝ) ≤ -b by linarith), ← mul_sub, abs_mul, abs_neg, abs_abs,
    abs_sub_comm]
  calc _ ≤ |fc| * ((k + 2 * (|u| / |e1|) + |k - 2| * (|u| / |e1|) ^ 2) / m ^ 2 * (-a / |e1| - -b / |e1|)) :=
        mul_le_mul_of_nonneg_left key (abs_nonneg fc)
    _ = _ := by rw [sarginSlope]; ring

theorem sargin_polygon (h0 : 0 < |e1|) (hu : 2e-5 ≤ |u|) (hm : 0 < m) (hm1 : m ≤ 1)
    (hmu : m ≤ 1 + (k - 2) * (|u| / |e1|)) {e : ℝ} (he : -|u| ≤ e) :
    polygonal (Sargin.new fc e1 u k).stress |u| e - sarginDiagram |fc| |e1| k e ∈ Set.Icc 0 (sarginError fc e1 u k m) := by
  have hpos : 0 < |u| := by linarith
  rcases le_or_gt e 0 with h | h
  · obtain ⟨i, hi, t, t0, t1, rfl⟩ := tenth_cover hpos he h
    have := sargin_part fc e1 u k m h0 hpos hm hm1 hmu i hi t t0 t1
    rw [polygonal_chord _ hpos i hi t t0 t1, sargin_node h0 hu i (by omega), sargin_node h0 hu (i + 1) (by omega)]
    rw [sargin_spec h0 he, sargin_spec h0 (tenth_mem hpos (show i ≤ 10 by omega)).1,
      sargin_spec h0 (tenth_mem hpos (show i + 1 ≤ 10 by omega)).1] at this
    exact this
  · rw [polygonal_tension hpos (sargin_zero h0 hu) h.le, sarginDiagram, max_eq_right (show -e ≤ (0:ℝ) by linarith)]
    have : 0 ≤ sarginError fc e1 u k m := by unfold sarginError; positivity
    simpa using this

theorem sargin_pieces (h0 : 0 < |e1|) (hu : 2e-5 ≤ |u|) (hk : 1 < k) (hku : |u| ≤ k * |e1|)
    (hm : 0 < m) (hm1 : m ≤ 1) (hmu : m ≤ 1 + (k - 2) * (|u| / |e1|)) :
    Pieces (Sargin.new fc e1 u k).stress (Sargin.new fc e1 u k).ult (sarginDiagram |fc| |e1| k) |u| |fc| (sarginSlope fc e1 u k m)
      (sarginError fc e1 u k m) := by
  have hpos : 0 < |u| := by linarith
  have hco := C08_sargin_partial fc e1 u k h0 (by linarith) hk hku
  have hend : snap (-|u|, 100) (-|u|) = -|u| := by
    have := tenth_snap hu 0 (by norm_num)
    rwa [tenth_zero] at this
  have htens : ∀ e : ℝ, 0 ≤ e → sarginDiagram |fc| |e1| k e = 0 := by
    intro e he
    rw [sarginDiagram, max_eq_right (show -e ≤ (0:ℝ) by linarith)]; simp
  refine ⟨rfl, hco, sargin_zero h0 hu, fun i hi => ?_, ?_, fun e he => ?_, htens, ?_, fun e he => ?_⟩
  · rw [sargin_node h0 hu i (by omega), sargin_node h0 hu (i + 1) (by omega)]
    have := sargin_steps (fc := fc) (u := u) h0 hk hm hm1 hmu (tenth_mem hpos (show i ≤ 10 by omega)).1
      (tenth_lt hpos (Nat.lt_succ_self i)).le (tenth_mem hpos (show i + 1 ≤ 10 by omega)).2
    refine this.trans_eq ?_
    rw [Nat.succ_eq_add_one, tenth_succ]; ring
  · unfold sarginDiagram; fun_prop
  · rcases le_or_gt e 0 with h | h
    · rw [← sargin_spec (u := u) h0 he, sargin_core fc e1 u k he h]
      have q0 : 0 ≤ -e / |e1| := div_nonneg (by linarith) h0.le
      have q1 : -e / |e1| ≤ k := by rw [div_le_iff₀ h0]; linarith
      generalize -e / |e1| = x at *
      have hden : 0 < 1 + (k - 2) * x := by
        rcases le_or_gt 2 k with hk2 | hk2
        · nlinarith
        · nlinarith [sq_nonneg (k - 1), mul_nonneg (by linarith : (0:ℝ) ≤ 2 - k) (by linarith : 0 ≤ k - x)]
      have hr0 : 0 ≤ (k * x - x ^ 2) / (1 + (k - 2) * x) := by
        apply div_nonneg _ hden.le; nlinarith
      have hr1 : (k * x - x ^ 2) / (1 + (k - 2) * x) ≤ 1 := by
        rw [div_le_one hden]; nlinarith [sq_nonneg (1 - x)]
      have hf := abs_nonneg fc
      constructor <;> nlinarith
    · rw [htens e h.le]
      exact ⟨by linarith [abs_nonneg fc], le_rfl⟩
  · have := sargin_node (fc := fc) (k := k) h0 hu 0 (by norm_num)
    rwa [tenth_zero] at this
  · obtain ⟨a, b⟩ := sargin_polygon (fc := fc) h0 hu hm hm1 hmu he
    rw [abs_of_nonneg a]; exact b

/-- What the Marin integrator is given for such a concrete (core/base.py:268-277). -/
theorem sargin_marin (h0 : 0 < |e1|) (hu : 2e-5 ≤ |u|) (hk : 1 < k) (hku : |u| ≤ k * |e1|) (hfc : fc ≠ 0)
    (hrel : sarginDiagram |fc| |e1| k (-|u|) ≤ -(|fc| * 1e-6))
    {shapes : List (Polygon × Set (ℝ × ℝ))} {p : PolyPart}
    (hp : p ∈ softParts (Sargin.new fc e1 u k).stress (Sargin.new fc e1 u k).ult |u| shapes) (a b : ℝ) :
    (Sargin.new fc e1 u k).marinMethod.call .keyword a b = .ok (p.law.marin a b) := by
  obtain ⟨s, -, rfl⟩ := List.mem_map.1 hp
  have hfc0 : 0 < |fc| := abs_pos.2 hfc
  have hval := sargin_node (fc := fc) (k := k) h0 hu 0 (by norm_num)
  rw [tenth_zero] at hval
  rw [← hval] at hrel
  refine C65_single_call fc e1 u k (C65_nodes (sargin_samples fc e1 u k) (C08_sargin_partial fc e1 u k h0 (by linarith) hk hku)
    (sargin_zero h0 hu) hu ?_ (by linarith)) a b
  have : 0 < |fc| * 1e-6 := by positivity
  linarith

/-- **C86** (Sargin). Sections of concrete with Sargin's law, which the Marin integrator replaces by ten straight pieces, and bars of one
steel: with `T` the section as designed (the exact diagram), the axial load limits are the forces of `T` under its uniform ultimate
strains; loads outside are refused and loads inside answered; the answer is an admissible plane of `T` at its limit, with forces of `T`
up to the area times `fc (k - 1)^2 (u / e1)^2 / (400 m^3)`, and the compression is never overestimated.
Partial: the law must be one in compression up to the ultimate strain (`1 < k`, `u ≤ k e1`, a stress of at least `1e-6 fc` there); the
equilibrium of the answer with the load holds for all loads but countably many, and answers are shown to exist for loads inside the
limits by `δ · 1e-13`; nothing is said about the largest moment (see `C86_limit_violated` for the axial load). -/
theorem C86_sargin_partial (split : Polygon → ℝ → ℝ → ShapelyResult) (ms : ℝ) (lu : Matrix (Fin 3) (Fin 3) ℝ → (Fin 3 → ℝ) → (Fin 3 → ℝ))
    (shapes : List (Polygon × Set (ℝ × ℝ))) (bars : List Bar) {el eu K L H H0 R th δ A : ℝ}
    (hfc : fc ≠ 0) (h0 : 0 < |e1|) (hu : 1e-3 ≤ |u| ∧ |u| ≤ 5e-3) (hk : 1 < k) (hku : |u| ≤ k * |e1|)
    (hm : 0 < m) (hm1 : m ≤ 1) (hmu : m ≤ 1 + (k - 2) * (|u| / |e1|))
    (hrel : sarginDiagram |fc| |e1| k (-|u|) ≤ -(|fc| * 1e-6))
    {M : LawObj} (hbars : ∀ b ∈ bars, b.law = M) (hult : M.law.ult false = (-el, eu)) (heu : |u| ≤ el ∧ 1e-4 ≤ eu ∧ eu ≤ 0.09)
    (hK : ∀ x ∈ Set.Icc (-el) eu, ∀ y ∈ Set.Icc (-el) eu, |M.law.stress x - M.law.stress y| ≤ K * |x - y|)
    (henc : ∀ p ∈ shapes, Encloses p.1.ext p.1.ints p.2) (hull : ∀ p ∈ shapes, p.2 ⊆ convexHull ℝ {v | v ∈ p.1.ext})
    (hsplit : ∀ p ∈ shapes,
      SplitsExactly split ((p.1.rotate (-th)).rotate (-Real.pi)) (rotPt (-Real.pi) '' (rotPt (-th) '' p.2)))
    (hg0 : RCGeometry 0 shapes (bars.map fun b => (b.x, b.y)) H0) (hg : RCGeometry th shapes (bars.map fun b => (b.x, b.y)) H)
    (hR : ∀ p ∈ shapes, ∀ v ∈ p.1.ext, |height th v| ≤ R) (hL : L = max (sarginSlope fc e1 u k m) K)
    (hδ : δ = L * (grossArea shapes + (bars.map fun b => |b.area|).sum) * H) (hsmall : δ ≤ 1e22)
    (hAr : A = sarginError fc e1 u k m * grossArea shapes)
    {T : CrossSection} (hT : T = plateSection shapes bars (sarginDiagram |fc| |e1| k) |u|) {parts : List PolyPart}
    (hparts : parts = softParts (Sargin.new fc e1 u k).stress (Sargin.new fc e1 u k).ult |u| shapes)
    {E : Engine} (hE : E = sectionEngine split (parts.map PolyPart.solid) bars ms) :
    (∀ p ∈ parts, ∀ a b, (Sargin.new fc e1 u k).marinMethod.call .keyword a b = .ok (p.law.marin a b)) ∧
    (limits E .fresh).2 = .ok (T.forces ![-|u|, 0, 0] 0, T.forces ![eu, 0, 0] 0) ∧
    (∃ C : Set ℝ, C.Countable ∧ ∀ (n : ℝ) (ops : List Op), Undisturbed E lu ops .fresh →
      (n < T.forces ![-|u|, 0, 0] 0 ∨ T.forces ![eu, 0, 0] 0 < n →
        (bendingStrength E th n (history E lu ops .fresh)).2 = .error .valueError) ∧
      (T.forces ![-|u|, 0, 0] 0 + δ * 1e-13 < n → n < T.forces ![eu, 0, 0] 0 - δ * 1e-13 →
        ∃ b : BendingResult, (bendingStrength E th n (history E lu ops .fresh)).2 = .ok b ∧ (n ∉ C → |b.n - n| ≤ 1e-2))) ∧
    ∀ (n : ℝ) (ops : List Op) (b : BendingResult), Undisturbed E lu ops .fresh →
      (bendingStrength E th n (history E lu ops .fresh)).2 = .ok b → ∃ c < 0, ∃ e, e = planeThrough th 0 b.eps_a c ∧
        ![b.eps_a, b.chi.1, b.chi.2] = e ∧ T.Admissible e ∧ T.AtLimit e ∧
        T.forces e 0 ≤ b.n ∧ b.n ≤ T.forces e 0 + A ∧
        |bendingMoment th ![b.n, b.m.1, b.m.2] - bendingMoment th (T.forces e)| ≤ R * A := by
  have hu' : (2e-5:ℝ) ≤ |u| := by have := hu.1; norm_num at *; linarith
  have hp := sargin_pieces (fc := fc) h0 hu' hk hku hm hm1 hmu
  subst hparts
  obtain ⟨r1, r2, r3⟩ := soft_strength split ms lu shapes bars hp (sarginSlope_nonneg hk) hu hbars hult heu hK henc hull hsplit hg0 hg hR
    hL hδ hsmall hAr hT hE
  refine ⟨fun p hp a b => sargin_marin h0 hu' hk hku hfc hrel hp a b, r1, r2, fun n ops b hops hrun => ?_⟩
  obtain ⟨c, hc, e, he, e1', ha, hl, q1, q2, q3⟩ := r3 n ops b hops hrun
  refine ⟨c, hc, e, he, e1', ha, hl, q2 fun x hx => ?_, by linarith [(abs_le.1 q1).2], q3⟩
  exact sub_nonneg.1 (sargin_polygon h0 hu' hm hm1 hmu hx).1

end Sargin

/-! ### The axial load -/

/-- Axial force of a section in uniform strain. -/
theorem plate_uniform_force (shapes : List (Polygon × Set (ℝ × ℝ))) (bars : List Bar) {M : LawObj} (hbars : ∀ b ∈ bars, b.law = M)
    (g : ℝ → ℝ) (u v : ℝ) : (plateSection shapes bars g u).forces ![v, 0, 0] 0 =
      g v * grossArea shapes + M.law.stress v * (bars.map Bar.area).sum := by
  have hp : ∀ x y : ℝ, planeStrain ![v, 0, 0] x y = v := by intro x y; simp [planeStrain]
  simp only [CrossSection.forces, plateSection, List.map_map, Function.comp_def, Pi.add_apply, list_sum_apply, regionResultants, hp,
    lever, Matrix.cons_val, mul_one, grossArea]
  congr 1
  · rw [← List.sum_map_mul_left]
    congr 1
    refine List.map_congr_left fun p _ => ?_
    simp only [areaMoment, pow_zero, mul_one]
    rw [← integral_const_mul]
    simp
  · rw [← List.sum_map_mul_left]
    simp only [resultants, List.map_map, Function.comp_def]
    congr 1
    refine List.map_congr_left fun b hb => ?_
    simp only [Bar.fibre, hp, lever, hbars b hb, Matrix.cons_val]
    ring

/-- At the peak strain the diagram carries its strength; beyond, less. -/
theorem sargin_peak {fc e1 k u : ℝ} (hfc : 0 < fc) (h1 : 0 < e1) (hk : 1 < k) (hu : e1 < u) (hku : u ≤ k * e1) :
    sarginDiagram fc e1 k (-e1) = -fc ∧ -fc < sarginDiagram fc e1 k (-u) := by
  simp only [sarginDiagram, neg_neg]
  rw [max_eq_left h1.le, max_eq_left (h1.trans hu).le, div_self h1.ne']
  have q0 : 1 < u / e1 := by rw [lt_div_iff₀ h1]; linarith
  have q1 : u / e1 ≤ k := by rw [div_le_iff₀ h1]; linarith
  generalize u / e1 = x at *
  have hden : 0 < 1 + (k - 2) * x := by
    rcases le_or_gt 2 k with hk2 | hk2
    · nlinarith
    · nlinarith [sq_nonneg (k - 1), mul_nonneg (by linarith : (0:ℝ) ≤ 2 - k) (by linarith : 0 ≤ k - x)]
  have hr1 : (k * x - x ^ 2) / (1 + (k - 2) * x) < 1 := by
    rw [div_lt_one hden]; nlinarith [sq_pos_of_pos (by linarith : 0 < x - 1)]
  constructor
  · rw [show k * 1 - 1 ^ 2 = 1 + (k - 2) * 1 by ring, div_self (by linarith), mul_one]
  · nlinarith

/-- **C86** (limits). The axial load limits of a section of a concrete that softens are not the extreme loads it can carry: if the steel
yields before the concrete peaks, uniform compression at the peak strain is an admissible plane of the section with a larger compression
than the limit, and the bending strength at that load is refused. -/
theorem C86_limit_violated (split : Polygon → ℝ → ℝ → ShapelyResult) (ms : ℝ) (lu : Matrix (Fin 3) (Fin 3) ℝ → (Fin 3 → ℝ) → (Fin 3 → ℝ))
    (shapes : List (Polygon × Set (ℝ × ℝ))) (bars : List Bar) {fc e1 u k m el eu K L H H0 th δ : ℝ}
    (hfc : fc ≠ 0) (h0 : 0 < |e1|) (hpeak : |e1| < |u|) (hu : 1e-3 ≤ |u| ∧ |u| ≤ 5e-3) (hk : 1 < k) (hku : |u| ≤ k * |e1|)
    (hm : 0 < m) (hm1 : m ≤ 1) (hmu : m ≤ 1 + (k - 2) * (|u| / |e1|))
    {M : LawObj} (hbars : ∀ b ∈ bars, b.law = M) (hult : M.law.ult false = (-el, eu)) (heu : |u| ≤ el ∧ 1e-4 ≤ eu ∧ eu ≤ 0.09)
    (hyield : M.law.stress (-|e1|) = M.law.stress (-|u|))
    (hK : ∀ x ∈ Set.Icc (-el) eu, ∀ y ∈ Set.Icc (-el) eu, |M.law.stress x - M.law.stress y| ≤ K * |x - y|)
    (henc : ∀ p ∈ shapes, Encloses p.1.ext p.1.ints p.2) (hull : ∀ p ∈ shapes, p.2 ⊆ convexHull ℝ {v | v ∈ p.1.ext})
    (hsplit : ∀ p ∈ shapes,
      SplitsExactly split ((p.1.rotate (-th)).rotate (-Real.pi)) (rotPt (-Real.pi) '' (rotPt (-th) '' p.2)))
    (hg0 : RCGeometry 0 shapes (bars.map fun b => (b.x, b.y)) H0) (hg : RCGeometry th shapes (bars.map fun b => (b.x, b.y)) H)
    (hL : L = max (sarginSlope fc e1 u k m) K)
    (hδ : δ = L * (grossArea shapes + (bars.map fun b => |b.area|).sum) * H) (hsmall : δ ≤ 1e22) (harea : 0 < grossArea shapes)
    {T : CrossSection} (hT : T = plateSection shapes bars (sarginDiagram |fc| |e1| k) |u|) {parts : List PolyPart}
    (hparts : parts = softParts (Sargin.new fc e1 u k).stress (Sargin.new fc e1 u k).ult |u| shapes)
    {E : Engine} (hE : E = sectionEngine split (parts.map PolyPart.solid) bars ms) :
    T.Admissible ![-|e1|, 0, 0] ∧
    ∃ lo hi, (limits E .fresh).2 = .ok (lo, hi) ∧
      T.forces ![-|e1|, 0, 0] 0 = lo - (sarginDiagram |fc| |e1| k (-|u|) + |fc|) * grossArea shapes ∧ T.forces ![-|e1|, 0, 0] 0 < lo ∧
      ∀ ops, Undisturbed E lu ops .fresh →
        (bendingStrength E th (T.forces ![-|e1|, 0, 0] 0) (history E lu ops .fresh)).2 = .error .valueError := by
  have hu' : (2e-5:ℝ) ≤ |u| := by have := hu.1; norm_num at *; linarith
  have hfc0 : 0 < |fc| := abs_pos.2 hfc
  have hp := sargin_pieces (fc := fc) h0 hu' hk hku hm hm1 hmu
  subst hparts
  obtain ⟨R, hR⟩ : ∃ R, ∀ p ∈ shapes, ∀ v ∈ p.1.ext, |height th v| ≤ R := by
    have fin : (⋃ p ∈ {p | p ∈ shapes}, (fun v => |height th v|) '' {v | v ∈ p.1.ext}).Finite :=
      Set.Finite.biUnion (List.finite_toSet shapes) fun p _ => (List.finite_toSet p.1.ext).image _
    obtain ⟨R, hR⟩ := fin.bddAbove
    exact ⟨R, fun p hp v hv => hR (Set.mem_biUnion hp ⟨v, hv, rfl⟩)⟩
  obtain ⟨r1, ⟨C, -, r2⟩, -⟩ := soft_strength split ms lu shapes bars hp (sarginSlope_nonneg hk) hu hbars hult heu hK henc hull hsplit hg0 hg hR
    hL hδ hsmall rfl hT hE
  obtain ⟨p1, p2⟩ := sargin_peak hfc0 h0 hk hpeak hku
  have hval : T.forces ![-|e1|, 0, 0] 0 = T.forces ![-|u|, 0, 0] 0 - (sarginDiagram |fc| |e1| k (-|u|) + |fc|) * grossArea shapes := by
    rw [hT, plate_uniform_force shapes bars hbars, plate_uniform_force shapes bars hbars, p1, hyield]
    ring
  have hlt : T.forces ![-|e1|, 0, 0] 0 < T.forces ![-|u|, 0, 0] 0 := by
    rw [hval]
    have : 0 < (sarginDiagram |fc| |e1| k (-|u|) + |fc|) * grossArea shapes := mul_pos (by linarith) harea
    linarith
  refine ⟨?_, _, _, r1, hval, hlt, fun ops hops => (r2 _ ops hops).1 (Or.inl hlt)⟩
  have hpl : ∀ x y : ℝ, planeStrain ![-|e1|, 0, 0] x y = -|e1| := by intro x y; simp [planeStrain]
  rw [hT]
  simp only [CrossSection.Admissible, plateSection, List.forall_mem_map, hpl]
  refine ⟨fun p _ x _ => ⟨by linarith, by linarith⟩, fun b hb => ?_⟩
  rw [hbars b hb, hult]
  exact ⟨by simp only; linarith [heu.1], le_trans (by linarith : -|e1| ≤ 0) (le_trans (by norm_num : (0:ℝ) ≤ 1e-4) heu.2.1)⟩

end SC
