import Verif.Props.SarginStrength

/-! # C86: sections of concrete with the law of Popovics -/

set_option autoImplicit false

namespace SC

open Spec MeasureTheory

variable {fc ec u Ec : ℝ} {l : Popovics}

theorem popovics_new (hl : Popovics.new? fc ec u (some Ec) = .ok l) (hE : |fc| / |ec| < Ec) (hfc : fc ≠ 0) :
    0 < |ec| ∧ 1 < l.n ∧ l.n = Ec / (Ec - |fc| / |ec|) ∧ l = ⟨-|fc|, -|ec|, -|u|, l.n⟩ := by
  unfold Popovics.new? at hl
  simp only [Option.getD_some] at hl
  split_ifs at hl with g1 g2 g3
  cases hl
  have hec : 0 < |ec| := lt_of_le_of_ne (abs_nonneg _) (by intro h; apply g2; rw [← h]; simp)
  have hsec : 0 < |fc| / |ec| := div_pos (abs_pos.2 hfc) hec
  refine ⟨hec, ?_, by rw [neg_div_neg_eq], rfl⟩
  show 1 < Ec / (Ec - -|fc| / -|ec|)
  rw [neg_div_neg_eq, lt_div_iff₀ (by linarith)]; linarith

theorem popovics_spec (hl : Popovics.new? fc ec u (some Ec) = .ok l) (hE : |fc| / |ec| < Ec) (hfc : fc ≠ 0) {e : ℝ} (he : -|u| ≤ e) :
    l.core e = popovicsDiagram |fc| |ec| l.n e := by
  obtain ⟨hec, hn, -, hform⟩ := popovics_new hl hE hfc
  generalize hln : l.n = n at *
  subst hform
  simp only [Popovics.core, popovicsDiagram]
  rcases le_or_gt e 0 with h | h
  · rw [if_neg (by push Not; exact ⟨he, h⟩), max_eq_left (show (0:ℝ) ≤ -e by linarith),
      show e / -|ec| = -e / |ec| by rw [div_neg, neg_div]]
    ring
  · rw [if_pos (Or.inr h), max_eq_right (show -e ≤ (0:ℝ) by linarith)]
    simp

/-- Slope of the diagram. -/
noncomputable def popovicsSlope (fc ec n : ℝ) : ℝ := |fc| / |ec| * max (n / (n - 1)) ((n - 1) / 4)

theorem popovicsDiagram_steps {n : ℝ} (hec : 0 < |ec|) (hn : 1 < n) {a b : ℝ} (h2 : a ≤ b) (h3 : b ≤ 0) :
    |popovicsDiagram |fc| |ec| n a - popovicsDiagram |fc| |ec| n b| ≤ popovicsSlope fc ec n * (b - a) := by
  have key := popovics_lip hn (a := -b / |ec|) (b := -a / |ec|) (div_nonneg (by linarith) hec.le)
    (div_le_div_of_nonneg_right (by linarith) hec.le)
  simp only [popovicsDiagram]
  rw [max_eq_left (show (0:ℝ) ≤ -a by linarith), max_eq_left (show (0:ℝ) ≤ -b by linarith), ← mul_sub, abs_mul, abs_neg, abs_abs]
  calc _ ≤ |fc| * (max (n / (n - 1)) ((n - 1) / 4) * (-a / |ec| - -b / |ec|)) :=
        mul_le_mul_of_nonneg_left key (abs_nonneg fc)
    _ = _ := by rw [popovicsSlope]; ring

theorem popovicsDiagram_tension {n e : ℝ} (he : 0 ≤ e) : popovicsDiagram fc ec n e = 0 := by
  rw [popovicsDiagram, max_eq_right (show -e ≤ (0:ℝ) by linarith)]; simp

theorem popovicsDiagram_bounds {n : ℝ} (hec : 0 < |ec|) (hn : 1 < n) (e : ℝ) :
    -|fc| ≤ popovicsDiagram |fc| |ec| n e ∧ popovicsDiagram |fc| |ec| n e ≤ 0 := by
  simp only [popovicsDiagram]
  have q0 : 0 ≤ max (-e) 0 / |ec| := div_nonneg (le_max_right _ _) hec.le
  generalize max (-e) 0 / |ec| = x at *
  have b := popovics_den n x hn.le q0
  have hd : 0 < n - 1 + x ^ n := by have := Real.rpow_nonneg q0 n; linarith
  have r0 : 0 ≤ x * n / (n - 1 + x ^ n) := div_nonneg (mul_nonneg q0 (by linarith)) hd.le
  have r1 : x * n / (n - 1 + x ^ n) ≤ 1 := (div_le_one hd).2 b
  have hf := abs_nonneg fc
  constructor <;> nlinarith

theorem popovics_pieces (hl : Popovics.new? fc ec u (some Ec) = .ok l) (hE : |fc| / |ec| < Ec) (hfc : fc ≠ 0) (hu : 2e-5 ≤ |u|) :
    Pieces l.stress l.ult (popovicsDiagram |fc| |ec| l.n) |u| |fc| (popovicsSlope fc ec l.n) (popovicsSlope fc ec l.n * |u| / 20) := by
  have hpos : 0 < |u| := by linarith
  have hco := C08_popovics fc ec u Ec hl hE (by linarith)
  obtain ⟨hec, hn, -, hform⟩ := popovics_new hl hE hfc
  have hult : l.ult false = (-|u|, 100) := by rw [hform]; rfl
  have hnode : ∀ i ≤ 10, l.stress (tenth |u| i) = popovicsDiagram |fc| |ec| l.n (tenth |u| i) := by
    intro i hi
    rw [← popovics_spec hl hE hfc (tenth_mem hpos hi).1, Popovics.stress, hult, tenth_snap hu i hi]
  have hz : l.stress 0 = 0 := by
    have := hnode 10 le_rfl
    rw [tenth_ten] at this
    rw [this, popovicsDiagram_tension le_rfl]
  have hM : 0 ≤ popovicsSlope fc ec l.n := mul_nonneg (by positivity) (le_max_of_le_right (by linarith))
  refine ⟨hult, hco, hz, fun i hi => ?_, ?_, fun e _ => popovicsDiagram_bounds hec hn e, fun e he => popovicsDiagram_tension he, ?_,
    fun e he => ?_⟩
  · rw [hnode i (by omega), hnode (i + 1) (by omega), abs_sub_comm]
    refine (popovicsDiagram_steps hec hn (tenth_lt hpos (Nat.lt_succ_self i)).le
      (tenth_mem hpos (show i + 1 ≤ 10 by omega)).2).trans_eq ?_
    rw [Nat.succ_eq_add_one, tenth_succ]; ring
  · unfold popovicsDiagram; fun_prop
  · have := hnode 0 (by norm_num)
    rwa [tenth_zero] at this
  · rcases le_or_gt e 0 with h | h
    · obtain ⟨i, hi, t, t0, t1, rfl⟩ := tenth_cover hpos he h
      rw [polygonal_chord _ hpos i hi t t0 t1, hnode i (by omega), hnode (i + 1) (by omega)]
      exact chord_lip hpos hM (fun a b _ h2 h3 => popovicsDiagram_steps hec hn h2 h3) i hi t t0 t1
    · rw [polygonal_tension hpos hz h.le, popovicsDiagram_tension h.le, sub_self, abs_zero]
      positivity

/-- What the Marin integrator is given for such a concrete (core/base.py:268-277). -/
theorem popovics_marin (hl : Popovics.new? fc ec u (some Ec) = .ok l) (hE : |fc| / |ec| < Ec) (hfc : fc ≠ 0) (hu : 2e-5 ≤ |u|)
    (hrel : popovicsDiagram |fc| |ec| l.n (-|u|) ≤ -(|fc| * 1e-6)) {shapes : List (Polygon × Set (ℝ × ℝ))} {p : PolyPart}
    (hp : p ∈ softParts l.stress l.ult |u| shapes) (a b : ℝ) : l.marinMethod.call .keyword a b = .ok (p.law.marin a b) := by
  obtain ⟨s, -, rfl⟩ := List.mem_map.1 hp
  have hP := popovics_pieces hl hE hfc hu
  have hfc0 : 0 < |fc| := abs_pos.2 hfc
  rw [← hP.ultimate] at hrel
  have hd : l.discretized = .ok ⟨nodes l.stress |u|, -|u|, 0⟩ := by
    rw [Popovics.discretized, hP.limits]
    refine C65_nodes (popovics_samples hl) hP.compression hP.zero hu ?_ (by linarith)
    have : 0 < |fc| * 1e-6 := by positivity
    linarith
  have h : discretize (fun n => l.getStressCall (ι := Fin n)) (l.ult false) = .ok ⟨nodes l.stress |u|, -|u|, 0⟩ := by
    unfold Popovics.discretized at hd; exact hd
  simp only [Popovics.marinMethod, MarinMethod.call, baseMarin, h]; rfl

/-- **C86** (Popovics). The same for concrete with Popovics' law (initial modulus above the secant modulus); here the ten pieces may lie on
either side of the diagram, and the forces are those of the exact diagram up to the area times a twentieth of the slope times the
ultimate strain. Partial: as `C86_sargin_partial`. -/
theorem C86_popovics_partial (split : Polygon → ℝ → ℝ → ShapelyResult) (ms : ℝ) (lu : Matrix (Fin 3) (Fin 3) ℝ → (Fin 3 → ℝ) → (Fin 3 → ℝ))
    (shapes : List (Polygon × Set (ℝ × ℝ))) (bars : List Bar) {el eu K L H H0 R th δ A : ℝ}
    (hl : Popovics.new? fc ec u (some Ec) = .ok l) (hE : |fc| / |ec| < Ec) (hfc : fc ≠ 0) (hu : 1e-3 ≤ |u| ∧ |u| ≤ 5e-3)
    (hrel : popovicsDiagram |fc| |ec| l.n (-|u|) ≤ -(|fc| * 1e-6))
    {M : LawObj} (hbars : ∀ b ∈ bars, b.law = M) (hult : M.law.ult false = (-el, eu)) (heu : |u| ≤ el ∧ 1e-4 ≤ eu ∧ eu ≤ 0.09)
    (hK : ∀ x ∈ Set.Icc (-el) eu, ∀ y ∈ Set.Icc (-el) eu, |M.law.stress x - M.law.stress y| ≤ K * |x - y|)
    (henc : ∀ p ∈ shapes, Encloses p.1.ext p.1.ints p.2) (hull : ∀ p ∈ shapes, p.2 ⊆ convexHull ℝ {v | v ∈ p.1.ext})
    (hsplit : ∀ p ∈ shapes,
      SplitsExactly split ((p.1.rotate (-th)).rotate (-Real.pi)) (rotPt (-Real.pi) '' (rotPt (-th) '' p.2)))
    (hg0 : RCGeometry 0 shapes (bars.map fun b => (b.x, b.y)) H0) (hg : RCGeometry th shapes (bars.map fun b => (b.x, b.y)) H)
    (hR : ∀ p ∈ shapes, ∀ v ∈ p.1.ext, |height th v| ≤ R) (hL : L = max (popovicsSlope fc ec l.n) K)
    (hδ : δ = L * (grossArea shapes + (bars.map fun b => |b.area|).sum) * H) (hsmall : δ ≤ 1e22)
    (hAr : A = popovicsSlope fc ec l.n * |u| / 20 * grossArea shapes)
    {T : CrossSection} (hT : T = plateSection shapes bars (popovicsDiagram |fc| |ec| (Ec / (Ec - |fc| / |ec|))) |u|) {parts : List PolyPart}
    (hparts : parts = softParts l.stress l.ult |u| shapes)
    {E : Engine} (hE' : E = sectionEngine split (parts.map PolyPart.solid) bars ms) :
    (∀ p ∈ parts, ∀ a b, l.marinMethod.call .keyword a b = .ok (p.law.marin a b)) ∧
    (limits E .fresh).2 = .ok (T.forces ![-|u|, 0, 0] 0, T.forces ![eu, 0, 0] 0) ∧
    (∃ C : Set ℝ, C.Countable ∧ ∀ (n : ℝ) (ops : List Op), Undisturbed E lu ops .fresh →
      (n < T.forces ![-|u|, 0, 0] 0 ∨ T.forces ![eu, 0, 0] 0 < n →
        (bendingStrength E th n (history E lu ops .fresh)).2 = .error .valueError) ∧
      (T.forces ![-|u|, 0, 0] 0 + δ * 1e-13 < n → n < T.forces ![eu, 0, 0] 0 - δ * 1e-13 →
        ∃ b : BendingResult, (bendingStrength E th n (history E lu ops .fresh)).2 = .ok b ∧ (n ∉ C → |b.n - n| ≤ 1e-2))) ∧
    ∀ (n : ℝ) (ops : List Op) (b : BendingResult), Undisturbed E lu ops .fresh →
      (bendingStrength E th n (history E lu ops .fresh)).2 = .ok b → ∃ c < 0, ∃ e, e = planeThrough th 0 b.eps_a c ∧
        ![b.eps_a, b.chi.1, b.chi.2] = e ∧ T.Admissible e ∧ T.AtLimit e ∧ |b.n - T.forces e 0| ≤ A ∧
        |bendingMoment th ![b.n, b.m.1, b.m.2] - bendingMoment th (T.forces e)| ≤ R * A := by
  have hu' : (2e-5:ℝ) ≤ |u| := by have := hu.1; norm_num at *; linarith
  obtain ⟨hec, hn, hln, -⟩ := popovics_new hl hE hfc
  rw [← hln] at hT
  have hp := popovics_pieces hl hE hfc hu'
  have hM : 0 ≤ popovicsSlope fc ec l.n := mul_nonneg (by positivity) (le_max_of_le_right (by linarith))
  subst hparts
  obtain ⟨r1, r2, r3⟩ := soft_strength split ms lu shapes bars hp hM hu hbars hult heu hK henc hull hsplit hg0 hg hR hL hδ hsmall hAr hT hE'
  refine ⟨fun p hp a b => popovics_marin hl hE hfc hu' hrel hp a b, r1, r2, fun n ops b hops hrun => ?_⟩
  obtain ⟨c, hc, e, he, e1', ha, hlim, q1, -, q3⟩ := r3 n ops b hops hrun
  exact ⟨c, hc, e, he, e1', ha, hlim, q1, q3⟩

end SC
