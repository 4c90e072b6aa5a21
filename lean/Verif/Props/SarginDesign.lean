import Verif.Props.SarginStrength
import Verif.Props.BilinearDesign

/-! # C86: from the material objects -/

set_option autoImplicit false

namespace SC

open Spec MeasureTheory

variable {lower : String → String}

/-- **C86** (concrete). A concrete to Eurocode 2 (2004) with default values and the law `sargin` has Sargin's diagram of table 3.1, for its
mean strength. -/
theorem C86_concrete (hl : PyLower lower) (a : ConcArgs) (b : Built Conc)
    (h : newConcrete lower .ec2_2004 a = some (.ok b)) (hn : a.law = .name "sargin")
    (hi1 : a.initialStrain = none) (hi2 : a.initialStress = none)
    (hd : a.fcm = none ∧ a.E = none ∧ a.eps_c1 = none ∧ a.eps_cu1 = none ∧ a.k = none) :
    b.mat.law = (Sargin.new (|a.fck| + 8) (peakStrain (|a.fck| + 8)) (fractureStrain |a.fck|) (plasticity (|a.fck| + 8))).law := by
  obtain ⟨d1, d2, d3, d4, d5⟩ := hd
  have hmat : ∀ law, Material.create a.density a.initialStrain a.initialStress a.compat law = some (.ok b.mat) → b.mat.law = law := by
    intro law hm
    rw [hi1, hi2, C15_none] at hm
    simp only [Option.some.injEq, Except.ok.injEq] at hm
    rw [← hm]
  have hu : fractureStrain |a.fck| = EC2_2004.eps_cu1 |a.fck| := by
    simp only [fractureStrain, EC2_2004.eps_cu1, abs_abs, EC2_2004.fcm, MC2010.fcm]
    split_ifs
    · norm_num
    · rw [abs_of_pos (show (0:ℝ) < 8 by norm_num)]
      congr 4
      ring
  obtain ⟨law, hm, hx⟩ := C47_law_ec2_2004 hl a b _ h hn
  simp only [String.reduceEq, false_and, true_and, false_or, or_false] at hx
  obtain ⟨fc, e, u, k, e1, e2, e3, e4, hlaw⟩ := hx
  obtain ⟨-, -, v1, -, -, -, -, -, v2, v3, v4, -⟩ := C47_values_ec2_2004 a b h _ _ _ _ rfl rfl rfl rfl
  rw [v1] at e1
  rw [v2] at e2
  rw [v3] at e3
  rw [v4] at e4
  simp only [Except.ok.injEq, d1, d2, d3, d4, d5, given, Option.getD_none] at e1 e2 e3 e4
  rw [hmat law hm, hlaw, ← e1, ← e2, ← e3, ← e4, hu]
  rfl

/-- **C86** (constructors). With default strains the law `sargin` is accepted exactly for consistent arguments. -/
theorem C86_accepts (hl : PyLower lower) (a : ConcArgs)
    (hlaw : a.law = .name "sargin") (h1 : a.initialStrain = none) (h2 : a.initialStress = none) :
    (∃ b, newConcrete lower .ec2_2004 a = some (.ok b)) ↔ ¬ Inconsistent a := by
  refine ⟨fun ⟨b, hb⟩ => newConcrete_consistent hb, fun hc => ?_⟩
  have hlook : constitutiveLaws.lookup (lower "sargin") = some .sargin := by
    rw [hl.fixed _ (by simp)]; simp [constitutiveLaws, List.lookup]
  have hF : 0 < given a.fcm (|a.fck| + 8) := (abs_nonneg _).trans_lt (fcm_pos hc)
  have f1 : ConcreteEC2_2004.fcm a.store = .ok (given a.fcm (|a.fck| + 8)) := by
    unfold ConcreteEC2_2004.fcm
    simp only [ConcArgs.store, orElse_map, EC2_2004.fcm, MC2010.fcm, abs_abs]
    norm_num
  have hkw : ∃ e u k, ConcreteEC2_2004.methods a.store ("__" ++ "sargin" ++ "__") =
      some (.ok (.sargin (given a.fcm (|a.fck| + 8)) e u k)) := by
    rw [show "__" ++ "sargin" ++ "__" = "__sargin__" by decide]
    have g1 : ∃ v, ConcreteEC2_2004.eps_c1 a.store = .ok v := by
      unfold ConcreteEC2_2004.eps_c1
      simp only [f1]
      exact ⟨_, orElse_map _ _⟩
    have g2 : ∃ v, ConcreteEC2_2004.eps_cu1 a.store = .ok v := ⟨_, orElse_map _ _⟩
    obtain ⟨v1, g1⟩ := g1
    obtain ⟨v2, g2⟩ := g2
    have g0 : ∃ v, ConcreteEC2_2004.Ecm a.store = .ok v := by
      unfold ConcreteEC2_2004.Ecm
      simp only [f1]
      exact ⟨_, orElse_map _ _⟩
    obtain ⟨v0, g0⟩ := g0
    have g3 : ∃ v, ConcreteEC2_2004.k_sargin a.store = .ok v := by
      simp only [ConcreteEC2_2004.k_sargin, g0, f1, g1, except_bind_ok, EC2_2004.k_sargin, pyDiv_ok hF.ne']
      cases hk : a.store.k
      · simp only [orElse]
        exact ⟨_, pyDiv_ok hF.ne'⟩
      · simp [orElse]
    obtain ⟨v3, g3⟩ := g3
    refine ⟨v1, v2, v3, ?_⟩
    simp only [ConcreteEC2_2004.methods, String.reduceEq, if_true, if_false, f1, g1, g2, g3]
    rfl
  obtain ⟨e, u, k, hkw⟩ := hkw
  have hs : ∃ l, selectLaw lower "concrete" a.law (ConcClass.methods .ec2_2004 a.store) = .ok l := by
    rw [hlaw]
    exact ⟨_, selectLaw_name_mk (l := .sargin (Sargin.new (given a.fcm (|a.fck| + 8)) e u k))
      hlook hkw (by simp only [mkLaw]) (by simp [AnyLaw.materials])⟩
  obtain ⟨l, hs⟩ := hs
  exact ⟨_, newConcrete_mk h1 h2 (check_ok.2 hc) hs⟩

theorem rpow_le_of_pow {f b c : ℝ} {p q : ℕ} (hf : 0 ≤ f) (hb : f ≤ b) (hc : 0 ≤ c) (hq : q ≠ 0) (h : b ^ p ≤ c ^ q) :
    f ^ ((p:ℝ) / q) ≤ c := by
  have hb0 : 0 ≤ b := hf.trans hb
  have hle : f ^ ((p:ℝ) / q) ≤ b ^ ((p:ℝ) / q) := Real.rpow_le_rpow hf hb (by positivity)
  refine hle.trans ?_
  have e1 : b ^ ((p:ℝ) / q) = (b ^ p) ^ ((1:ℝ) / q) := by
    rw [← Real.rpow_natCast, ← Real.rpow_mul hb0]; congr 1; ring
  have e2 : c = (c ^ q) ^ ((1:ℝ) / q) := by
    rw [← Real.rpow_natCast, ← Real.rpow_mul hc, mul_one_div_cancel (by exact_mod_cast hq), Real.rpow_one]
  rw [e1]
  conv_rhs => rw [e2]
  exact Real.rpow_le_rpow (by positivity) h (by positivity)

/-- The default values of Eurocode 2 (2004) up to C90. -/
theorem sargin_ranges {f : ℝ} (h1 : 12 ≤ f) (h2 : f ≤ 90) : 0.0007 ≤ peakStrain (f + 8) ∧ peakStrain (f + 8) ≤ 0.0028 ∧
    0.0028 ≤ fractureStrain f ∧ fractureStrain f ≤ 0.0035 ∧ 1.25 ≤ plasticity (f + 8) ∧ plasticity (f + 8) ≤ 65 ∧
    0.0036 ≤ plasticity (f + 8) * peakStrain (f + 8) := by
  have hu : 0.0028 ≤ fractureStrain f ∧ fractureStrain f ≤ 0.0035 := by
    unfold fractureStrain
    split_ifs with h
    · norm_num
    · push Not at h
      have a0 : (0:ℝ) ≤ (90 - f) / 100 := by linarith
      have a1 : (90 - f) / 100 ≤ 0.4 := by norm_num at *; linarith
      have p0 : 0 ≤ ((90 - f) / 100) ^ 4 := by positivity
      have p1 : ((90 - f) / 100) ^ 4 ≤ 0.4 ^ 4 := pow_le_pow_left₀ a0 a1 4
      norm_num at *
      constructor <;> linarith
  set F := f + 8 with hF
  have hF1 : 20 ≤ F := by linarith
  have hF2 : F ≤ 98 := by linarith
  have hF0 : 0 < F := by linarith
  have hpow : ∀ {x y : ℝ}, F ^ x * F ^ y = F ^ (x + y) := fun {x y} => (Real.rpow_add hF0 x y).symm
  set a := F ^ (0.3:ℝ) with ha
  set r := F ^ (0.31:ℝ) with hr
  have a10 : (F / 10) ^ (0.3:ℝ) = a / (10:ℝ) ^ (0.3:ℝ) := Real.div_rpow hF0.le (by norm_num) _
  have ht : (10:ℝ) ^ (0.3:ℝ) ≤ 2 := by
    have := rpow_le_of_pow (f := 10) (b := 10) (c := 2) (p := 3) (q := 10) (by norm_num) le_rfl (by norm_num) (by norm_num) (by norm_num)
    norm_num at this ⊢; exact this
  have ht1 : 1 ≤ (10:ℝ) ^ (0.3:ℝ) := Real.one_le_rpow (by norm_num) (by norm_num)
  have hr1 : 1 ≤ r := Real.one_le_rpow (by linarith) (by norm_num)
  have ha1 : 1 ≤ a := Real.one_le_rpow (by linarith) (by norm_num)
  have haF : a ≤ F := by
    rw [ha]; conv_rhs => rw [← Real.rpow_one F]
    exact Real.rpow_le_rpow_of_exponent_le (by linarith) (by norm_num)
  -- a r² F^0.08 = F, a r F^0.39 = F, a F^0.7 = F
  have i1 : a * r ^ 2 * F ^ (0.08:ℝ) = F := by
    rw [sq, ha, hr, ← mul_assoc, hpow, hpow, hpow]; norm_num
  have i2 : a * r * F ^ (0.39:ℝ) = F := by
    rw [ha, hr, hpow, hpow]; norm_num
  have i3 : a * F ^ (0.7:ℝ) = F := by
    rw [ha, hpow]; norm_num
  have b1 : F ^ (0.08:ℝ) ≤ 1.45 := by
    have := rpow_le_of_pow (f := F) (b := 98) (c := 1.45) (p := 8) (q := 100) hF0.le hF2 (by norm_num) (by norm_num) (by norm_num)
    norm_num at this ⊢; exact this
  have b2 : F ^ (0.39:ℝ) ≤ 6 := by
    have := rpow_le_of_pow (f := F) (b := 98) (c := 6) (p := 39) (q := 100) hF0.le hF2 (by norm_num) (by norm_num) (by norm_num)
    norm_num at this ⊢; exact this
  have b3 : F ^ (0.7:ℝ) ≤ 25 := by
    have := rpow_le_of_pow (f := F) (b := 98) (c := 25) (p := 7) (q := 10) hF0.le hF2 (by norm_num) (by norm_num) (by norm_num)
    norm_num at this ⊢; exact this
  have j1 : F ≤ a * r ^ 2 * 1.45 := by conv_lhs => rw [← i1]
                                       exact mul_le_mul_of_nonneg_left b1 (by positivity)
  have j2 : F ≤ a * r * 6 := by conv_lhs => rw [← i2]
                                exact mul_le_mul_of_nonneg_left b2 (by positivity)
  have j3 : F ≤ a * 25 := by conv_lhs => rw [← i3]
                             exact mul_le_mul_of_nonneg_left b3 (by positivity)
  have hk : plasticity F = 23100 * a * peakStrain F / ((10:ℝ) ^ (0.3:ℝ) * F) := by
    rw [plasticity, a10]
    have : (10:ℝ) ^ (0.3:ℝ) ≠ 0 := by positivity
    field_simp
    ring
  generalize (10:ℝ) ^ (0.3:ℝ) = t at *
  have htF : 0 < t * F := by positivity
  have htF2 : t * F ≤ 2 * F := mul_le_mul_of_nonneg_right ht hF0.le
  have htF1 : F ≤ t * F := by nlinarith
  refine ⟨?_, ?_, hu.1, hu.2, ?_, ?_, ?_⟩
  · rw [peakStrain, ← hr, le_div_iff₀ (by norm_num)]
    refine le_min ?_ (by norm_num)
    norm_num; linarith
  · rw [peakStrain, div_le_iff₀ (by norm_num)]
    exact (min_le_right _ _).trans (by norm_num)
  · rw [hk, le_div_iff₀ htF, peakStrain, ← hr]
    rcases le_total (0.7 * r) 2.8 with h | h
    · rw [min_eq_left h]; norm_num at *; nlinarith
    · rw [min_eq_right h]; norm_num at *; nlinarith
  · rw [hk, div_le_iff₀ htF, peakStrain, ← hr]
    have hm : min (0.7 * r) 2.8 ≤ 2.8 := min_le_right _ _
    generalize min (0.7 * r) 2.8 = q at *
    have := mul_le_mul_of_nonneg_left hm (by linarith : 0 ≤ a)
    norm_num at *; linarith
  · rw [hk, div_mul_eq_mul_div, le_div_iff₀ htF, peakStrain, ← hr]
    rcases le_total (0.7 * r) 2.8 with h | h
    · rw [min_eq_left h]; norm_num at *; nlinarith
    · rw [min_eq_right h]; norm_num at *; nlinarith

/-- What the strength theorem needs of the default values. -/
theorem sargin_default {f : ℝ} (h1 : 12 ≤ f) (h2 : f ≤ 90) {F e1 u k m : ℝ} (hF : F = f + 8) (he1 : e1 = peakStrain F)
    (hu : u = fractureStrain f) (hk : k = plasticity F) (hm : m = min 1 (1 + (k - 2) * (u / e1))) :
    0 < F ∧ 0 < e1 ∧ (1e-3 ≤ u ∧ u ≤ 0.0035) ∧ 1 < k ∧ u ≤ k * e1 ∧ 0.0625 ≤ m ∧ m ≤ 1 ∧ m ≤ 1 + (k - 2) * (u / e1) ∧
      sarginDiagram F e1 k (-u) ≤ -(F * 1e-6) ∧ sarginSlope F e1 u k m ≤ 6e10 := by
  obtain ⟨r1, r2, r3, r4, r5, r6, r7⟩ := sargin_ranges h1 h2
  rw [← hF] at r1 r2 r5 r6 r7
  rw [← he1] at r1 r2 r7
  rw [← hu] at r3 r4
  rw [← hk] at r5 r6 r7
  have hF0 : 0 < F := by linarith
  have q1 : 0 < e1 := by norm_num at *; linarith
  have q2 : 0 < u := by norm_num at *; linarith
  have x0 : 0 < u / e1 := div_pos q2 q1
  have x1 : u / e1 ≤ 5 := by rw [div_le_iff₀ q1]; norm_num at *; linarith
  have x2 : u / e1 ≤ k - 1e-4 / e1 := by
    rw [div_le_iff₀ q1, sub_mul, div_mul_cancel₀ _ q1.ne']
    norm_num at *; linarith
  have x3 : 0.035 ≤ 1e-4 / e1 := by rw [le_div_iff₀ q1]; norm_num at *; linarith
  have hxk : u / e1 ≤ k - 0.035 := by linarith
  have hx1 : 1 ≤ u / e1 := by rw [le_div_iff₀ q1]; norm_num at *; linarith
  have hden : 0.0625 ≤ 1 + (k - 2) * (u / e1) := by
    rcases le_or_gt 2 k with h | h
    · have := mul_nonneg (by linarith : 0 ≤ k - 2) x0.le
      norm_num at *; linarith
    · have : (k - 2) * k ≤ (k - 2) * (u / e1) := mul_le_mul_of_nonpos_left (by norm_num at *; linarith) (by linarith)
      have : (0.25:ℝ) * 0.25 ≤ (k - 1) * (k - 1) := mul_le_mul (by norm_num at *; linarith) (by norm_num at *; linarith) (by norm_num) (by norm_num at *; linarith)
      norm_num at *; nlinarith
  have hm0 : 0.0625 ≤ m := by rw [hm]; exact le_min (by norm_num) hden
  have hm1 : m ≤ 1 := by rw [hm]; exact min_le_left _ _
  refine ⟨hF0, q1, ⟨by norm_num at *; linarith, r4⟩, by norm_num at *; linarith, by norm_num at *; linarith, hm0, hm1,
    by rw [hm]; exact min_le_right _ _, ?_, ?_⟩
  · rw [sarginDiagram, neg_neg, max_eq_left q2.le]
    generalize u / e1 = x at *
    have hd0 : 0 < 1 + (k - 2) * x := by norm_num at *; linarith
    have key : 1e-6 ≤ (k * x - x ^ 2) / (1 + (k - 2) * x) := by
      rw [le_div_iff₀ hd0]
      have e1 : x * 0.035 ≤ x * (k - x) := mul_le_mul_of_nonneg_left (by linarith) x0.le
      have e2 : (k - 2) * x ≤ 65 * 5 := mul_le_mul (by linarith) x1 x0.le (by norm_num)
      norm_num at *; nlinarith
    have := mul_le_mul_of_nonneg_left key hF0.le
    linarith
  · have hF98 : F ≤ 98 := by linarith
    rw [sarginSlope, abs_of_pos hF0, abs_of_pos q1, abs_of_pos q2]
    generalize u / e1 = x at *
    have a1 : F / e1 ≤ 140000 := by rw [div_le_iff₀ q1]; norm_num at *; linarith
    have a2 : |k - 2| ≤ 63 := abs_le.2 ⟨by norm_num at *; linarith, by linarith⟩
    have a3 : x ^ 2 ≤ 25 := by nlinarith
    have a4 : |k - 2| * x ^ 2 ≤ 63 * 25 := mul_le_mul a2 a3 (sq_nonneg _) (by norm_num)
    have a5 : (k + 2 * x + |k - 2| * x ^ 2) / m ^ 2 ≤ 1650 / 0.0625 ^ 2 :=
      div_le_div₀ (by norm_num) (by linarith) (by norm_num) (pow_le_pow_left₀ (by norm_num) hm0 2)
    have a6 : 0 ≤ (k + 2 * x + |k - 2| * x ^ 2) / m ^ 2 := by
      have : 0 ≤ k := by norm_num at *; linarith
      positivity
    refine (mul_le_mul a1 a5 a6 (by norm_num)).trans ?_
    norm_num

/-- **C86** (design). The same from the arguments of the material constructors, for concrete to Eurocode 2 (2004) from C12 to C90 with the
default values of Sargin's law. Partial: see `C86_sargin_partial`. -/
theorem C86_design_partial (hl : PyLower lower) (ca : ConcArgs) (c : Built Conc)
    (hc : newConcrete lower .ec2_2004 ca = some (.ok c)) (hcn : ca.law = .name "sargin")
    (hci : ca.initialStrain = none ∧ ca.initialStress = none)
    (hce : ca.fcm = none ∧ ca.E = none ∧ ca.eps_c1 = none ∧ ca.eps_cu1 = none ∧ ca.k = none)
    (hcf : 12 ≤ |ca.fck| ∧ |ca.fck| ≤ 90)
    (scls : SteelClass) (sa : SteelArgs) (s : Built Steel)
    (hs : newSteel lower scls sa = some (.ok s)) (hsn : sa.law = .name "elasticperfectlyplastic")
    (hsi : sa.initialStrain = none ∧ sa.initialStress = none)
    (hgap : designYield sa + 1e-6 + 1e-5 * designUltimate scls sa ≤ designUltimate scls sa)
    {eu : ℝ} (heud : eu = designUltimate scls sa) (heu : 0.0035 ≤ eu ∧ eu ≤ 0.09)
    (split : Polygon → ℝ → ℝ → ShapelyResult) (ms : ℝ) (lu : Matrix (Fin 3) (Fin 3) ℝ → (Fin 3 → ℝ) → (Fin 3 → ℝ))
    (shapes : List (Polygon × Set (ℝ × ℝ))) (bars : List Bar) (id : ℕ) (hbars : ∀ b ∈ bars, b.law = ⟨id, s.mat.law⟩)
    (henc : ∀ p ∈ shapes, Encloses p.1.ext p.1.ints p.2) (hull : ∀ p ∈ shapes, p.2 ⊆ convexHull ℝ {v | v ∈ p.1.ext})
    {th H H0 R L δ A fc e1 u k m : ℝ} (hsplit : ∀ p ∈ shapes,
      SplitsExactly split ((p.1.rotate (-th)).rotate (-Real.pi)) (rotPt (-Real.pi) '' (rotPt (-th) '' p.2)))
    (hg0 : RCGeometry 0 shapes (bars.map fun b => (b.x, b.y)) H0) (hg : RCGeometry th shapes (bars.map fun b => (b.x, b.y)) H)
    (hR : ∀ p ∈ shapes, ∀ v ∈ p.1.ext, |height th v| ≤ R)
    (hfc : fc = |ca.fck| + 8) (he1 : e1 = peakStrain fc) (hu : u = fractureStrain |ca.fck|) (hk : k = plasticity fc)
    (hm : m = min 1 (1 + (k - 2) * (u / e1))) (hL : L = max (sarginSlope fc e1 u k m) |sa.Es|)
    (hδ : δ = L * (grossArea shapes + (bars.map fun b => |b.area|).sum) * H) (hsmall : δ ≤ 1e22)
    (hAr : A = fc * ((k - 1) ^ 2 * (u / e1) ^ 2 / (400 * m ^ 3)) * grossArea shapes)
    {T : CrossSection} (hT : T = plateSection shapes bars (sarginDiagram fc e1 k) u) {parts : List PolyPart}
    (hparts : parts = softParts (Sargin.new fc e1 u k).stress (Sargin.new fc e1 u k).ult u shapes)
    {E : Engine} (hE : E = sectionEngine split (parts.map PolyPart.solid) bars ms) :
    c.mat.law = (Sargin.new fc e1 u k).law ∧
    (∀ p ∈ parts, ∀ a b, (Sargin.new fc e1 u k).marinMethod.call .keyword a b = .ok (p.law.marin a b)) ∧
    (limits E .fresh).2 = .ok (T.forces ![-u, 0, 0] 0, T.forces ![eu, 0, 0] 0) ∧
    (∃ C : Set ℝ, C.Countable ∧ ∀ (n : ℝ) (ops : List Op), Undisturbed E lu ops .fresh →
      (n < T.forces ![-u, 0, 0] 0 ∨ T.forces ![eu, 0, 0] 0 < n →
        (bendingStrength E th n (history E lu ops .fresh)).2 = .error .valueError) ∧
      (T.forces ![-u, 0, 0] 0 + δ * 1e-13 < n → n < T.forces ![eu, 0, 0] 0 - δ * 1e-13 →
        ∃ b : BendingResult, (bendingStrength E th n (history E lu ops .fresh)).2 = .ok b ∧ (n ∉ C → |b.n - n| ≤ 1e-2))) ∧
    ∀ (n : ℝ) (ops : List Op) (b : BendingResult), Undisturbed E lu ops .fresh →
      (bendingStrength E th n (history E lu ops .fresh)).2 = .ok b → ∃ c < 0, ∃ e, e = planeThrough th 0 b.eps_a c ∧
        ![b.eps_a, b.chi.1, b.chi.2] = e ∧ T.Admissible e ∧ T.AtLimit e ∧
        T.forces e 0 ≤ b.n ∧ b.n ≤ T.forces e 0 + A ∧
        |bendingMoment th ![b.n, b.m.1, b.m.2] - bendingMoment th (T.forces e)| ≤ R * A := by
  obtain ⟨q0, q1, q2, q3, q4, q5, q6, q7, q8, -⟩ := sargin_default hcf.1 hcf.2 hfc he1 hu hk hm
  have q2' : 0 < u := by have := q2.1; norm_num at *; linarith
  obtain ⟨hult, hst, hlip⟩ := C73_steel hl scls sa s hs hsn hsi.1 hsi.2 hgap
  rw [← heud] at hult hst
  have a1 : |fc| = fc := abs_of_pos q0
  have a2 : |e1| = e1 := abs_of_pos q1
  have a3 : |u| = u := abs_of_pos q2'
  refine ⟨?_, ?_⟩
  · rw [C86_concrete hl ca c hc hcn hci.1 hci.2 hce, hk, he1, hu, hfc]
  have := C86_sargin_partial split ms lu shapes bars (fc := fc) (e1 := e1) (u := u) (k := k) (m := m) (eu := eu) (K := |sa.Es|) (L := L)
    (H := H) (H0 := H0) (R := R) (th := th) (δ := δ) (A := A) q0.ne' (by rw [a2]; exact q1)
    (by rw [a3]; constructor <;> norm_num at * <;> linarith) q3 (by rw [a2, a3]; exact q4) (by norm_num at *; linarith) q6
    (by rw [a2, a3]; exact q7) (by rw [a1, a2, a3]; exact q8) hbars hult
    (by rw [a3]; exact ⟨q2.2.trans heu.1, by have := heu.1; norm_num at *; linarith, heu.2⟩) (by rw [hult] at hlip; exact hlip) henc hull hsplit hg0 hg hR hL
    hδ hsmall (by rw [sarginError, a1, a2, a3]; exact hAr) (T := T) (by rw [a1, a2, a3]; exact hT) (parts := parts) (by rw [a3]; exact hparts) hE
  rw [a3] at this
  exact this

end SC
