import Verif.Props.Prestress
import Verif.Props.BilinearDesign
import Verif.Props.SarginCodes

/-! # C89: prestressed sections with the other concrete laws -/

set_option autoImplicit false

namespace SC

open Spec MeasureTheory

variable {lower : String → String}

/-- **C89** (design, high strength). The same for concrete above C50 to C89 to Eurocode 2 (2004) and the Model Code with the law
`parabolarectangle`, in the form of `C84_design_partial`.  Partial: see `C84_strength_partial`. -/
theorem C89_high_design_partial (hl : PyLower lower) (ccls : ConcClass) (hcls : ccls ≠ .ec2_2023) (ca : ConcArgs) (c : Built Conc)
    (hc : newConcrete lower ccls ca = some (.ok c)) (hcn : ca.law = .name "parabolarectangle")
    (hci : ca.initialStrain = none ∧ ca.initialStress = none) (hce : ca.eps_c2 = none ∧ ca.eps_cu2 = none ∧ ca.n = none)
    (hcf : 50 < |ca.fck| ∧ |ca.fck| ≤ 89)
    (scls : SteelClass) (sa : SteelArgs) (s : Built Steel)
    (hs : newSteel lower scls sa = some (.ok s)) (hsn : sa.law = .name "elasticperfectlyplastic")
    {p el eu : ℝ} (hp : Prestrain sa p)
    (hgap : designYield sa + 1e-6 + 1e-5 * designUltimate scls sa ≤ designUltimate scls sa)
    (hr : TendonRange scls sa p el eu)
    (split : Polygon → ℝ → ℝ → ShapelyResult) (ms : ℝ) (lu : Matrix (Fin 3) (Fin 3) ℝ → (Fin 3 → ℝ) → (Fin 3 → ℝ))
    (shapes : List (Polygon × Set (ℝ × ℝ))) (bars : List Bar) (id : ℕ) (hbars : ∀ b ∈ bars, b.law = ⟨id, s.mat.law⟩)
    (hA : ∀ b ∈ bars, 0 ≤ b.area)
    (henc : ∀ p ∈ shapes, Encloses p.1.ext p.1.ints p.2) (hull : ∀ p ∈ shapes, p.2 ⊆ convexHull ℝ {v | v ∈ p.1.ext})
    {th H H0 R L δ A fc e0 u k : ℝ} (hsplit : ∀ p ∈ shapes,
      SplitsExactly split ((p.1.rotate (-th)).rotate (-Real.pi)) (rotPt (-Real.pi) '' (rotPt (-th) '' p.2)))
    (hg0 : RCGeometry 0 shapes (bars.map fun b => (b.x, b.y)) H0) (hg : RCGeometry th shapes (bars.map fun b => (b.x, b.y)) H)
    (hR : ∀ p ∈ shapes, ∀ v ∈ p.1.ext, |height th v| ≤ R)
    (hfc : fc = designConcrete ccls ca) (hfc0 : 0 < fc) (he0 : e0 = plateauStrain |ca.fck|) (hu : u = crushingStrain |ca.fck|)
    (hk : k = parabolaExponent |ca.fck|) (hL : L = max (k * fc / e0) |sa.Es|)
    (hδ : δ = L * (grossArea shapes + (bars.map fun b => |b.area|).sum) * H) (hsmall : δ ≤ 1e22)
    (hAr : A = k * fc / e0 * u / 40 * grossArea shapes)
    {T : CrossSection} (hT : T = plateSection shapes bars (parabolaRectangle fc e0 k) u)
    {E : Engine} (hE : E = sectionEngine split ((parabolaParts fc e0 u k shapes).map PolyPart.solid) bars ms) :
    c.mat.law = (ParabolaRectangle.new fc e0 u k).law ∧
    (∀ p ∈ parabolaParts fc e0 u k shapes, ∀ a b, (ParabolaRectangle.new fc e0 u k).marinAny a b = .ok (p.law.marin a b)) ∧
    (limits E .fresh).2 = .ok (T.forces ![-u, 0, 0] 0, T.forces ![eu, 0, 0] 0) ∧
    (∃ C : Set ℝ, C.Countable ∧ ∀ (n : ℝ) (ops : List Op), Undisturbed E lu ops .fresh →
      (n < T.forces ![-u, 0, 0] 0 ∨ T.forces ![eu, 0, 0] 0 < n →
        (bendingStrength E th n (history E lu ops .fresh)).2 = .error .valueError) ∧
      (T.forces ![-u, 0, 0] 0 + δ * 1e-13 < n → n < T.forces ![eu, 0, 0] 0 - δ * 1e-13 →
        ∃ b : BendingResult, (bendingStrength E th n (history E lu ops .fresh)).2 = .ok b ∧ (n ∉ C → |b.n - n| ≤ 1e-2))) ∧
    ∀ (n : ℝ) (ops : List Op) (b : BendingResult), Undisturbed E lu ops .fresh →
      (bendingStrength E th n (history E lu ops .fresh)).2 = .ok b → ∃ c < 0, ∃ e, e = planeThrough th 0 b.eps_a c ∧
        ![b.eps_a, b.chi.1, b.chi.2] = e ∧ T.Admissible e ∧ T.AtLimit e ∧
        T.forces e 0 ≤ b.n ∧ b.n ≤ T.forces e 0 + A ∧
        |bendingMoment th ![b.n, b.m.1, b.m.2] - bendingMoment th (T.forces e)| ≤ R * A ∧
        ∀ v c, T.Admissible (planeThrough th 0 v c) → bendingMoment th (T.forces (planeThrough th 0 v c)) ≤
          bendingMoment th ![b.n, b.m.1, b.m.2] + R * |T.forces (planeThrough th 0 v c) 0 - b.n| + 2 * (R * A) := by
  obtain ⟨r1, r2, r3, r4, r5, r6⟩ := high_ranges hcf.1 hcf.2
  rw [← he0] at r1 r2
  rw [← hu] at r2 r3 r4
  rw [← hk] at r5 r6
  have q1 : 0 < e0 := by norm_num at *; linarith
  have q2 : 0 < u := by norm_num at *; linarith
  obtain ⟨hult, hst, hlip, hyp⟩ := tendon_facts hl hs hsn hp hgap hr
  obtain ⟨-, -, hr3, hr4, hr5⟩ := hr
  refine ⟨?_, ?_⟩
  · rw [C84_concrete hl ccls hcls ca c hc hcn hci.1 hci.2 hce.1 hce.2.1 hce.2.2 hcf.1, hfc, he0, hu, hk]
  have a1 : |fc| = fc := abs_of_pos hfc0
  have a2 : |e0| = e0 := abs_of_pos q1
  have a3 : |u| = u := abs_of_pos q2
  have hce' : chordError fc e0 u k = k * fc / e0 * u / 40 := by rw [chordError, a1, a2, a3]
  have := C84_strength_partial split ms lu shapes bars (fc := fc) (e0 := e0) (u := u) (k := k) (el := el) (eu := eu) (K := |sa.Es|) (L := L)
    (H := H) (H0 := H0) (R := R) (th := th) (δ := δ) (A := A) hfc0.ne' (by rw [a2]; exact q1) (by rw [a2, a3]; exact r2)
    (by rw [a3]; constructor <;> norm_num at * <;> linarith) (by norm_num at *; linarith) r6.ne hbars hult
    (by rw [a3]; exact ⟨r4.trans hr3, hr4, hr5⟩) hlip hyp hA henc hull hsplit hg0 hg hR (by rw [a1, a2]; exact hL)
    hδ hsmall (by rw [hce']; exact hAr) (T := T) (by rw [a1, a2, a3]; exact hT) hE
  rw [a3] at this
  exact this

/-- **C89** (design, bilinear). The same for the law `bilinearcompression`, up to C90.  Partial: see `C85_strength_partial`. -/
theorem C89_bilinear_design_partial (hl : PyLower lower) (ccls : ConcClass) (hcls : ccls ≠ .ec2_2023) (ca : ConcArgs) (c : Built Conc)
    (hc : newConcrete lower ccls ca = some (.ok c)) (hcn : ca.law = .name "bilinearcompression")
    (hci : ca.initialStrain = none ∧ ca.initialStress = none) (hce : ca.eps_c3 = none ∧ ca.eps_cu3 = none)
    (hcf : |ca.fck| ≤ 90)
    (scls : SteelClass) (sa : SteelArgs) (s : Built Steel)
    (hs : newSteel lower scls sa = some (.ok s)) (hsn : sa.law = .name "elasticperfectlyplastic")
    {p el eu : ℝ} (hp : Prestrain sa p)
    (hgap : designYield sa + 1e-6 + 1e-5 * designUltimate scls sa ≤ designUltimate scls sa)
    (hr : TendonRange scls sa p el eu)
    (split : Polygon → ℝ → ℝ → ShapelyResult) (ms : ℝ) (lu : Matrix (Fin 3) (Fin 3) ℝ → (Fin 3 → ℝ) → (Fin 3 → ℝ))
    (shapes : List (Polygon × Set (ℝ × ℝ))) (bars : List Bar) (id : ℕ) (hbars : ∀ b ∈ bars, b.law = ⟨id, s.mat.law⟩)
    (hA : ∀ b ∈ bars, 0 ≤ b.area)
    (henc : ∀ p ∈ shapes, Encloses p.1.ext p.1.ints p.2) (hull : ∀ p ∈ shapes, p.2 ⊆ convexHull ℝ {v | v ∈ p.1.ext})
    {th H H0 R L δ fc e0 u : ℝ} (hsplit : ∀ p ∈ shapes,
      SplitsExactly split ((p.1.rotate (-th)).rotate (-Real.pi)) (rotPt (-Real.pi) '' (rotPt (-th) '' p.2)))
    (hg0 : RCGeometry 0 shapes (bars.map fun b => (b.x, b.y)) H0) (hg : RCGeometry th shapes (bars.map fun b => (b.x, b.y)) H)
    (hR : ∀ p ∈ shapes, ∀ v ∈ p.1.ext, |height th v| ≤ R)
    (hfc : fc = designConcrete ccls ca) (hfc0 : 0 ≤ fc) (he0 : e0 = yieldStrain |ca.fck|) (hu : u = ultimateStrain |ca.fck|)
    (hL : L = max (fc / e0) |sa.Es|)
    (hδ : δ = L * (grossArea shapes + (bars.map fun b => |b.area|).sum) * H) (hsmall : δ ≤ 1e22)
    {T : CrossSection} (hT : T = plateSection shapes bars (bilinearDiagram fc e0) u)
    {E : Engine} (hE : E = sectionEngine split (bilinearSolids ⟨-fc, -e0, -u⟩ shapes) bars ms) :
    c.mat.law = (⟨-fc, -e0, -u⟩ : Bilinear).law ∧
    (limits E .fresh).2 = .ok (T.forces ![-u, 0, 0] 0, T.forces ![eu, 0, 0] 0) ∧
    (∃ C : Set ℝ, C.Countable ∧ ∀ (n : ℝ) (ops : List Op), Undisturbed E lu ops .fresh →
      (n < T.forces ![-u, 0, 0] 0 ∨ T.forces ![eu, 0, 0] 0 < n →
        (bendingStrength E th n (history E lu ops .fresh)).2 = .error .valueError) ∧
      (T.forces ![-u, 0, 0] 0 + δ * 1e-13 < n → n < T.forces ![eu, 0, 0] 0 - δ * 1e-13 →
        ∃ b : BendingResult, (bendingStrength E th n (history E lu ops .fresh)).2 = .ok b ∧ (n ∉ C → |b.n - n| ≤ 1e-2))) ∧
    ∀ (n : ℝ) (ops : List Op) (b : BendingResult), Undisturbed E lu ops .fresh →
      (bendingStrength E th n (history E lu ops .fresh)).2 = .ok b → ∃ c < 0, ∃ e, e = planeThrough th 0 b.eps_a c ∧
        ![b.eps_a, b.chi.1, b.chi.2] = e ∧ T.Admissible e ∧ T.AtLimit e ∧ T.forces e = ![b.n, b.m.1, b.m.2] ∧
        ∀ v c, T.Admissible (planeThrough th 0 v c) → bendingMoment th (T.forces (planeThrough th 0 v c)) ≤
          bendingMoment th ![b.n, b.m.1, b.m.2] + R * |T.forces (planeThrough th 0 v c) 0 - b.n| := by
  obtain ⟨r1, r2, r3, r4⟩ := bilinear_ranges hcf
  rw [← he0] at r1 r2
  rw [← hu] at r2 r3 r4
  have q1 : 0 < e0 := by norm_num at *; linarith
  have q2 : 0 < u := by norm_num at *; linarith
  obtain ⟨hult, hst, hlip, hyp⟩ := tendon_facts hl hs hsn hp hgap hr
  obtain ⟨-, -, hr3, hr4, hr5⟩ := hr
  have a1 : |fc| = fc := abs_of_nonneg hfc0
  have a2 : |e0| = e0 := abs_of_pos q1
  have a3 : |u| = u := abs_of_pos q2
  obtain ⟨l, hnew, hlaw⟩ := C85_concrete hl ccls hcls ca c hc hcn hci.1 hci.2 hce.1 hce.2
  rw [← hfc, ← he0, ← hu] at hnew
  have hl' : l = ⟨-fc, -e0, -u⟩ := by rw [(bilinear_new hnew).2, a1, a2, a3]
  rw [hl'] at hnew hlaw
  refine ⟨hlaw, ?_⟩
  have := C85_strength_partial split ms lu shapes bars (el := el) (eu := eu) (K := |sa.Es|) (L := L)
    (H := H) (H0 := H0) (R := R) (th := th) (δ := δ) hnew (by rw [a2, a3]; exact r2)
    (by rw [a3]; constructor <;> norm_num at * <;> linarith) hbars hult
    (by rw [a3]; exact ⟨r4.trans hr3, hr4, hr5⟩) hlip hyp hA henc hull hsplit hg0 hg hR (by rw [a1, a2]; exact hL)
    hδ hsmall (T := T) (by rw [a1, a2, a3]; exact hT) hE
  rw [a3] at this
  exact this

/-- **C89** (design, Sargin). The same for Sargin's law with the default values of the three codes.  Partial: see `C86_sargin_partial`. -/
theorem C89_sargin_design_partial (hl : PyLower lower) (ccls : ConcClass) (ca : ConcArgs) (c : Built Conc)
    (hc : newConcrete lower ccls ca = some (.ok c)) (hcn : ca.law = .name "sargin")
    (hci : ca.initialStrain = none ∧ ca.initialStress = none)
    (hce : ca.fcm = none ∧ ca.E = none ∧ ca.eps_c1 = none ∧ ca.eps_cu1 = none ∧ ca.k = none)
    (hcf : SarginRange ccls ca)
    (scls : SteelClass) (sa : SteelArgs) (s : Built Steel)
    (hs : newSteel lower scls sa = some (.ok s)) (hsn : sa.law = .name "elasticperfectlyplastic")
    {p el eu : ℝ} (hp : Prestrain sa p)
    (hgap : designYield sa + 1e-6 + 1e-5 * designUltimate scls sa ≤ designUltimate scls sa)
    (hr : TendonRange scls sa p el eu)
    (split : Polygon → ℝ → ℝ → ShapelyResult) (ms : ℝ) (lu : Matrix (Fin 3) (Fin 3) ℝ → (Fin 3 → ℝ) → (Fin 3 → ℝ))
    (shapes : List (Polygon × Set (ℝ × ℝ))) (bars : List Bar) (id : ℕ) (hbars : ∀ b ∈ bars, b.law = ⟨id, s.mat.law⟩)
    (henc : ∀ p ∈ shapes, Encloses p.1.ext p.1.ints p.2) (hull : ∀ p ∈ shapes, p.2 ⊆ convexHull ℝ {v | v ∈ p.1.ext})
    {th H H0 R L δ A fc e1 u k m : ℝ} (hsplit : ∀ p ∈ shapes,
      SplitsExactly split ((p.1.rotate (-th)).rotate (-Real.pi)) (rotPt (-Real.pi) '' (rotPt (-th) '' p.2)))
    (hg0 : RCGeometry 0 shapes (bars.map fun b => (b.x, b.y)) H0) (hg : RCGeometry th shapes (bars.map fun b => (b.x, b.y)) H)
    (hR : ∀ p ∈ shapes, ∀ v ∈ p.1.ext, |height th v| ≤ R)
    (hval : SarginValues ccls ca fc e1 u k)
    (hm : m = min 1 (1 + (k - 2) * (u / e1))) (hL : L = max (sarginSlope fc e1 u k m) |sa.Es|)
    (hδ : δ = L * (grossArea shapes + (bars.map fun b => |b.area|).sum) * H) (hsmall : δ ≤ 1e22)
    (hAr : A = fc * ((k - 1) ^ 2 * (u / e1) ^ 2 / (400 * m ^ 3)) * grossArea shapes)
    {T : CrossSection} (hT : T = plateSection shapes bars (sarginDiagram fc e1 k) u) {parts : List PolyPart}
    (hparts : parts = softParts (Sargin.new fc e1 u k).stress (Sargin.new fc e1 u k).ult u shapes)
    {E : Engine} (hE : E = sectionEngine split (parts.map PolyPart.solid) bars ms) :
    c.mat.law = (Sargin.new fc e1 u k).law ∧
    (∀ p ∈ parts, ∀ a b, (Sargin.new fc e1 u k).marinMethod.call .keyword a b = .ok (p.law.marin a b)) ∧
    (limits E .fresh).2 = .ok (T.forces ![-u, 0, 0] 0, T.forces ![eu, 0, 0] 0) ∧
    (∃ C : Set ℝ, C.Countable ∧ ∀ (n : ℝ) (ops : List Op), Undisturbed E lu ops .fresh →
      (n < T.forces ![-u, 0, 0] 0 ∨ T.forces ![eu, 0, 0] 0 < n →
        (bendingStrength E th n (history E lu ops .fresh)).2 = .error .valueError) ∧
      (T.forces ![-u, 0, 0] 0 + δ * 1e-13 < n → n < T.forces ![eu, 0, 0] 0 - δ * 1e-13 →
        ∃ b : BendingResult, (bendingStrength E th n (history E lu ops .fresh)).2 = .ok b ∧ (n ∉ C → |b.n - n| ≤ 1e-2))) ∧
    ∀ (n : ℝ) (ops : List Op) (b : BendingResult), Undisturbed E lu ops .fresh →
      (bendingStrength E th n (history E lu ops .fresh)).2 = .ok b → ∃ c < 0, ∃ e, e = planeThrough th 0 b.eps_a c ∧
        ![b.eps_a, b.chi.1, b.chi.2] = e ∧ T.Admissible e ∧ T.AtLimit e ∧
        T.forces e 0 ≤ b.n ∧ b.n ≤ T.forces e 0 + A ∧
        |bendingMoment th ![b.n, b.m.1, b.m.2] - bendingMoment th (T.forces e)| ≤ R * A := by
  obtain ⟨v1, v2, v3, v4, v5, v6, -⟩ := sargin_codes hval hcf
  obtain ⟨q0, q1, q2, q3, q4, q5, q6, q7, q8, -⟩ := sargin_fit v1 v2 v3 v4 v5 v6 hm
  have q2' : 0 < u := by norm_num at *; linarith
  obtain ⟨hult, hst, hlip, hyp⟩ := tendon_facts hl hs hsn hp hgap hr
  obtain ⟨-, -, hr3, hr4, hr5⟩ := hr
  have a1 : |fc| = fc := abs_of_pos q0
  have a2 : |e1| = e1 := abs_of_pos q1
  have a3 : |u| = u := abs_of_pos q2'
  refine ⟨C86_concrete_codes hl ccls ca c hc hcn hci.1 hci.2 hce hcf hval, ?_⟩
  have := C86_sargin_partial split ms lu shapes bars (fc := fc) (e1 := e1) (u := u) (k := k) (m := m) (el := el) (eu := eu) (K := |sa.Es|) (L := L)
    (H := H) (H0 := H0) (R := R) (th := th) (δ := δ) (A := A) q0.ne' (by rw [a2]; exact q1)
    (by rw [a3]; have := v3.2; constructor <;> norm_num at * <;> linarith) q3 (by rw [a2, a3]; exact q4) (by norm_num at *; linarith) q6
    (by rw [a2, a3]; exact q7) (by rw [a1, a2, a3]; exact q8) hbars hult
    (by rw [a3]; exact ⟨v3.2.trans hr3, hr4, hr5⟩) hlip henc hull hsplit hg0 hg hR hL
    hδ hsmall (by rw [sarginError, a1, a2, a3]; exact hAr) (T := T) (by rw [a1, a2, a3]; exact hT) (parts := parts) (by rw [a3]; exact hparts) hE
  rw [a3] at this
  exact this

end SC
