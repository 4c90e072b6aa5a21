import Verif.Model.MarinLaws
import Verif.Spec.Poly
import Verif.Lemmas.LawsBounds

/-!
# C13: Marin polynomial pieces reproduce the stress and the tangent
-/

set_option autoImplicit false

namespace SC

open Classical Spec

/-! ## Elastic -/

theorem C13_elastic (l : Elastic) (e0 e1 y : ℝ) :
    (l.marin e0 e1).1.ranges = none ∧ (∃ c, (l.marin e0 e1).1.coeffs = [c] ∧
      evalPoly c y = l.stress (e0 + e1 * y)) ∧
    (l.marinT e0 e1).1.ranges = none ∧ (∃ c, (l.marinT e0 e1).1.coeffs = [c] ∧
      evalPoly c y = l.tangent (e0 + e1 * y)) := by
  refine ⟨rfl, ⟨_, rfl, ?_⟩, rfl, ⟨_, rfl, ?_⟩⟩
  · simp [evalPoly, Elastic.stress]; ring
  · simp [evalPoly, Elastic.tangent]

/-! ## Uniform strain (`e1 = 0`): one constant equal to the stress, for every strain -/

theorem C13_parabola_rectangle_uniform (fc e0' u e0 y : ℝ) (h0 : 0 < |e0'|) (hu : |e0'| ≤ |u|) :
    let l := ParabolaRectangle.new fc e0' u 2
    (l.marin e0 0).1.ranges = none ∧ ∃ c, (l.marin e0 0).1.coeffs = [c] ∧
      evalPoly c y = l.stress e0 := by
  intro l
  simp only [l, ParabolaRectangle.marin, ParabolaRectangle.stress, if_true]
  generalize snap ((ParabolaRectangle.new fc e0' u 2).ult false) e0 = x
  simp only [ParabolaRectangle.core, ParabolaRectangle.new]
  by_cases h1 : x > 0
  · have a : ¬ x ≤ 0 := not_le.2 h1
    have b : ¬ x < -|e0'| := by linarith
    simp [h1, a, b, evalPoly]
  · push Not at h1
    by_cases h2 : x > -|e0'|
    · have b : ¬ x < -|e0'| := by linarith
      have c : ¬ x > 0 := not_lt.2 h1
      have d : -|e0'| ≤ x ∧ x ≤ 0 := ⟨h2.le, h1⟩
      simp only [if_neg c, if_pos h2, if_pos d]
      refine ⟨trivial, _, rfl, ?_⟩
      rw [if_neg (fun h => b h.2)]
      simp only [evalPoly]
      rw [show (2:ℝ) = ((2:ℕ):ℝ) by norm_num, Real.rpow_natCast]
      have : -|e0'| ≠ 0 := by linarith
      push_cast
      field_simp
      ring
    · push Not at h2
      by_cases h3 : x ≥ -|u|
      · have c : ¬ x > 0 := not_lt.2 h1
        have d : ¬ x > -|e0'| := not_lt.2 h2
        simp only [if_neg c, if_neg d, if_pos h3]
        refine ⟨trivial, _, rfl, ?_⟩
        rcases h2.eq_or_lt with h2 | h2
        · have e1 : -|e0'| / -|e0'| = 1 := div_self (by linarith)
          subst h2
          simp [evalPoly, e1]
        · rw [if_pos ⟨h3, h2⟩]; simp [evalPoly]
      · have c : ¬ x > 0 := not_lt.2 h1
        have d : ¬ x > -|e0'| := not_lt.2 h2
        simp only [if_neg c, if_neg d, if_neg h3]
        refine ⟨trivial, _, rfl, ?_⟩
        have e1 : ¬ -|u| ≤ x := h3
        have e2 : ¬ -|e0'| ≤ x := by linarith
        simp [evalPoly, e1, e2]

theorem C13_bilinear_uniform {fc ec u : ℝ} {l : Bilinear}
    (hl : Bilinear.new? fc ec (some u) = .ok l) (hu : |ec| ≤ |u|) (e0 y : ℝ) :
    (l.marin e0 0).1.ranges = none ∧ ∃ c, (l.marin e0 0).1.coeffs = [c] ∧
      evalPoly c y = l.stress e0 := by
  unfold Bilinear.new? at hl
  by_cases h0 : ec = 0
  · simp [h0] at hl
  simp only [h0, if_false] at hl
  cases hl
  have hec : 0 < |ec| := abs_pos.2 h0
  have hE : (⟨-|fc|, -|ec|, -|u|⟩ : Bilinear).E = |fc| / |ec| := neg_div_neg_eq _ _
  have hEe : |fc| / |ec| * |ec| = |fc| := by field_simp
  have hE0 : 0 ≤ |fc| / |ec| := by positivity
  simp only [Bilinear.marin, Bilinear.stress, if_true, Bilinear.ult, Bool.false_eq_true, if_false]
  generalize snap (-|u|, 100) e0 = x
  simp only [Bilinear.core, hE]
  by_cases h1 : x > 0
  · simp [h1, evalPoly]
  · push Not at h1
    have c : ¬ x > 0 := not_lt.2 h1
    by_cases h2 : x > -|ec|
    · simp only [if_neg c, if_pos h2]
      refine ⟨trivial, _, rfl, ?_⟩
      have d : ¬ (x > 0 ∨ x < -|u|) := by push Not; constructor <;> linarith
      rw [if_neg d, max_eq_left (by nlinarith)]
      simp [evalPoly]
    · have d : ¬ x > -|ec| := h2
      push Not at h2
      by_cases h3 : x ≥ -|u|
      · simp only [if_neg c, if_neg d, if_pos h3]
        refine ⟨trivial, _, rfl, ?_⟩
        have d : ¬ (x > 0 ∨ x < -|u|) := by push Not; exact ⟨h1, h3⟩
        rw [if_neg d, max_eq_right (by nlinarith)]
        simp [evalPoly]
      · simp only [if_neg c, if_neg d, if_neg h3]
        refine ⟨trivial, _, rfl, ?_⟩
        have : x < -|u| := not_le.1 h3
        simp [evalPoly, this]

theorem C13_elasticplastic_uniform (l : ElasticPlastic) {u : ℝ} (hE : 0 < l.E) (hfy : 0 ≤ l.fy)
    (hEh : 0 ≤ l.Eh) (hsu : l.eps_su = some u) (hu : l.fy / l.E ≤ u) (e0 y : ℝ) :
    (l.marin e0 0).1.ranges = none ∧ ∃ c, (l.marin e0 0).1.coeffs = [c] ∧
      evalPoly c y = l.stress e0 := by
  have hult : l.ult false = (-u, u) := by simp [ElasticPlastic.ult, hsu]
  have hulty : l.ult true = (-l.eps_sy, l.eps_sy) := by simp [ElasticPlastic.ult]
  have hs0 : 0 ≤ l.eps_sy := div_nonneg hfy hE.le
  change l.eps_sy ≤ u at hu
  have hsy : l.E * l.eps_sy = l.fy := by unfold ElasticPlastic.eps_sy; field_simp
  have hd : l.fy * (1 - l.Eh / l.E) = l.fy - l.Eh * l.eps_sy := by
    unfold ElasticPlastic.eps_sy; field_simp
  simp only [ElasticPlastic.marin, ElasticPlastic.stress, if_true, hult, hulty, hd]
  generalize snap (-u, u) e0 = x
  by_cases h1 : x > l.eps_sy ∧ x ≤ u
  · simp only [if_pos h1]
    refine ⟨trivial, _, rfl, ?_⟩
    have hb : ¬ l.beyond x := by
      simp only [ElasticPlastic.beyond, hsu]; push Not; constructor <;> linarith
    rw [l.core_clamp hE hfy hEh hb, min_eq_right h1.1.le, max_eq_right (by linarith)]
    simp only [evalPoly]; linear_combination -hsy
  · simp only [if_neg h1]
    by_cases h2 : x < -l.eps_sy ∧ x ≥ -u
    · simp only [if_pos h2]
      refine ⟨trivial, _, rfl, ?_⟩
      have hb : ¬ l.beyond x := by
        simp only [ElasticPlastic.beyond, hsu]; push Not; constructor <;> linarith
      rw [l.core_clamp hE hfy hEh hb, min_eq_left (by linarith), max_eq_left h2.1.le]
      simp only [evalPoly]; linear_combination hsy
    · simp only [if_neg h2]
      by_cases h3 : |x| ≤ l.eps_sy
      · simp only [if_pos h3]
        refine ⟨trivial, _, rfl, ?_⟩
        have := abs_le.1 h3
        have hb : ¬ l.beyond x := by
          simp only [ElasticPlastic.beyond, hsu]; push Not; constructor <;> linarith
        rw [l.core_clamp hE hfy hEh hb, min_eq_left this.2, max_eq_right this.1]
        simp only [evalPoly]; ring
      · simp only [if_neg h3]
        refine ⟨trivial, _, rfl, ?_⟩
        have hb : l.beyond x := by
          simp only [ElasticPlastic.beyond, hsu]
          rcases lt_abs.1 (not_le.1 h3) with c | c
          · left; by_contra hc; exact h1 ⟨c, not_lt.1 hc⟩
          · right; by_contra hc; exact h2 ⟨by linarith, not_lt.1 hc⟩
        simp [ElasticPlastic.core, hb, evalPoly]

/-! ## Strain gradient (`e1 ≠ 0`) -/

theorem C13_parabola_rectangle (fc e0' u e0 e1 : ℝ) (h0 : 0 < |e0'|) (hu : |e0'| ≤ |u|)
    (he : e1 ≠ 0) :
    let l := ParabolaRectangle.new fc e0' u 2
    ∃ rs, (l.marin e0 e1).1.ranges = some rs ∧
      PiecesMatch l.stress e0 e1 (fun e => Clear e (-|u|) ∧ Clear e 100) rs
        (l.marin e0 e1).1.coeffs := by
  intro l
  simp only [l, ParabolaRectangle.marin, if_neg he]
  have hst : ∀ e, Clear e (-|u|) ∧ Clear e 100 →
      (ParabolaRectangle.new fc e0' u 2).stress e = (ParabolaRectangle.new fc e0' u 2).core e := by
    intro e ⟨a, b⟩
    have : snap ((ParabolaRectangle.new fc e0' u 2).ult false) e = e := snap_of_clear a b
    simp only [ParabolaRectangle.stress, this]
  refine ⟨_, rfl, rfl, ⟨by simp; grind, by simp <;> grind⟩, ?_, ?_⟩
  · intro rc hrc y hok hlo hhi
    rw [hst _ hok]
    simp only [List.zip_cons_cons, List.zip_nil_right, List.mem_cons, List.not_mem_nil, or_false] at hrc
    simp only [ParabolaRectangle.core]
    rcases hrc with rfl | rfl <;> simp only [] at hlo hhi
    · have b : ¬ e0 + e1 * y < -|e0'| := by linarith
      rw [if_neg (fun h => b h.2), if_pos ⟨hlo, hhi⟩]
      rw [show (2:ℝ) = ((2:ℕ):ℝ) by norm_num, Real.rpow_natCast]
      have : -|e0'| ≠ 0 := by linarith
      simp only [evalPoly]
      push_cast
      field_simp
      ring
    · rcases hhi.eq_or_lt with hhi | hhi
      · rw [hhi, if_neg (fun h => lt_irrefl _ h.2), if_pos ⟨le_rfl, by linarith⟩,
          div_self (by linarith : -|e0'| ≠ 0)]
        simp [evalPoly]
      · rw [if_pos ⟨hlo, hhi⟩]; simp [evalPoly]
  · intro y hok hout
    rw [hst _ hok]
    have a := hout (-|e0'|, 0) (by simp)
    have b := hout (-|u|, -|e0'|) (by simp)
    simp only [ParabolaRectangle.core]
    simp only at a b
    generalize e0 + e1 * y = x at *
    have c1 : ¬ (-|u| ≤ x ∧ x < -|e0'|) := by rintro ⟨p, q⟩; rcases b with b | b <;> linarith
    have c2 : ¬ (-|e0'| ≤ x ∧ x ≤ 0) := by rintro ⟨p, q⟩; rcases a with a | a <;> linarith
    rw [if_neg c1, if_neg c2]

theorem C13_parabola_rectangle_tangent (fc e0' u e0 e1 : ℝ) (h0 : 0 < |e0'|) (hu : |e0'| ≤ |u|)
    (he : e1 ≠ 0) :
    let l := ParabolaRectangle.new fc e0' u 2
    ∃ rs, (l.marinT e0 e1).1.ranges = some rs ∧
      PiecesMatchInterior l.tangent e0 e1 (fun _ => True) rs (l.marinT e0 e1).1.coeffs := by
  intro l
  simp only [l, ParabolaRectangle.marinT, if_neg he]
  refine ⟨_, rfl, rfl, ⟨by simp; grind, by simp <;> grind⟩, ?_, ?_⟩
  · intro rc hrc y hok hlo hhi
    simp only [List.zip_cons_cons, List.zip_nil_right, List.mem_cons, List.not_mem_nil, or_false] at hrc
    simp only [ParabolaRectangle.tangent]
    rcases hrc with rfl | rfl <;> simp only [] at hlo hhi
    · rw [if_pos ⟨hlo.le, hhi.le⟩]
      rw [show (2:ℝ) - 1 = ((1:ℕ):ℝ) by norm_num, Real.rpow_natCast]
      have : -|e0'| ≠ 0 := by linarith
      simp only [evalPoly]
      field_simp
      ring
    · have b : ¬ -|e0'| ≤ e0 + e1 * y := by linarith
      rw [if_neg (fun h => b h.1)]; simp [evalPoly]
  · intro y hok hout
    have a := hout (-|e0'|, 0) (by simp)
    simp only [ParabolaRectangle.tangent]
    simp only at a
    generalize e0 + e1 * y = x at *
    have c2 : ¬ (-|e0'| ≤ x ∧ x ≤ 0) := by rintro ⟨p, q⟩; rcases a with a | a <;> linarith
    rw [if_neg c2]

theorem C13_bilinear {fc ec u : ℝ} {l : Bilinear}
    (hl : Bilinear.new? fc ec (some u) = .ok l) (hu : |ec| ≤ |u|) (e0 e1 : ℝ) (he : e1 ≠ 0) :
    (∃ rs, (l.marin e0 e1).1.ranges = some rs ∧
      PiecesMatch l.stress e0 e1 (fun e => Clear e (-|u|) ∧ Clear e 100) rs
        (l.marin e0 e1).1.coeffs) ∧
    (∃ rs, (l.marinT e0 e1).1.ranges = some rs ∧
      PiecesMatchInterior l.tangent e0 e1 (fun _ => True) rs (l.marinT e0 e1).1.coeffs) := by
  unfold Bilinear.new? at hl
  by_cases h0 : ec = 0
  · simp [h0] at hl
  simp only [h0, if_false] at hl
  cases hl
  have hec : 0 < |ec| := abs_pos.2 h0
  have hE : (⟨-|fc|, -|ec|, -|u|⟩ : Bilinear).E = |fc| / |ec| := neg_div_neg_eq _ _
  have hEe : |fc| / |ec| * |ec| = |fc| := by field_simp
  have hE0 : 0 ≤ |fc| / |ec| := by positivity
  have hst : ∀ e, Clear e (-|u|) ∧ Clear e 100 →
      Bilinear.stress ⟨-|fc|, -|ec|, -|u|⟩ e = Bilinear.core ⟨-|fc|, -|ec|, -|u|⟩ e := by
    intro e ⟨a, b⟩
    have : snap (-|u|, 100) e = e := snap_of_clear a b
    simp only [Bilinear.stress, Bilinear.ult, Bool.false_eq_true, if_false, this]
  constructor
  · simp only [Bilinear.marin, if_neg he]
    refine ⟨_, rfl, rfl, ⟨by simp; grind, by simp <;> grind⟩, ?_, ?_⟩
    · intro rc hrc y hok hlo hhi
      rw [hst _ hok]
      simp only [List.zip_cons_cons, List.zip_nil_right, List.mem_cons, List.not_mem_nil, or_false] at hrc
      simp only [Bilinear.core, hE]
      rcases hrc with rfl | rfl <;> simp only [] at hlo hhi
      · have d : ¬ (e0 + e1 * y > 0 ∨ e0 + e1 * y < -|u|) := by push Not; constructor <;> linarith
        rw [if_neg d, max_eq_left (by nlinarith)]
        simp only [evalPoly]; rw [hE]; ring
      · have d : ¬ (e0 + e1 * y > 0 ∨ e0 + e1 * y < -|u|) := by push Not; constructor <;> linarith
        rw [if_neg d, max_eq_right (by nlinarith)]; simp [evalPoly]
    · intro y hok hout
      rw [hst _ hok]
      have a := hout (-|ec|, 0) (by simp)
      have b := hout (-|u|, -|ec|) (by simp)
      simp only [Bilinear.core]
      simp only at a b
      generalize e0 + e1 * y = x at *
      have c : x > 0 ∨ x < -|u| := by
        rcases b with b | b
        · exact .inr b
        · rcases a with a | a
          · linarith
          · exact .inl a
      rw [if_pos c]
  · simp only [Bilinear.marinT, if_neg he]
    refine ⟨_, rfl, rfl, ⟨by simp; grind, by simp <;> grind⟩, ?_, ?_⟩
    · intro rc hrc y hok hlo hhi
      simp only [List.zip_cons_cons, List.zip_nil_right, List.mem_cons, List.not_mem_nil, or_false] at hrc
      simp only [Bilinear.tangent, hE]
      rcases hrc with rfl | rfl <;> simp only [] at hlo hhi
      · rw [if_pos ⟨hlo, hhi.le⟩]; simp [evalPoly, hE]
      · have : ¬ (-|ec| < e0 + e1 * y ∧ e0 + e1 * y ≤ 0) := by rintro ⟨p, q⟩; linarith
        rw [if_neg this]; simp [evalPoly]
    · intro y hok hout
      have a := hout (-|ec|, 0) (by simp)
      simp only [Bilinear.tangent]
      simp only at a
      generalize e0 + e1 * y = x at *
      have : ¬ (-|ec| < x ∧ x ≤ 0) := by rintro ⟨p, q⟩; rcases a with a | a <;> linarith
      rw [if_neg this]

theorem C13_elasticplastic (l : ElasticPlastic) {u : ℝ} (hE : 0 < l.E) (hfy : 0 ≤ l.fy)
    (hEh : 0 ≤ l.Eh) (hsu : l.eps_su = some u) (hu : l.fy / l.E ≤ u) (e0 e1 : ℝ) (he : e1 ≠ 0) :
    (∃ rs, (l.marin e0 e1).1.ranges = some rs ∧
      PiecesMatch l.stress e0 e1 (fun e => Clear e (-u) ∧ Clear e u) rs
        (l.marin e0 e1).1.coeffs) ∧
    (∃ rs, (l.marinT e0 e1).1.ranges = some rs ∧
      PiecesMatchInterior l.tangent e0 e1 (fun _ => True) rs (l.marinT e0 e1).1.coeffs) := by
  have hult : l.ult false = (-u, u) := by simp [ElasticPlastic.ult, hsu]
  have hulty : l.ult true = (-l.eps_sy, l.eps_sy) := by simp [ElasticPlastic.ult]
  have hs0 : 0 ≤ l.eps_sy := div_nonneg hfy hE.le
  change l.eps_sy ≤ u at hu
  have hsy : l.E * l.eps_sy = l.fy := by unfold ElasticPlastic.eps_sy; field_simp
  have hd : l.fy * (1 - l.Eh / l.E) = l.fy - l.Eh * l.eps_sy := by
    unfold ElasticPlastic.eps_sy; field_simp
  have hb : ∀ x, -u ≤ x → x ≤ u → ¬ l.beyond x := by
    intro x a b
    simp only [ElasticPlastic.beyond, hsu]; push Not; exact ⟨b, a⟩
  have hst : ∀ e, Clear e (-u) ∧ Clear e u → l.stress e = l.core e := by
    intro e ⟨a, b⟩
    have : snap (-u, u) e = e := snap_of_clear a b
    simp only [ElasticPlastic.stress, hult, this]
  have hcov : ∀ x, (∀ r ∈ [(-u, -l.eps_sy), (-l.eps_sy, l.eps_sy), (l.eps_sy, u)], x < r.1 ∨ r.2 < x) →
      l.beyond x := by
    intro x hout
    have a := hout (-u, -l.eps_sy) (by simp)
    have b := hout (-l.eps_sy, l.eps_sy) (by simp)
    have c := hout (l.eps_sy, u) (by simp)
    simp only at a b c
    simp only [ElasticPlastic.beyond, hsu]
    rcases a with a | a
    · exact .inr a
    · rcases c with c | c
      · rcases b with b | b <;> linarith
      · exact .inl c
  constructor
  · simp only [ElasticPlastic.marin, if_neg he, hult, hulty, hd]
    refine ⟨_, rfl, rfl, ⟨by simp; grind, by simp <;> grind⟩, ?_, ?_⟩
    · intro rc hrc y hok hlo hhi
      rw [hst _ hok]
      simp only [List.zip_cons_cons, List.zip_nil_right, List.mem_cons, List.not_mem_nil, or_false] at hrc
      rcases hrc with rfl | rfl | rfl <;> simp only [] at hlo hhi
      · rw [l.core_clamp hE hfy hEh (hb _ (by linarith) (by linarith)), min_eq_left (by linarith),
          max_eq_left hhi]
        simp only [evalPoly]; linear_combination hsy
      · rw [l.core_clamp hE hfy hEh (hb _ (by linarith) (by linarith)), min_eq_left hhi,
          max_eq_right hlo]
        simp only [evalPoly]; ring
      · rw [l.core_clamp hE hfy hEh (hb _ (by linarith) (by linarith)), min_eq_right hlo,
          max_eq_right (by linarith)]
        simp only [evalPoly]; linear_combination -hsy
    · intro y hok hout
      rw [hst _ hok]
      have := hcov _ hout
      simp [ElasticPlastic.core, this]
  · simp only [ElasticPlastic.marinT, if_neg he, hult, hulty]
    refine ⟨_, rfl, rfl, ⟨by simp; grind, by simp <;> grind⟩, ?_, ?_⟩
    · intro rc hrc y hok hlo hhi
      simp only [List.zip_cons_cons, List.zip_nil_right, List.mem_cons, List.not_mem_nil, or_false] at hrc
      rcases hrc with rfl | rfl | rfl <;> simp only [] at hlo hhi <;>
        simp only [ElasticPlastic.tangent, if_neg (hb (e0 + e1 * y) (by linarith) (by linarith))]
      · have : ¬ (-l.eps_sy ≤ e0 + e1 * y ∧ e0 + e1 * y ≤ l.eps_sy) := by rintro ⟨p, q⟩; linarith
        rw [if_neg this]; simp [evalPoly]
      · rw [if_pos ⟨hlo.le, hhi.le⟩]; simp [evalPoly]
      · have : ¬ (-l.eps_sy ≤ e0 + e1 * y ∧ e0 + e1 * y ≤ l.eps_sy) := by rintro ⟨p, q⟩; linarith
        rw [if_neg this]; simp [evalPoly]
    · intro y hok hout
      have := hcov _ hout
      simp [ElasticPlastic.tangent, this]

/-- Concrete instance of the hypotheses used above. -/
example : (0:ℝ) < 200000 ∧ (0:ℝ) ≤ 500 ∧ (0:ℝ) ≤ 1000 ∧ (500:ℝ) / 200000 ≤ 0.025 := by norm_num

/-- With no ultimate strain the Marin pieces of an elastic-plastic law stop at twice the yield
strain although the stress does not: at strain `3 eps_sy` the Marin path sees 0. -/
theorem C13_elasticplastic_violated :
    ∃ l : ElasticPlastic, 0 < l.E ∧ 0 < l.fy ∧ 0 ≤ l.Eh ∧ l.eps_su = none ∧
      ∃ rs, (l.marin 0 1).1.ranges = some rs ∧
        ¬ PiecesMatch l.stress 0 1 (fun e => Clear e (l.ult false).1 ∧ Clear e (l.ult false).2) rs
          (l.marin 0 1).1.coeffs := by
  have hu : (ElasticPlastic.ult ⟨1, 1, 0, none⟩ false) = (-2, 2) := by
    norm_num [ElasticPlastic.ult, ElasticPlastic.eps_sy]
  have hy : (ElasticPlastic.ult ⟨1, 1, 0, none⟩ true) = (-1, 1) := by
    norm_num [ElasticPlastic.ult, ElasticPlastic.eps_sy]
  refine ⟨⟨1, 1, 0, none⟩, one_pos, one_pos, le_rfl, rfl, [(-2, -1), (-1, 1), (1, 2)], ?_, ?_⟩
  · simp [ElasticPlastic.marin, hu, hy]
  · rintro ⟨-, -, -, H⟩
    have c1 : Clear (3:ℝ) 2 := by unfold Clear; norm_num [abs_of_nonneg]
    have c2 : Clear (3:ℝ) (-2) := by unfold Clear; norm_num [abs_of_nonneg, abs_of_neg]
    have H := H 3 (by rw [hu]; norm_num; exact ⟨c2, c1⟩)
      (by intro r hr; fin_cases hr <;> norm_num)
    norm_num at H
    unfold ElasticPlastic.stress at H
    rw [hu, snap_of_clear c2 c1] at H
    norm_num [ElasticPlastic.core, ElasticPlastic.beyond, ElasticPlastic.deltaSig] at H

/-! ## C14: the initial-strain wrapper -/

/-- With strain compatibility every observable of the wrapper is the wrapped one shifted. -/
theorem C14_shift (l : InitialStrain) (hc : l.compat = true)
    (w wT : ℝ → ℝ → MarinOut × ℝ) (e e0 e1 : ℝ) :
    l.stress e = l.wrapped.stress (e + l.eps0) ∧
    l.tangent e = l.wrapped.tangent (e + l.eps0) ∧
    (∀ b, l.ult b = ((l.wrapped.ult b).1 - l.eps0, (l.wrapped.ult b).2 - l.eps0)) ∧
    (l.marin w e0 e1).1 = (w (e0 + l.eps0) e1).1 ∧ (l.marinT wT e0 e1).1 = (wT (e0 + l.eps0) e1).1 := by
  refine ⟨?_, ?_, fun b => rfl, rfl, rfl⟩ <;> simp [InitialStrain.stress, InitialStrain.tangent, hc]

/-- With strain compatibility, if the wrapped law's pieces reproduce its stress then so do the
wrapper's. -/
theorem C14_marin_partial (l : InitialStrain) (hc : l.compat = true)
    (w : ℝ → ℝ → MarinOut × ℝ) (ok : ℝ → Prop) (e0 e1 : ℝ) (rs : List (ℝ × ℝ))
    (h : PiecesMatch l.wrapped.stress (e0 + l.eps0) e1 ok rs (w (e0 + l.eps0) e1).1.coeffs) :
    ∀ y, ok (e0 + l.eps0 + e1 * y) →
      (∀ rc ∈ rs.zip (l.marin w e0 e1).1.coeffs,
        rc.1.1 ≤ e0 + l.eps0 + e1 * y → e0 + l.eps0 + e1 * y ≤ rc.1.2 →
          evalPoly rc.2 y = l.stress (e0 + e1 * y)) ∧
      ((∀ r ∈ rs, e0 + l.eps0 + e1 * y < r.1 ∨ r.2 < e0 + l.eps0 + e1 * y) →
        l.stress (e0 + e1 * y) = 0) := by
  obtain ⟨-, -, h1, h2⟩ := h
  intro y hok
  have hs : l.stress (e0 + e1 * y) = l.wrapped.stress (e0 + l.eps0 + e1 * y) := by
    simp only [InitialStrain.stress, hc]; simp; congr 1; ring
  rw [hs]
  exact ⟨fun rc hrc a b => h1 rc hrc y hok a b, h2 y hok⟩

/-- Without strain compatibility `get_stress` returns the initial stress at every strain... -/
theorem C14_incompatible_stress (l : InitialStrain) (hc : l.compat = false) (e : ℝ) :
    l.stress e = l.wrapped.stress l.eps0 := by
  simp [InitialStrain.stress, InitialStrain.initialStress, hc]

/-- ... but the Marin path evaluates the wrapped law at the total strain: an unbonded elastic
tendon gets stress 3 instead of 1 at strain 2. -/
theorem C14_incompatible_marin_violated :
    ∃ (w : Elastic) (l : InitialStrain), l.wrapped = w.law ∧ l.compat = false ∧
      ∃ c, (l.marin w.marin 2 0).1.coeffs = [c] ∧ evalPoly c 0 = 3 ∧ l.stress 2 = 1 := by
  refine ⟨⟨1, none⟩, ⟨Elastic.law ⟨1, none⟩, 1, false⟩, rfl, rfl, _, rfl, ?_, ?_⟩
  · norm_num [evalPoly]
  · norm_num [InitialStrain.stress, InitialStrain.initialStress, Elastic.law, Elastic.stress]

end SC
