import Verif.Props.OrdinaryRC
import Verif.Props.LawsBounds

/-! # C76: hardening steel - the jump of the law at its limit strain, and the search

`preprocess_strains_with_limits` replaces strains close to the limit strain by the limit strain (core/base.py:200-219).  With a hardening
branch the stress therefore jumps just below the limit strain. -/

set_option autoImplicit false

namespace SC

open Spec MeasureTheory

/-- How close to the limit strain `u` a strain is taken for the limit strain. -/
noncomputable def snapWidth (u : ℝ) : ℝ := 1e-6 + 1e-5 * u

/-- Elastic - plastic with non-negative hardening and limit strains `±u` beyond yielding. -/
structure Hardening (l : ElasticPlastic) (u : ℝ) : Prop where
  E : 0 < l.E
  fy : 0 ≤ l.fy
  Eh : 0 ≤ l.Eh ∧ l.Eh ≤ l.E
  su : l.eps_su = some u
  plateau : l.eps_sy + 1e-6 + snapWidth u ≤ u

namespace Hardening

variable {l : ElasticPlastic} {u : ℝ}

theorem sy_nonneg (h : Hardening l u) : 0 ≤ l.eps_sy := div_nonneg h.fy h.E.le

theorem u_pos (h : Hardening l u) : 2e-6 ≤ u ∧ 0 < snapWidth u ∧ l.eps_sy + snapWidth u < u := by
  have h1 := h.sy_nonneg
  have h2 := h.plateau
  have h3 : 0 ≤ u := by
    unfold snapWidth at h2
    norm_num at h2
    linarith
  unfold snapWidth at *
  norm_num at *
  refine ⟨by linarith, by linarith, by linarith⟩

theorem limits (h : Hardening l u) : l.ult false = (-u, u) := by simp [ElasticPlastic.ult, h.su]

theorem core (h : Hardening l u) {x : ℝ} (h1 : -u ≤ x) (h2 : x ≤ u) :
    l.core x = l.Eh * x + (l.E - l.Eh) * max (-l.eps_sy) (min x l.eps_sy) :=
  l.core_clamp h.E h.fy h.Eh.1 (by simp only [ElasticPlastic.beyond, h.su]; push Not; exact ⟨h2, h1⟩)

theorem core_lipschitz (h : Hardening l u) {x y : ℝ} (hx1 : -u ≤ x) (hx2 : x ≤ u) (hy1 : -u ≤ y) (hy2 : y ≤ u) :
    |l.core x - l.core y| ≤ l.E * |x - y| := by
  rw [h.core hx1 hx2, h.core hy1 hy2]
  have h1 : |max (-l.eps_sy) (min x l.eps_sy) - max (-l.eps_sy) (min y l.eps_sy)| ≤ |x - y| := by
    have a := abs_max_sub_max_le_max (-l.eps_sy) (min x l.eps_sy) (-l.eps_sy) (min y l.eps_sy)
    have b := abs_min_sub_min_le_max x l.eps_sy y l.eps_sy
    have e1 : |(-l.eps_sy) - -l.eps_sy| = 0 := by simp
    have e2 : |l.eps_sy - l.eps_sy| = 0 := by simp
    rw [e1, max_eq_right (abs_nonneg (min x l.eps_sy - min y l.eps_sy))] at a
    rw [e2, max_eq_left (abs_nonneg (x - y))] at b
    exact a.trans b
  have e : l.Eh * x + (l.E - l.Eh) * max (-l.eps_sy) (min x l.eps_sy) - (l.Eh * y + (l.E - l.Eh) * max (-l.eps_sy) (min y l.eps_sy)) =
      l.Eh * (x - y) + (l.E - l.Eh) * (max (-l.eps_sy) (min x l.eps_sy) - max (-l.eps_sy) (min y l.eps_sy)) := by ring
  rw [e]
  refine (abs_add_le _ _).trans ?_
  rw [abs_mul, abs_mul, abs_of_nonneg h.Eh.1, abs_of_nonneg (sub_nonneg.2 h.Eh.2)]
  have := mul_le_mul_of_nonneg_left h1 (sub_nonneg.2 h.Eh.2)
  linarith

/-- The hardening branch in tension. -/
theorem core_high (h : Hardening l u) {x : ℝ} (h1 : l.eps_sy ≤ x) (h2 : x ≤ u) : l.core x = l.Eh * x + (l.E - l.Eh) * l.eps_sy := by
  have := h.sy_nonneg
  have := h.u_pos.1
  norm_num at *
  rw [h.core (by linarith) h2, min_eq_right h1, max_eq_right (by linarith)]

/-- The hardening branch in compression. -/
theorem core_low (h : Hardening l u) {x : ℝ} (h1 : -u ≤ x) (h2 : x ≤ -l.eps_sy) : l.core x = l.Eh * x - (l.E - l.Eh) * l.eps_sy := by
  have := h.sy_nonneg
  have := h.u_pos.1
  norm_num at *
  rw [h.core h1 (by linarith), min_eq_left (by linarith), max_eq_left h2]
  ring

/-- Close to the limit strain in tension. -/
theorem stress_high (h : Hardening l u) {x : ℝ} (h1 : u - snapWidth u ≤ x) (h2 : x ≤ u) : l.stress x = l.core u := by
  have c : isclose x u := by
    unfold isclose
    have := h.u_pos.1
    rw [abs_le, abs_of_nonneg (by norm_num at *; linarith)]
    unfold snapWidth at h1
    constructor
    · linarith
    · have := h.u_pos.2.1
      unfold snapWidth at this
      linarith
  rw [ElasticPlastic.stress, h.limits]
  simp [snap, c]

/-- Close to the limit strain in compression. -/
theorem stress_low (h : Hardening l u) {x : ℝ} (h1 : -u ≤ x) (h2 : x ≤ -(u - snapWidth u)) : l.stress x = l.core (-u) := by
  have hu0 := h.u_pos.1
  have hw := h.u_pos.2.1
  have c : isclose x (-u) := by
    unfold isclose
    rw [abs_le, abs_neg, abs_of_nonneg (by norm_num at *; linarith)]
    unfold snapWidth at h2 hw
    constructor <;> linarith
  rw [ElasticPlastic.stress, h.limits]
  by_cases c' : isclose x u
  · -- both: then `u` is tiny and everything is at yield
    exfalso
    unfold isclose at c'
    rw [abs_le, abs_of_nonneg (by norm_num at *; linarith)] at c'
    have h3 := h.plateau
    have h4 := h.sy_nonneg
    unfold snapWidth at *
    norm_num at *
    linarith [c'.1]
  · simp [snap, c, c']

/-- Between. -/
theorem stress_mid (h : Hardening l u) {x : ℝ} (h1 : -(u - snapWidth u) < x) (h2 : x < u - snapWidth u) : l.stress x = l.core x := by
  have hu0 := h.u_pos.1
  have c1 : ¬ isclose x u := by
    unfold isclose
    rw [not_le, abs_of_nonneg (show 0 ≤ u by norm_num at *; linarith), lt_abs]
    right
    unfold snapWidth at h2
    linarith
  have c2 : ¬ isclose x (-u) := by
    unfold isclose
    rw [not_le, abs_neg, abs_of_nonneg (show 0 ≤ u by norm_num at *; linarith), lt_abs]
    left
    unfold snapWidth at h1
    linarith
  rw [ElasticPlastic.stress, h.limits]
  simp [snap, c1, c2]

/-- The stress differs from the unsnapped law by at most the jump. -/
theorem stress_core (h : Hardening l u) {x : ℝ} (h1 : -u ≤ x) (h2 : x ≤ u) : |l.stress x - l.core x| ≤ l.Eh * snapWidth u := by
  have hw := h.u_pos.2.1
  have hp := h.u_pos.2.2
  have hs := h.sy_nonneg
  have hE := h.Eh.1
  rcases lt_or_ge x (u - snapWidth u) with a | a
  · rcases lt_or_ge (-(u - snapWidth u)) x with b | b
    · rw [h.stress_mid b a, sub_self, abs_zero]
      positivity
    · rw [h.stress_low h1 b, h.core_low le_rfl (by linarith), h.core_low h1 (by linarith)]
      have e : l.Eh * -u - (l.E - l.Eh) * l.eps_sy - (l.Eh * x - (l.E - l.Eh) * l.eps_sy) = -(l.Eh * (x + u)) := by ring
      rw [e, abs_neg, abs_mul, abs_of_nonneg hE, abs_of_nonneg (by linarith)]
      exact mul_le_mul_of_nonneg_left (by linarith) hE
  · rw [h.stress_high a h2, h.core_high (by linarith) le_rfl, h.core_high (by linarith) h2]
    have e : l.Eh * u + (l.E - l.Eh) * l.eps_sy - (l.Eh * x + (l.E - l.Eh) * l.eps_sy) = l.Eh * (u - x) := by ring
    rw [e, abs_mul, abs_of_nonneg hE, abs_of_nonneg (by linarith)]
    exact mul_le_mul_of_nonneg_left (by linarith) hE

end Hardening

/-- Lipschitz with constant `K` between the strains `-t`, `t` and beyond them; jumps of at most `j`. -/
def NearLipschitz (f : ℝ → ℝ) (lo hi K j t : ℝ) : Prop :=
  ∀ x ∈ Set.Icc lo hi, ∀ y ∈ Set.Icc lo hi, |f x - f y| ≤ K * |x - y| + j ∧
    ((x ≤ -t ↔ y ≤ -t) → (t ≤ x ↔ t ≤ y) → |f x - f y| ≤ K * |x - y|)

theorem Hardening.near {l : ElasticPlastic} {u : ℝ} (h : Hardening l u) :
    NearLipschitz l.stress (-u) u l.E (2 * (l.Eh * snapWidth u)) (u - snapWidth u) := by
  rintro x ⟨x1, x2⟩ y ⟨y1, y2⟩
  have hL := h.core_lipschitz x1 x2 y1 y2
  constructor
  · have a := h.stress_core x1 x2
    have b := h.stress_core y1 y2
    rw [abs_le] at *
    constructor <;> linarith [a.1, a.2, b.1, b.2, hL.1, hL.2]
  · intro e1 e2
    have h0 : 0 ≤ l.E * |x - y| := mul_nonneg h.E.le (abs_nonneg _)
    rcases lt_or_ge x (u - snapWidth u) with a | a
    · have a' : y < u - snapWidth u := by
        by_contra hc
        exact absurd (e2.2 (not_lt.1 hc)) (not_le.2 a)
      rcases lt_or_ge (-(u - snapWidth u)) x with b | b
      · have b' : -(u - snapWidth u) < y := by
          by_contra hc
          exact absurd (e1.2 (not_lt.1 hc)) (not_le.2 b)
        rw [h.stress_mid b a, h.stress_mid b' a']
        exact hL
      · rw [h.stress_low x1 b, h.stress_low y1 (e1.1 b), sub_self, abs_zero]
        exact h0
    · rw [h.stress_high a x2, h.stress_high (e2.1 a) y2, sub_self, abs_zero]
      exact h0

theorem Hardening.mono {l : ElasticPlastic} {u : ℝ} (h : Hardening l u) {x y : ℝ} (hx : -u ≤ x) (hxy : x ≤ y) (hy : y ≤ u) :
    l.stress x ≤ l.stress y := by
  have hu := h.u_pos
  have hs := h.sy_nonneg
  have hp := h.u_pos.2.2
  refine C11_mono (u := u) ⟨h.E, h.fy, h.Eh.1, h.su, ?_, ?_⟩ hxy ?_ ?_
  · exact hu.1
  · change l.eps_sy ≤ u
    linarith [hu.2.1]
  · have := hu.2.1
    unfold snapWidth at this
    linarith
  · have := hu.2.1
    unfold snapWidth at this
    linarith

end SC
