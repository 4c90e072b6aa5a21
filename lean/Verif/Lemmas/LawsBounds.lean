import Verif.Lemmas.Laws
import Mathlib.Analysis.Convex.SpecificFunctions.Basic
import Mathlib.Analysis.SpecialFunctions.Pow.Deriv

/-! Helper lemmas for the bounds, peaks and derivatives of the laws. -/

namespace SC

open Classical Spec

/-- Where a concrete law with limits `(-u, 100)`, `u ≥ 2e-6`, can snap a strain to. -/
theorem snap_concrete {u e : ℝ} (hu : 2e-6 ≤ u) :
    (0 < e → 0 < snap (-u, 100) e) ∧
    (e ≤ 0 → snap (-u, 100) e ≤ 0) ∧
    (e < -u → Clear e (-u) → snap (-u, 100) e = e) ∧
    (-u ≤ e → e ≤ 0 → -u ≤ snap (-u, 100) e) ∧
    snap (-u, 100) 0 = 0 := by
  have hu0 : 0 < u := by linarith
  have key : ∀ e, 0 ≤ e → ¬ isclose e (-u) := by
    intro e he
    rw [not_isclose_iff]; unfold Clear
    rw [abs_neg, abs_of_pos hu0, abs_of_pos (by linarith)]
    linarith
  have key2 : ∀ e, e ≤ 0 → ¬ isclose e 100 := fun e he =>
    (not_isclose_iff _ _).2 (clear_hundred_of_nonpos he)
  refine ⟨fun he => ?_, fun he => ?_, fun h h' => ?_, fun h h' => ?_, ?_⟩
  · unfold snap; split_ifs with h1 h2
    · norm_num
    · exact absurd h2 (key e he.le)
    · exact he
  · unfold snap; split_ifs with h1 h2
    · exact absurd h1 (key2 e he)
    · simp; linarith
    · exact he
  · exact snap_of_clear h' (clear_hundred_of_nonpos (by linarith))
  · unfold snap; split_ifs with h1 h2
    · exact absurd h1 (key2 e h')
    · simp
    · exact h
  · unfold snap; rw [if_neg (key2 0 le_rfl), if_neg (key 0 le_rfl)]

theorem compressionOnly_of_core {core sig : ℝ → ℝ} {fc u : ℝ} (hu : 2e-6 ≤ u) (hfc : 0 ≤ fc)
    (hsig : ∀ e, sig e = core (snap (-u, 100) e))
    (h1 : ∀ e, 0 < e → core e = 0) (h2 : ∀ e, e < -u → core e = 0)
    (h3 : ∀ e, -u ≤ e → e ≤ 0 → -fc ≤ core e ∧ core e ≤ 0) : CompressionOnly sig fc u := by
  refine ⟨fun e he => ?_, fun e he hc => ?_, fun e => ?_⟩
  · rw [hsig]; exact h1 _ ((snap_concrete hu).1 he)
  · rw [hsig, (snap_concrete hu).2.2.1 he hc]; exact h2 _ he
  · rw [hsig]
    generalize snap (-u, 100) e = x
    rcases lt_or_ge 0 x with hx | hx
    · rw [h1 x hx]; constructor <;> linarith
    · rcases lt_or_ge x (-u) with hx' | hx'
      · rw [h2 x hx']; constructor <;> linarith
      · exact h3 x hx' hx

/-- Bernoulli: the Popovics ratio never exceeds 1. -/
theorem popovics_den (n x : ℝ) (hn : 1 ≤ n) (hx : 0 ≤ x) : x * n ≤ n - 1 + x ^ n := by
  have := one_add_mul_self_le_rpow_one_add (s := x - 1) (by linarith) hn
  rw [show 1 + (x - 1) = x by ring] at this
  linarith

/-- `Clear` is an open condition: snapping is the identity near a clear strain. -/
theorem snap_eventually {lim : ℝ × ℝ} {e : ℝ} (h1 : Clear e lim.1) (h2 : Clear e lim.2) :
    ∀ᶠ x in nhds e, snap lim x = x := by
  have c1 : ∀ᶠ x in nhds e, Clear x lim.1 := by
    have : ContinuousAt (fun x => |x - lim.1|) e := by fun_prop
    exact this.eventually (lt_mem_nhds h1)
  have c2 : ∀ᶠ x in nhds e, Clear x lim.2 := by
    have : ContinuousAt (fun x => |x - lim.2|) e := by fun_prop
    exact this.eventually (lt_mem_nhds h2)
  filter_upwards [c1, c2] with x a b using snap_of_clear a b

/-- Derivative of a snapped law from the derivative of a local formula. -/
theorem hasDerivAt_snapped {core f : ℝ → ℝ} {lim : ℝ × ℝ} {e d : ℝ}
    (h1 : Clear e lim.1) (h2 : Clear e lim.2)
    (hf : HasDerivAt f d e) (hloc : ∀ᶠ x in nhds e, core x = f x) :
    HasDerivAt (fun x => core (snap lim x)) d e := by
  apply hf.congr_of_eventuallyEq
  filter_upwards [snap_eventually h1 h2, hloc] with x a b
  rw [a, b]

end SC

namespace SC

open Classical Spec

/-- ElasticPlastic core as a clamp: `Eh*x + (E - Eh) * clamp x`. -/
theorem ElasticPlastic.core_clamp (l : ElasticPlastic) (hE : 0 < l.E) (hfy : 0 ≤ l.fy)
    (hEh : 0 ≤ l.Eh) {x : ℝ} (hx : ¬ l.beyond x) :
    l.core x = l.Eh * x + (l.E - l.Eh) * max (-l.eps_sy) (min x l.eps_sy) := by
  have hd : l.deltaSig = l.fy - l.Eh * l.eps_sy := by
    unfold ElasticPlastic.deltaSig ElasticPlastic.eps_sy; field_simp
  have hsy : l.E * l.eps_sy = l.fy := by unfold ElasticPlastic.eps_sy; field_simp
  have hsy0 : 0 ≤ l.eps_sy := by unfold ElasticPlastic.eps_sy; positivity
  unfold ElasticPlastic.core
  simp only [if_neg hx, hd]
  generalize l.eps_sy = s at *
  rcases lt_or_ge x (-s) with h | h
  · have h1 : l.E * x < -l.fy := by nlinarith
    have h2 : ¬ x * l.Eh - (l.fy - l.Eh * s) > l.fy := by nlinarith
    rw [if_pos h1, if_neg h2, min_eq_left (by linarith), max_eq_left h.le]
    nlinarith
  · have h1 : ¬ l.E * x < -l.fy := by nlinarith
    rw [if_neg h1]
    rcases lt_or_ge s x with h' | h'
    · have h2 : l.E * x > l.fy := by nlinarith
      rw [if_pos h2, min_eq_right h'.le, max_eq_right (by linarith)]
      nlinarith
    · have h2 : ¬ l.E * x > l.fy := by nlinarith
      rw [if_neg h2, min_eq_left h', max_eq_right h]
      ring

/-- Snapping to symmetric limits `±u` (`u > 2e-6`). -/
theorem snap_sym {u : ℝ} (hu : 2e-6 ≤ u) (e : ℝ) : snap (-u, u) (-e) = -snap (-u, u) e := by
  have hu0 : 0 < u := by linarith
  have notboth : ¬ (isclose e u ∧ isclose e (-u)) := by
    rintro ⟨h1, h2⟩
    unfold isclose at h1 h2
    rw [abs_neg, abs_of_pos hu0] at *
    have a := abs_le.1 h1; have b := abs_le.1 h2
    linarith [a.1, b.2]
  unfold snap
  have e1 : isclose (-e) u ↔ isclose e (-u) := isclose_neg e u
  have e2 : isclose (-e) (-u) ↔ isclose e u := by rw [isclose_neg, neg_neg]
  simp only [e1, e2]
  by_cases h1 : isclose e u <;> by_cases h2 : isclose e (-u)
  · exact absurd ⟨h1, h2⟩ notboth
  · simp [h1, h2]
  · simp [h1, h2]
  · simp [h1, h2]

/-- Snapping to symmetric limits is monotone. -/
theorem snap_mono {u : ℝ} (hu : 2e-6 ≤ u) : Monotone (snap (-u, u)) := by
  have hu0 : 0 < u := by linarith
  have ab : |(-u)| = u := by rw [abs_neg, abs_of_pos hu0]
  have c1 : ∀ e, isclose e u ↔ u - (1e-6 + 1e-5 * u) ≤ e ∧ e ≤ u + (1e-6 + 1e-5 * u) := by
    intro e; unfold isclose; rw [abs_of_pos hu0, abs_le]; constructor <;> intro ⟨a, b⟩ <;> constructor <;> linarith
  have c2 : ∀ e, isclose e (-u) ↔ -u - (1e-6 + 1e-5 * u) ≤ e ∧ e ≤ -u + (1e-6 + 1e-5 * u) := by
    intro e; unfold isclose; rw [ab, abs_le]; constructor <;> intro ⟨a, b⟩ <;> constructor <;> linarith
  intro a b hab
  unfold snap
  simp only [c1, c2]
  split_ifs <;> grind

end SC
