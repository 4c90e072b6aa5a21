import Verif.Model.Laws
import Verif.Spec.Laws

/-! Helper lemmas on strain snapping. -/

namespace SC

open Classical

theorem maskSet_apply {ι : Type*} (m : ι → Prop) (v a : ι → ℝ) (i : ι) [inst : Decidable (m i)] :
    maskSet m v a i = if m i then v i else a i := by
  unfold maskSet; congr

theorem isclose_self (a : ℝ) : isclose a a := by
  unfold isclose; simp; positivity

theorem not_isclose_iff (a b : ℝ) : ¬ isclose a b ↔ Spec.Clear a b := by
  unfold isclose Spec.Clear; exact not_le

theorem snap_of_clear {lim : ℝ × ℝ} {e : ℝ} (h1 : Spec.Clear e lim.1) (h2 : Spec.Clear e lim.2) :
    snap lim e = e := by
  rw [← not_isclose_iff] at h1 h2
  simp [snap, h1, h2]

theorem snapArr_apply {ι : Type*} {lim : ℝ × ℝ} (h : ¬ isclose lim.2 lim.1) (eps : ι → ℝ) (i : ι) :
    snapArr lim eps i = snap lim (eps i) := by
  simp only [snapArr, snap, maskSet_apply]
  by_cases h2 : isclose (eps i) lim.2
  · simp [h2, h]
  · simp [h2]

/-- A concrete law's limits `(-|u|, 100)` are never close to each other. -/
theorem not_isclose_hundred (u : ℝ) : ¬ isclose 100 (-|u|) := by
  rw [not_isclose_iff]; unfold Spec.Clear
  have := abs_nonneg u
  rw [abs_neg, abs_abs, abs_of_nonneg (by linarith : (0:ℝ) ≤ 100 - -|u|)]
  linarith

theorem clear_hundred_of_nonpos {e : ℝ} (h : e ≤ 0) : Spec.Clear e 100 := by
  unfold Spec.Clear
  rw [abs_of_nonpos (by linarith : e - 100 ≤ 0), abs_of_pos (by norm_num : (0:ℝ) < 100)]
  linarith

/-- What snapping to concrete limits does: the strain itself, the ultimate strain or 100. -/
theorem snap_cases (lim : ℝ × ℝ) (e : ℝ) :
    (snap lim e = e ∧ ¬ isclose e lim.1 ∧ ¬ isclose e lim.2) ∨
    (snap lim e = lim.1 ∧ isclose e lim.1 ∧ ¬ isclose e lim.2) ∨
      (snap lim e = lim.2 ∧ isclose e lim.2) := by
  unfold snap
  by_cases h2 : isclose e lim.2
  · simp [h2]
  · by_cases h1 : isclose e lim.1 <;> simp [h1, h2]

theorem snap_idem {lim : ℝ × ℝ} (h : ¬ isclose lim.1 lim.2) (e : ℝ) :
    snap lim (snap lim e) = snap lim e := by
  rcases snap_cases lim e with ⟨h0, -⟩ | ⟨h0, h1, h2⟩ | ⟨h0, -⟩
  · rw [h0, h0]
  · rw [h0]; simp [snap, isclose_self, h]
  · rw [h0]; simp [snap, isclose_self]

theorem snapArr_idem {ι : Type*} {lim : ℝ × ℝ} (h : ¬ isclose lim.2 lim.1)
    (h' : ¬ isclose lim.1 lim.2) (eps : ι → ℝ) :
    snapArr lim (snapArr lim eps) = snapArr lim eps := by
  funext i
  rw [snapArr_apply h, snapArr_apply h, snap_idem h']

theorem not_isclose_neg_abs_hundred (u : ℝ) : ¬ isclose (-|u|) 100 :=
  (not_isclose_iff _ _).2 (clear_hundred_of_nonpos (by have := abs_nonneg u; linarith))

theorem isclose_neg (a b : ℝ) : isclose (-a) b ↔ isclose a (-b) := by
  unfold isclose
  rw [abs_neg, show -a - b = -(a - -b) by ring, abs_neg]

end SC
