import Verif.Model.Py

/-! # `scipy.interpolate.griddata(points, values, p, method='linear')`

Linear interpolation on a triangulation of the points that scipy computes. The triangulation is not modelled. What is used
about it is only: the value at `p` is a convex combination of the values at nodes whose same combination is `p`; and it is
a number (not `nan`, here `none`) exactly when `p` is in the convex hull of the nodes. -/

set_option autoImplicit false

namespace SC

/-- `v` is the combination of the values, with non-negative weights of sum 1, whose points combine to `p`. -/
def Combination (data : List ((ℝ × ℝ) × ℝ)) (p : ℝ × ℝ) (v : ℝ) : Prop :=
  ∃ w : List ℝ, w.length = data.length ∧ (∀ a ∈ w, 0 ≤ a) ∧ w.sum = 1 ∧
    (List.zipWith (fun a d => a * d.1.1) w data).sum = p.1 ∧
    (List.zipWith (fun a d => a * d.1.2) w data).sum = p.2 ∧
    (List.zipWith (fun a d => a * d.2) w data).sum = v

/-- What is assumed of `griddata`. -/
structure IsGriddata (grid : List ((ℝ × ℝ) × ℝ) → ℝ × ℝ → Option ℝ) : Prop where
  value : ∀ data p v, grid data p = some v → Combination data p v
  hull : ∀ data p v, Combination data p v → ∃ v', grid data p = some v'

/-- Some function meets the assumption. -/
theorem exists_griddata : ∃ grid, IsGriddata grid := by
  classical
  refine ⟨fun data p => if h : ∃ v, Combination data p v then some h.choose else none, ⟨fun data p v hv => ?_, fun data p v hv => ?_⟩⟩
  · split at hv
    · rename_i h
      rw [← Option.some.inj hv]; exact h.choose_spec
    · cases hv
  · have h : ∃ v, Combination data p v := ⟨v, hv⟩
    exact ⟨h.choose, by rw [dif_pos h]⟩

/-- `np.array(np.meshgrid(xs, ys)).T.reshape(-1, 2)` paired with the values. -/
def gridData (xs ys vals : List ℝ) : List ((ℝ × ℝ) × ℝ) :=
  List.zip (xs.flatMap fun x => ys.map fun y => (x, y)) vals

/-- A weighted sum of numbers within bounds stays within them. -/
theorem weighted_bounds {α : Type*} (f : α → ℝ) (a b : ℝ) (w : List ℝ) (data : List α) (hl : w.length = data.length)
    (hw : ∀ x ∈ w, 0 ≤ x) (hd : ∀ d ∈ data, a ≤ f d ∧ f d ≤ b) :
    a * w.sum ≤ (List.zipWith (fun x d => x * f d) w data).sum ∧
    (List.zipWith (fun x d => x * f d) w data).sum ≤ b * w.sum := by
  induction w generalizing data with
  | nil => simp
  | cons x w ih =>
    cases data with
    | nil => simp at hl
    | cons d data =>
      obtain ⟨h1, h2⟩ := ih data (by simpa using hl) (fun y hy => hw y (by simp [hy])) (fun y hy => hd y (by simp [hy]))
      have hx := hw x (by simp)
      obtain ⟨h3, h4⟩ := hd d (by simp)
      simp only [List.zipWith_cons_cons, List.sum_cons]
      constructor <;> nlinarith

theorem Combination.bounds {data : List ((ℝ × ℝ) × ℝ)} {p : ℝ × ℝ} {v a b : ℝ} (h : Combination data p v)
    (hd : ∀ d ∈ data, a ≤ d.2 ∧ d.2 ≤ b) : a ≤ v ∧ v ≤ b := by
  obtain ⟨w, hl, hw, hs, -, -, rfl⟩ := h
  have := weighted_bounds (fun d : (ℝ × ℝ) × ℝ => d.2) a b w data hl hw hd
  simpa [hs] using this

theorem Combination.fst_bounds {data : List ((ℝ × ℝ) × ℝ)} {p : ℝ × ℝ} {v a b : ℝ} (h : Combination data p v)
    (hd : ∀ d ∈ data, a ≤ d.1.1 ∧ d.1.1 ≤ b) : a ≤ p.1 ∧ p.1 ≤ b := by
  obtain ⟨w, hl, hw, hs, h1, -, -⟩ := h
  have := weighted_bounds (fun d : (ℝ × ℝ) × ℝ => d.1.1) a b w data hl hw hd
  rw [← h1]
  simpa [hs] using this

end SC
