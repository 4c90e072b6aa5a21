import Verif.Lemmas.Triangle
import Mathlib.Analysis.Convex.Combination

/-! Fan decomposition of a convex polygon (for C01). -/

set_option autoImplicit false

namespace SC

open MeasureTheory Spec Set

/-- the line through two points as an affine subspace -/
def crossLine (a b : ℝ × ℝ) : AffineSubspace ℝ (ℝ × ℝ) where
  carrier := {x | cross a b x = 0}
  smul_vsub_vadd_mem' c p1 p2 p3 h1 h2 h3 := by
    simp only [cross, mem_setOf_eq] at *
    simp
    linear_combination c * h1 - c * h2 + h3

theorem crossLine_null (a b : ℝ × ℝ) (h : a ≠ b) : volume {x : ℝ × ℝ | cross a b x = 0} = 0 := by
  haveI : Measure.IsAddHaarMeasure (volume : Measure (ℝ × ℝ)) :=
    Measure.prod.instIsAddHaarMeasure _ _
  refine Measure.addHaar_affineSubspace volume (crossLine a b) ?_
  intro ht
  have : ((a.1 - (b.2 - a.2), a.2 + (b.1 - a.1)) : ℝ × ℝ) ∈ crossLine a b := by rw [ht]; trivial
  have h0 : cross a b (a.1 - (b.2 - a.2), a.2 + (b.1 - a.1)) = 0 := this
  simp only [cross] at h0
  have h1 : (b.1 - a.1) ^ 2 + (b.2 - a.2) ^ 2 = 0 := by linear_combination h0
  have h2 : b.1 - a.1 = 0 := by nlinarith [sq_nonneg (b.1 - a.1), sq_nonneg (b.2 - a.2)]
  have h3 : b.2 - a.2 = 0 := by nlinarith [sq_nonneg (b.1 - a.1), sq_nonneg (b.2 - a.2)]
  exact h (Prod.ext (by linarith) (by linarith))

/-- half-planes are convex -/
theorem halfplane_convex (a b : ℝ × ℝ) : Convex ℝ {x : ℝ × ℝ | 0 ≤ cross a b x} := by
  intro x hx y hy r s hr hs hrs
  simp only [cross, mem_setOf_eq] at *
  simp
  have : r = 1 - s := by linarith
  subst this
  nlinarith [mul_nonneg hr hx, mul_nonneg hs hy]

theorem hull_halfplane (S : Set (ℝ × ℝ)) (a b : ℝ × ℝ) (h : ∀ x ∈ S, 0 ≤ cross a b x) :
    ∀ x ∈ convexHull ℝ S, 0 ≤ cross a b x := fun _ hx =>
  convexHull_min (t := {x : ℝ × ℝ | 0 ≤ cross a b x}) h (halfplane_convex a b) hx

/-- barycentric description of a counterclockwise triangle -/
theorem mem_triangle (a b c x : ℝ × ℝ) (h : 0 < cross a b c) (h1 : 0 ≤ cross a b x)
    (h2 : 0 ≤ cross b c x) (h3 : 0 ≤ cross c a x) : x ∈ triangle a b c := by
  rw [triangle_eq_image]
  refine ⟨(cross c a x / cross a b c, cross a b x / cross a b c), ⟨by positivity, by positivity, ?_⟩, ?_⟩
  · simp only
    rw [← add_div, div_le_one h]
    have : cross c a x + cross a b x + cross b c x = cross a b c := by simp only [cross]; ring
    linarith
  · ext
    · simp only [triMap]; field_simp; simp only [cross]; ring
    · simp only [triMap]; field_simp; simp only [cross]; ring

/-- adding the vertex `q` after `p` to a convex polygon through `a` and `p` -/
theorem hull_insert (S : Set (ℝ × ℝ)) (a p q : ℝ × ℝ) (ha : a ∈ S) (hp : p ∈ S)
    (h : 0 < cross a p q) (h2 : ∀ x ∈ S, 0 ≤ cross p q x) (h3 : ∀ x ∈ S, 0 ≤ cross q a x) :
    convexHull ℝ (insert q S) = convexHull ℝ S ∪ triangle a p q := by
  apply Subset.antisymm
  · rw [convexHull_insert ⟨a, ha⟩]
    intro x hx
    simp only [mem_convexJoin, mem_singleton_iff, exists_eq_left, segment, mem_setOf_eq] at hx
    obtain ⟨y, hy, s, r, hs, hr, hsr, rfl⟩ := hx
    set x := s • q + r • y with hxd
    have hy2 := hull_halfplane S p q h2 y hy
    have hy3 := hull_halfplane S q a h3 y hy
    have hr' : r = 1 - s := by linarith
    have x1 : x.1 = s * q.1 + r * y.1 := by simp [hxd]
    have x2 : x.2 = s * q.2 + r * y.2 := by simp [hxd]
    have hx2 : 0 ≤ cross p q x := by
      have : cross p q x = r * cross p q y := by simp only [cross, x1, x2, hr']; ring
      rw [this]; positivity
    have hx3 : 0 ≤ cross q a x := by
      have : cross q a x = r * cross q a y := by simp only [cross, x1, x2, hr']; ring
      rw [this]; positivity
    by_cases hx1 : 0 ≤ cross a p x
    · exact Or.inr (mem_triangle a p q x h hx1 hx2 hx3)
    · left
      push Not at hx1
      -- intersection of the ray from `x` to `q` with the line `a p`
      have hd : 0 < cross a p q - cross a p x := by linarith
      set lam := - cross a p x / (cross a p q - cross a p x) with hl
      have hl0 : 0 ≤ lam := div_nonneg (by linarith) hd.le
      have hl1 : lam < 1 := by rw [hl, div_lt_one hd]; linarith
      set w : ℝ × ℝ := ((1 - lam) * x.1 + lam * q.1, (1 - lam) * x.2 + lam * q.2) with hw
      have hw1 : cross a p w = 0 := by
        have : cross a p w = (1 - lam) * cross a p x + lam * cross a p q := by
          simp only [cross, hw]; ring
        rw [this, hl]; field_simp; ring
      have hw2 : 0 ≤ cross p q w := by
        have : cross p q w = (1 - lam) * cross p q x := by simp only [cross, hw]; ring
        rw [this]; exact mul_nonneg (by linarith) hx2
      have hw3 : 0 ≤ cross q a w := by
        have : cross q a w = (1 - lam) * cross q a x := by simp only [cross, hw]; ring
        rw [this]; exact mul_nonneg (by linarith) hx3
      have hsum : cross a p w + cross p q w + cross q a w = cross a p q := by
        simp only [cross]; ring
      have hwm : w ∈ convexHull ℝ S := by
        have hseg : w ∈ segment ℝ a p := by
          refine ⟨cross p q w / cross a p q, cross q a w / cross a p q, by positivity, by positivity, ?_, ?_⟩
          · rw [← add_div, div_eq_one_iff_eq h.ne']; linarith
          · have e1 : w.1 * cross a p q = cross p q w * a.1 + cross q a w * p.1 + cross a p w * q.1 := by
              simp only [cross]; ring
            have e2 : w.2 * cross a p q = cross p q w * a.2 + cross q a w * p.2 + cross a p w * q.2 := by
              simp only [cross]; ring
            rw [hw1] at e1 e2
            ext
            · simp; field_simp; linarith
            · simp; field_simp; linarith
        exact (convex_convexHull ℝ S).segment_subset (subset_convexHull ℝ S ha)
          (subset_convexHull ℝ S hp) hseg
      -- `x` is between `y` and `w`
      have hs1 : 0 < 1 - s * (1 - lam) - lam ∨ x = w := by
        by_cases hsl : s * (1 - lam) + lam < 1
        · left; linarith
        · right
          have : s = 1 := by nlinarith
          exfalso
          have hr0 : r = 0 := by linarith
          have : cross a p x = cross a p q := by simp only [cross, x1, x2, hr0, this]; ring
          linarith
      rcases hs1 with hs1 | hs1
      · refine (convex_convexHull ℝ S).segment_subset hy hwm ?_
        have hs' : s < 1 := by nlinarith
        have hk : 0 < s * (1 - lam) + lam ∨ (s = 0) := by
          rcases eq_or_lt_of_le hs with h' | h'
          · right; exact h'.symm
          · left; nlinarith
        rcases hk with hk | hk
        · refine ⟨1 - s / (s * (1 - lam) + lam), s / (s * (1 - lam) + lam), ?_, by positivity, by ring, ?_⟩
          · rw [sub_nonneg, div_le_one hk]; nlinarith
          · ext
            · simp [hw, x1, hr']; field_simp; ring
            · simp [hw, x2, hr']; field_simp; ring
        · refine ⟨1, 0, by norm_num, by norm_num, by norm_num, ?_⟩
          ext
          · simp [x1, hr', hk]
          · simp [x2, hr', hk]
      · rw [hs1]; exact hwm
  · refine union_subset (convexHull_mono (subset_insert q S)) (convexHull_mono ?_)
    intro x hx
    simp only [mem_insert_iff, mem_singleton_iff] at hx
    rcases hx with rfl | rfl | rfl
    · exact Or.inr ha
    · exact Or.inr hp
    · exact Or.inl rfl

theorem areaMoment_hull_insert (m n : ℕ) (S : Set (ℝ × ℝ)) (hS : S.Finite) (a p q : ℝ × ℝ)
    (ha : a ∈ S) (hp : p ∈ S) (h : 0 < cross a p q) (h1 : ∀ x ∈ S, 0 ≤ cross p a x)
    (h2 : ∀ x ∈ S, 0 ≤ cross p q x) (h3 : ∀ x ∈ S, 0 ≤ cross q a x) :
    areaMoment m n (convexHull ℝ (insert q S)) =
      areaMoment m n (convexHull ℝ S) + areaMoment m n (triangle a p q) := by
  have hc1 : IsCompact (convexHull ℝ S) := hS.isCompact_convexHull ℝ
  have hc2 : IsCompact (triangle a p q) := (Set.toFinite _).isCompact_convexHull ℝ
  rw [hull_insert S a p q ha hp h h2 h3]
  unfold areaMoment
  have hcont : Continuous fun x : ℝ × ℝ => x.1 ^ m * x.2 ^ n := by fun_prop
  refine setIntegral_union₀ ?_ hc2.measurableSet.nullMeasurableSet
    (hcont.continuousOn.integrableOn_compact hc1) (hcont.continuousOn.integrableOn_compact hc2)
  unfold AEDisjoint
  have hne : a ≠ p := by
    rintro rfl
    simp [cross] at h
  refine measure_mono_null ?_ (crossLine_null a p hne)
  rintro x ⟨hx1, hx2⟩
  have := hull_halfplane S p a h1 x hx1
  have t1 : 0 ≤ cross a p x := by
    refine hull_halfplane _ a p ?_ x hx2
    intro y hy
    simp only [mem_insert_iff, mem_singleton_iff] at hy
    rcases hy with rfl | rfl | rfl
    · simp [cross]
    · simp only [cross]; linarith
    · exact h.le
  have e : cross p a x = - cross a p x := by simp only [cross]; ring
  simp only [mem_setOf_eq]
  linarith

end SC
