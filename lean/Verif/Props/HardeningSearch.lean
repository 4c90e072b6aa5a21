import Verif.Props.Hardening

/-! # C76: the search for equilibrium when the axial force jumps -/

set_option autoImplicit false

namespace SC

open Spec MeasureTheory

/-- A residual that is Lipschitz between the points `T` and jumps by at most `J` there: the bisection succeeds if at no point of `T` the
residual is within `J + 1e-2` of zero (and no trial point is an exact zero). -/
theorem bisection_jumps (f : ℝ → ℝ) (a b L J : ℝ) (T : Set ℝ) (hL0 : 0 ≤ L)
    (hL : ∀ t ∈ Set.Icc (0:ℝ) 1, ∀ u ∈ Set.Icc (0:ℝ) 1, (∀ x ∈ T, x ∉ Set.uIcc t u) →
      |f (a + t * (b - a)) - f (a + u * (b - a))| ≤ L * |t - u| * |b - a|)
    (hJ : ∀ t ∈ Set.Icc (0:ℝ) 1, ∀ u ∈ Set.Icc (0:ℝ) 1,
      |f (a + t * (b - a)) - f (a + u * (b - a))| ≤ L * |t - u| * |b - a| + J)
    (hT : ∀ x ∈ T, x ∈ Set.Icc (0:ℝ) 1 → J + 1e-2 < |f (a + x * (b - a))|)
    (hsmall : L * |b - a| ≤ 2 ^ 99 * 1e-2) (hne : 1e-2 < |f a - f b|) (hbr : f a * f b < 0)
    (hz : ∀ t, DyadicUnit t → f (a + t * (b - a)) ≠ 0) :
    ∃ c k, bisection f a (f a) b (f b) = some (.ok c, k) := by
  obtain ⟨r, k, hr, -⟩ := bisection_terminates f a b (f a) (f b)
  cases r with
  | ok c => exact ⟨c, k, hr⟩
  | error e =>
    exfalso
    have hspec := (bisection_spec f a b hr).2 e rfl
    rcases hspec with rfl | ⟨-, hle⟩
    · unfold bisection at hr
      rw [Option.map_eq_some_iff] at hr
      obtain ⟨⟨w, k'⟩, hw, hr⟩ := hr
      simp only [Prod.mk.injEq] at hr
      obtain ⟨hr, rfl⟩ := hr
      rcases pyWhile_inv (fun s => BisInv f a b s ∧ (∀ m, s.it = m + 1 → 1e-2 < L * |b - a| / 2 ^ m))
        (by
          intro s s' ⟨hI, _⟩ hc hb
          obtain ⟨hI', hit⟩ := bisInv_step f a b s s' hI hc hb
          refine ⟨hI', ?_⟩
          intro m hm
          have hm' : s.it = m := by omega
          have hsign : s.da * s.db < 0 := by
            rcases hI.hsign with h | h | ⟨t, ht, h⟩
            · exact h
            · exact absurd hbr (not_lt.2 h)
            · exact absurd h (hz t ht)
          obtain ⟨t, ht, hat⟩ := hI.ha
          obtain ⟨u, hu, hbu⟩ := hI.hb
          have h1 := hc.1
          rw [hI.hda, hI.hdb, hat, hbu] at h1 hsign
          have h3 : |t - u| * |b - a| = |b - a| / 2 ^ m := by
            have := hI.hwidth
            rw [hat, hbu, hm'] at this
            rw [abs_sub_comm t u, ← abs_mul]
            have h4 : (u - t) * (b - a) = (b - a) / 2 ^ m := by linarith
            rw [h4, abs_div, abs_of_pos (by positivity : (0:ℝ) < 2 ^ m)]
          have h5 : L * |t - u| * |b - a| = L * |b - a| / 2 ^ m := by
            rw [mul_assoc, h3]; ring
          by_cases hx : ∃ x ∈ T, x ∈ Set.uIcc t u
          · obtain ⟨x, hxT, hxu⟩ := hx
            have hx01 : x ∈ Set.Icc (0:ℝ) 1 := by
              rw [Set.mem_uIcc] at hxu
              have := ht.mem_Icc
              have := hu.mem_Icc
              rcases hxu with h | h <;> constructor <;> linarith [h.1, h.2]
            have d1 := hJ x hx01 t ht.mem_Icc
            have d2 := hJ x hx01 u hu.mem_Icc
            have w1 : |x - t| ≤ |t - u| := by
              rw [abs_sub_comm t u]
              exact Set.abs_sub_left_of_mem_uIcc hxu
            have w2 : |x - u| ≤ |t - u| := by
              have := Set.abs_sub_right_of_mem_uIcc hxu
              rw [abs_sub_comm] at this
              rwa [abs_sub_comm t u]
            have q1 : L * |x - t| * |b - a| ≤ L * |b - a| / 2 ^ m := by
              rw [← h5]; exact mul_le_mul_of_nonneg_right (mul_le_mul_of_nonneg_left w1 hL0) (abs_nonneg _)
            have q2 : L * |x - u| * |b - a| ≤ L * |b - a| / 2 ^ m := by
              rw [← h5]; exact mul_le_mul_of_nonneg_right (mul_le_mul_of_nonneg_left w2 hL0) (abs_nonneg _)
            have hgap := hT x hxT hx01
            have hfx : |f (a + x * (b - a))| ≤ L * |b - a| / 2 ^ m + J := by
              rw [abs_le] at d1 d2 ⊢
              rcases mul_neg_iff.1 hsign with ⟨s1, s2⟩ | ⟨s1, s2⟩
              · constructor <;> linarith [d1.1, d1.2, d2.1, d2.2]
              · constructor <;> linarith [d1.1, d1.2, d2.1, d2.2]
            linarith
          · push Not at hx
            have h2 := hL t ht.mem_Icc u hu.mem_Icc hx
            linarith)
        (⟨bisInv_start f a b, by intro m hm; simp at hm⟩) hw with
        ⟨s, rfl, ⟨hI, hJ'⟩, hn⟩ | ⟨s, e, -, -, -, hb⟩
      · simp only at hr
        split_ifs at hr with h100
        · have h100' : s.it = 99 + 1 := by have := hI.hit; omega
          have := hJ' 99 h100'
          rw [lt_div_iff₀ (by positivity)] at this
          linarith
        · rcases hI.hc with ⟨hc, -⟩ | ⟨hc | hc, -⟩ <;> rw [hc] at hr <;> simp at hr
      · simp only [bisBody] at hb
        split_ifs at hb
    · linarith

/-- If the residual changes sign but is nowhere smaller than `1e-2`, the bisection runs out of iterations. -/
theorem bisection_stuck (f : ℝ → ℝ) (a b : ℝ) (h : ∀ t ∈ Set.Icc (0:ℝ) 1, 1e-2 < |f (a + t * (b - a))|) (hbr : f a * f b < 0) :
    ∃ k, bisection f a (f a) b (f b) = some (.error .valueError, k) := by
  obtain ⟨r, k, hr, -⟩ := bisection_terminates f a b (f a) (f b)
  have hnz : ∀ t, DyadicUnit t → f (a + t * (b - a)) ≠ 0 := by
    intro t ht h0
    have := h t ht.mem_Icc
    rw [h0, abs_zero] at this
    norm_num at this
  obtain ⟨s1, s2⟩ := bisection_spec f a b hr
  cases r with
  | ok c =>
    obtain ⟨⟨t, ht, rfl⟩, hsmall⟩ := s1 c rfl
    exact absurd (hsmall hbr hnz) (not_lt.2 (h t ht.mem_Icc).le)
  | error e =>
    rcases s2 e rfl with rfl | ⟨-, hle⟩
    · exact ⟨k, hr⟩
    · exfalso
      have h0 := h 0 ⟨le_rfl, zero_le_one⟩
      have h1 := h 1 ⟨zero_le_one, le_rfl⟩
      have e0 : a + 0 * (b - a) = a := by ring
      have e1 : a + 1 * (b - a) = b := by ring
      rw [e0] at h0
      rw [e1] at h1
      rw [abs_le] at hle
      rcases mul_neg_iff.1 hbr with ⟨p, q⟩ | ⟨p, q⟩
      · rw [abs_of_pos p] at h0
        linarith [hle.1, hle.2]
      · rw [abs_of_neg p] at h0
        linarith [hle.1, hle.2]

/-- The planes tried by the search about the height `y` of a balanced state `st`, for `t` from 0 to 1. -/
noncomputable def trial (st : Fin 3 → ℝ) (t : ℝ) : ℝ := st 1 + t * (-1e-13 - st 1)

theorem fixedPivotFrom_jumps (N : ℝ → ℝ → ℝ) (n yn yp : ℝ) (st : Fin 3 → ℝ) (J : ℝ) (T : ℝ → Set ℝ)
    (hlip : ∀ y, y = yp ∨ y = yn → ∃ L, 0 ≤ L ∧ L * |-1e-13 - st 1| ≤ 2 ^ 99 * 1e-2 ∧
      ∀ t ∈ Set.Icc (0:ℝ) 1, ∀ u ∈ Set.Icc (0:ℝ) 1,
        |N (st 0 + st 1 * y - trial st t * y) (trial st t) - N (st 0 + st 1 * y - trial st u * y) (trial st u)| ≤
          L * |t - u| * |-1e-13 - st 1| + J ∧
        ((∀ x ∈ T y, x ∉ Set.uIcc t u) →
          |N (st 0 + st 1 * y - trial st t * y) (trial st t) - N (st 0 + st 1 * y - trial st u * y) (trial st u)| ≤
            L * |t - u| * |-1e-13 - st 1|))
    (hT : ∀ y, y = yp ∨ y = yn → ∀ x ∈ T y, x ∈ Set.Icc (0:ℝ) 1 → J + 1e-2 < |N (st 0 + st 1 * y - trial st x * y) (trial st x) - n|)
    (hz : ∀ y, y = yp ∨ y = yn → ∀ t, DyadicUnit t → N (st 0 + st 1 * y - trial st t * y) (trial st t) ≠ n)
    (hlow : N (st 0 + st 1 * yn - (-1e-13) * yn) (-1e-13) < n)
    (hhigh : n < N (st 0 + st 1 * yp - (-1e-13) * yp) (-1e-13)) :
    ∃ e c k, fixedPivotFrom N n yn yp st = some (.ok (e, c, 0), k) := by
  have key : ∀ y, y = yp ∨ y = yn → 1e-2 < |N (st 0) (st 1) - n| →
      (N (st 0) (st 1) - n) * (N (st 0 + st 1 * y - (-1e-13) * y) (-1e-13) - n) < 0 →
      ∃ c k, bisection (fun chi => N (st 0 + st 1 * y - chi * y) chi - n) (st 1) (N (st 0) (st 1) - n) (-1e-13)
        (N (st 0 + st 1 * y - (-1e-13) * y) (-1e-13) - n) = some (.ok c, k) := by
    intro y hy h0 hs
    obtain ⟨L, hL0, hsm, hL⟩ := hlip y hy
    have e1 : st 0 + st 1 * y - st 1 * y = st 0 := by ring
    have hT' := hT y hy
    have hz' := hz y hy
    simp only [trial] at hL hT' hz'
    have := bisection_jumps (fun chi => N (st 0 + st 1 * y - chi * y) chi - n) (st 1) (-1e-13) L J (T y) hL0
      (by
        intro t ht u hu hx
        have := (hL t ht u hu).2 hx
        simpa using this)
      (by
        intro t ht u hu
        have := (hL t ht u hu).1
        simpa using this)
      hT' hsm (by
        simp only [e1]
        rcases mul_neg_iff.1 hs with ⟨p, q⟩ | ⟨p, q⟩
        · rw [abs_of_pos p] at h0
          rw [abs_of_pos (by linarith)]
          linarith
        · rw [abs_of_neg p] at h0
          rw [abs_of_neg (by linarith)]
          linarith) (by simp only [e1]; exact hs)
      (by
        intro t ht
        exact sub_ne_zero.2 (hz' t ht))
    simpa only [e1] using this
  unfold fixedPivotFrom
  simp only
  split_ifs with h0 hlt
  · exact ⟨_, _, _, rfl⟩
  · obtain ⟨c, k, hb⟩ := key yp (Or.inl rfl) (not_le.1 h0) (mul_neg_of_neg_of_pos (by linarith) (by linarith))
    refine ⟨st 0 + st 1 * yp - c * yp, c, k + 2, ?_⟩
    rw [hb]
    rfl
  · have hlt' : n < N (st 0) (st 1) := by
      rcases lt_trichotomy n (N (st 0) (st 1)) with h | h | h
      · exact h
      · exfalso; apply h0; rw [← h, sub_self, abs_zero]; norm_num
      · exact absurd h hlt
    obtain ⟨c, k, hb⟩ := key yn (Or.inr rfl) (not_le.1 h0) (mul_neg_of_pos_of_neg (by linarith) (by linarith))
    refine ⟨st 0 + st 1 * yn - c * yn, c, k + 2, ?_⟩
    rw [hb]
    rfl

/-- No plane of the search carries the load: the search gives up. -/
theorem fixedPivotFrom_stuck (N : ℝ → ℝ → ℝ) (n yn yp : ℝ) (st : Fin 3 → ℝ)
    (hgap : ∀ t ∈ Set.Icc (0:ℝ) 1, 1e-2 < |N (st 0 + st 1 * yn - trial st t * yn) (trial st t) - n|)
    (hbal : n < N (st 0) (st 1)) (hlow : N (st 0 + st 1 * yn - (-1e-13) * yn) (-1e-13) < n) :
    ∃ k, fixedPivotFrom N n yn yp st = some (.error .valueError, k) := by
  have e1 : st 0 + st 1 * yn - st 1 * yn = st 0 := by ring
  have h0 := hgap 0 ⟨le_rfl, zero_le_one⟩
  simp only [trial, zero_mul, add_zero, e1] at h0 hgap
  obtain ⟨k, hb⟩ := bisection_stuck (fun chi => N (st 0 + st 1 * yn - chi * yn) chi - n) (st 1) (-1e-13) hgap
    (by simp only [e1]; exact mul_neg_of_pos_of_neg (by linarith) (by linarith))
  simp only [e1] at hb
  refine ⟨k + 2, ?_⟩
  unfold fixedPivotFrom
  simp only
  rw [if_neg (not_le.2 h0), if_neg (not_lt.2 hbal.le), if_neg (not_lt.2 hbal.le), hb]
  rfl

end SC
