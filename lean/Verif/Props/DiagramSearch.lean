import Verif.Props.DiagramForces

/-! # C78: the searches of the diagram of a 300 × 500 beam -/

set_option autoImplicit false

namespace SC

open Spec MeasureTheory

/-- If no trial strain lies on the other side, nor farther away from equilibrium, the bracketing search raises. -/
theorem prefind_fails (f : ℝ → ℝ) (epsA : ℝ)
    (hsame : ∀ i < 20, 0 ≤ f epsA * f (epsA + preSign (f epsA) * 1e-3 * 2 ^ i))
    (hnear : ∀ i < 20, |f (epsA + preSign (f epsA) * 1e-3 * 2 ^ i)| ≤ |f epsA|) :
    ∃ k, prefind f epsA (f epsA) = some (.error .valueError, k) := by
  obtain ⟨r, k, hr, -⟩ := prefind_terminates f epsA (f epsA)
  refine ⟨k, ?_⟩
  have hr' := hr
  unfold prefind at hr'
  rw [Option.map_eq_some_iff] at hr'
  obtain ⟨⟨w, k'⟩, hw, hr'⟩ := hr'
  simp only [Prod.mk.injEq] at hr'
  obtain ⟨hr', rfl⟩ := hr'
  have step : ∀ s s' : PreState, (s.found = false ∧ s.restarts = 0 ∧ s.delta = 1e-3) → preCond s →
      preBody f epsA (f epsA) s = .ok s' → (s'.found = false ∧ s'.restarts = 0 ∧ s'.delta = 1e-3) := by
    rintro s s' ⟨h1, h2, h3⟩ ⟨c1, c2, c3⟩ hb
    simp only [preBody, h3] at hb
    rw [if_neg (not_lt.2 (hsame _ c2)), if_neg (not_lt.2 (hnear _ c2))] at hb
    cases hb
    exact ⟨rfl, h2, rfl⟩
  rcases pyWhile_inv (fun s : PreState => s.found = false ∧ s.restarts = 0 ∧ s.delta = 1e-3) step (s := preStart)
    ⟨rfl, rfl, rfl⟩ hw with ⟨s', hs', ⟨h1, h2, h3⟩, hc⟩ | ⟨s', e, he, ⟨h1, h2, h3⟩, hc, hb⟩
  · simp only at hs'
    rw [hs'] at hr'
    have hit : 20 ≤ s'.it := by
      by_contra hcon
      exact hc ⟨h1, by omega, by omega⟩
    simp only at hr'
    rw [if_pos ⟨hit, h1⟩] at hr'
    rw [hr, ← hr']
  · exfalso
    simp only [preBody] at hb
    split_ifs at hb

/-- ... and so does the search at a given curvature. -/
theorem fixedCurvature_fails (N : ℝ → ℝ → ℝ) (n curv eps0 : ℝ) (h0 : 1e-2 < |N eps0 curv - n|)
    (hsame : ∀ i < 20, 0 ≤ (N eps0 curv - n) * (N (eps0 + preSign (N eps0 curv - n) * 1e-3 * 2 ^ i) curv - n))
    (hnear : ∀ i < 20, |N (eps0 + preSign (N eps0 curv - n) * 1e-3 * 2 ^ i) curv - n| ≤ |N eps0 curv - n|) :
    ∃ k, fixedCurvature N n curv eps0 = some (.error .valueError, k) := by
  obtain ⟨k, hk⟩ := prefind_fails (fun e => N e curv - n) eps0 hsame hnear
  refine ⟨k + 1, ?_⟩
  unfold fixedCurvature
  simp only
  rw [if_neg (not_le.2 h0), hk]

/-- Beyond their ultimate strain the bars are ruptured. -/
theorem steel_ruptured {lower : String → String} (hl : PyLower lower) (cls : SteelClass) (a : SteelArgs) (b : Built Steel)
    (h : newSteel lower cls a = some (.ok b)) (hn : a.law = .name "elasticperfectlyplastic")
    (hi1 : a.initialStrain = none) (hi2 : a.initialStress = none) (hu : 0 ≤ designUltimate cls a) {v : ℝ}
    (hv : designUltimate cls a + 1e-6 + 1e-5 * designUltimate cls a < v) : b.mat.law.stress v = 0 := by
  obtain ⟨hE, law, hm, hx⟩ := C48_law hl cls a b _ h hn
  simp only [String.reduceEq, false_and, true_and, false_or, or_false] at hx
  obtain ⟨g, gs, hlaw⟩ := hx
  rw [hi1, hi2, C15_none] at hm
  simp only [Option.some.injEq, Except.ok.injEq] at hm
  have hml : b.mat.law = law := by rw [← hm]
  rw [hml, hlaw]
  change ElasticPlastic.stress _ _ = 0
  have hpos : (0:ℝ) < 1e-6 := by norm_num
  have h5 : (0:ℝ) ≤ 1e-5 * designUltimate cls a := by positivity
  have c1 : ¬ isclose v (designUltimate cls a) := by
    simp only [isclose, abs_of_nonneg hu, not_le]
    rw [abs_of_pos (by linarith)]
    linarith
  have c2 : ¬ isclose v (-designUltimate cls a) := by
    simp only [isclose, abs_neg, abs_of_nonneg hu, not_le]
    rw [abs_of_pos (by linarith)]
    linarith
  have hs : snap (-designUltimate cls a, designUltimate cls a) v = v := by simp [snap, c1, c2]
  simp only [ElasticPlastic.stress, ElasticPlastic.ult, Bool.false_eq_true, if_false, hs]
  have hb : ElasticPlastic.beyond ⟨|a.Es|, designStrength a a.fyk, 0, some (designUltimate cls a)⟩ v := by
    simp only [ElasticPlastic.beyond]; left; linarith
  simp only [ElasticPlastic.core, hb, if_true]

namespace DiagramBeam

variable {L : Law} {A n : ℝ}

theorem preSign_low {x : ℝ} (h : x ≤ 0) : preSign x = 1 := by unfold preSign; rw [if_neg (not_lt.2 h)]

theorem preSign_high {x : ℝ} (h : 0 < x) : preSign x = -1 := by unfold preSign; rw [if_pos h]

theorem axial_lip (hA : 0 ≤ A ∧ A ≤ 500) (hL : ∀ v, |v| ≤ 0.045 → L.stress v = 200000 * max (-ey) (min v ey)) {c : ℝ}
    (hc : c < 0) (hc' : -9.3e-6 ≤ c) {x y : ℝ} (hx : -1e-3 ≤ x ∧ x ≤ 3e-3) (hy : -1e-3 ≤ y ∧ y ≤ 3e-3) :
    |force L A x c - force L A y c| ≤ 1e10 * |x - y| := by
  have hb : ∀ x, -1e-3 ≤ x ∧ x ≤ 3e-3 → -0.0035 ≤ x + c * 250 ∧ |x - 200 * c| ≤ 0.045 := by
    intro x hx
    rw [abs_le]
    refine ⟨?_, ?_, ?_⟩ <;> norm_num at * <;> linarith [hx.1, hx.2]
  exact force_lip hA hL hc.le hc.le (hb x hx).1 (hb y hy).1 (hb x hx).2 (hb y hy).2 fun z _ => by
    rw [add_sub_add_right_eq_sub]

/-- The first search. -/
theorem first_search (hA : 100 ≤ A ∧ A ≤ 500) (hL : ∀ v, |v| ≤ 0.045 → L.stress v = 200000 * max (-ey) (min v ey)) (hn : 0 < n ∧ n < 1)
    {c : ℝ} (hc : c < 0) (hc' : -1e-8 ≤ c) :
    ∃ e k, fixedCurvature (force L A) n c 0 = some (.ok (e, c, 0), k) ∧ 0 ≤ e ∧ e ≤ 1e-3 := by
  have hA' : 0 ≤ A ∧ A ≤ 500 := ⟨by linarith [hA.1], hA.2⟩
  have h1 := force_low hA' hL hc (by norm_num at *; linarith) (by norm_num at *; linarith) le_rfl
  have h2 := force_first hA.1 hL hc hc'
  have hs : preSign (force L A 0 c - n) = 1 := preSign_low (by linarith [hn.1])
  obtain ⟨e, k, h3, h4, h5⟩ := fixedCurvature_within (force L A) n c 0 1e10 (i := 0) (by norm_num)
    (by
      rw [hs, show (0:ℝ) + 1 * (1e-3 * 2 ^ 0) = 1e-3 by norm_num]
      exact mul_neg_of_neg_of_pos (by linarith [hn.1]) (by linarith [hn.2])) (by norm_num)
    (by
      intro x y hx hy hx' hy'
      rw [hs] at hx' hy'
      rw [sub_zero] at hx hy hx' hy'
      rw [abs_le] at hx hy
      refine axial_lip hA' hL hc (by norm_num at *; linarith) ⟨?_, ?_⟩ ⟨?_, ?_⟩ <;> norm_num at * <;> linarith [hx.1, hx.2, hy.1, hy.2])
    (by norm_num)
  refine ⟨e, k, h3, ?_, ?_⟩
  · rw [hs] at h5; linarith
  · rw [sub_zero, abs_le] at h4; norm_num at *; linarith [h4.2]

/-- The second search. -/
theorem second_search (hA : 100 ≤ A ∧ A ≤ 500) (hL : ∀ v, |v| ≤ 0.045 → L.stress v = 200000 * max (-ey) (min v ey)) (hn : 0 < n ∧ n < 1)
    {c e0 : ℝ} (hc : c < 0) (hc' : -9.3e-6 ≤ c) (he0 : 0 ≤ e0 ∧ e0 ≤ 1e-3) :
    ∃ e k, fixedCurvature (force L A) n c e0 = some (.ok (e, c, 0), k) ∧ -1e-3 ≤ e ∧ e ≤ 3e-3 := by
  have hA' : 0 ≤ A ∧ A ≤ 500 := ⟨by linarith [hA.1], hA.2⟩
  rcases lt_trichotomy (force L A e0 c - n) 0 with h | h | h
  · have hs : preSign (force L A e0 c - n) = 1 := preSign_low h.le
    have h2 := force_high (e := e0 + 2e-3) hA.1 hL hc hc' (by linarith [he0.1]) (by norm_num at *; linarith [he0.2])
    obtain ⟨e, k, h3, h4, h5⟩ := fixedCurvature_within (force L A) n c e0 1e10 (i := 1) (by norm_num)
      (by
        rw [hs, show e0 + 1 * (1e-3 * 2 ^ 1) = e0 + 2e-3 by norm_num]
        exact mul_neg_of_neg_of_pos h (by linarith [hn.2])) (by norm_num)
      (by
        intro x y hx hy hx' hy'
        rw [hs] at hx' hy'
        rw [abs_le] at hx hy
        refine axial_lip hA' hL hc hc' ⟨?_, ?_⟩ ⟨?_, ?_⟩ <;> norm_num at * <;> linarith [hx.1, hx.2, hy.1, hy.2, he0.1, he0.2])
      (by norm_num)
    rw [hs] at h5
    rw [abs_le] at h4
    refine ⟨e, k, h3, ?_, ?_⟩ <;> norm_num at * <;> linarith [h4.1, h4.2, he0.1, he0.2]
  · refine ⟨e0, 1, ?_, by norm_num at *; linarith [he0.1], by norm_num at *; linarith [he0.2]⟩
    unfold fixedCurvature
    simp only [h]
    rw [if_pos (by norm_num)]
  · have hs : preSign (force L A e0 c - n) = -1 := preSign_high h
    have h2 := force_low (e := e0 - 1e-3) hA' hL hc hc' (by norm_num at *; linarith [he0.1]) (by linarith [he0.2])
    obtain ⟨e, k, h3, h4, h5⟩ := fixedCurvature_within (force L A) n c e0 1e10 (i := 0) (by norm_num)
      (by
        rw [hs, show e0 + -1 * (1e-3 * 2 ^ 0) = e0 - 1e-3 by norm_num; ring]
        exact mul_neg_of_pos_of_neg h (by linarith [hn.1])) (by norm_num)
      (by
        intro x y hx hy hx' hy'
        rw [hs] at hx' hy'
        rw [abs_le] at hx hy
        refine axial_lip hA' hL hc hc' ⟨?_, ?_⟩ ⟨?_, ?_⟩ <;> norm_num at * <;> linarith [hx.1, hx.2, hy.1, hy.2, he0.1, he0.2])
      (by norm_num)
    rw [hs] at h5
    rw [abs_le] at h4
    refine ⟨e, k, h3, ?_, ?_⟩ <;> norm_num at * <;> linarith [h4.1, h4.2, he0.1, he0.2]

/-- The search for the yield curvature, from any plane through the yield strain of the bars and the peak strain of the upper face. -/
theorem yield_search (hA : 100 ≤ A ∧ A ≤ 500) (hL : ∀ v, |v| ≤ 0.045 → L.stress v = 200000 * max (-ey) (min v ey)) (hn : 0 < n ∧ n < 1)
    {st : Fin 3 → ℝ} (h1 : st 0 - 200 * st 1 = ey) (h2 : st 0 + 250 * st 1 = -0.002) :
    ∃ e c k, fixedPivotFrom (force L A) n 250 (-200) st = some (.ok (e, c, 0), k) ∧ -9.3e-6 ≤ c ∧ c < 0 := by
  have hA' : 0 ≤ A ∧ A ≤ 500 := ⟨by linarith [hA.1], hA.2⟩
  have hey := ey_bounds
  have hst : -9.3e-6 ≤ st 1 := by norm_num at *; linarith
  have hst' : st 1 ≤ -9e-6 := by norm_num at *; linarith
  have hst13 : st 1 ≤ -1e-13 := by norm_num at *; linarith
  -- the planes of the search
  have hin : ∀ y, y = (-200:ℝ) ∨ y = 250 → ∀ c, st 1 ≤ c → c ≤ 0 →
      -0.0035 ≤ st 0 + st 1 * y - c * y + c * 250 ∧ |st 0 + st 1 * y - c * y - 200 * c| ≤ 0.045 := by
    intro y hy c c1 c2
    rw [abs_le]
    rcases hy with rfl | rfl
    · refine ⟨?_, ?_, ?_⟩ <;> norm_num at * <;> linarith
    · refine ⟨?_, ?_, ?_⟩ <;> norm_num at * <;> linarith
  have htr : ∀ t ∈ Set.Icc (0:ℝ) 1, st 1 ≤ st 1 + t * (-1e-13 - st 1) ∧ st 1 + t * (-1e-13 - st 1) ≤ 0 := by
    rintro t ⟨t0, t1⟩
    have e1 : 0 ≤ t * (-1e-13 - st 1) := mul_nonneg t0 (by linarith)
    have e2 : t * (-1e-13 - st 1) ≤ 1 * (-1e-13 - st 1) := mul_le_mul_of_nonneg_right t1 (by linarith)
    constructor <;> norm_num at * <;> linarith
  obtain ⟨e, c, k, hr⟩ := fixedPivotFrom_returns (force L A) n 250 (-200) st
    (by
      intro y hy
      refine ⟨1e10 * 500, ?_, ?_⟩
      · have : |-1e-13 - st 1| ≤ 1 := by rw [abs_le]; constructor <;> norm_num at * <;> linarith
        calc (1e10 * 500 : ℝ) * |-1e-13 - st 1| ≤ 1e10 * 500 * 1 := mul_le_mul_of_nonneg_left this (by norm_num)
          _ ≤ _ := by norm_num
      · intro t u ht hu
        obtain ⟨a1, a2⟩ := htr t ht
        obtain ⟨b1, b2⟩ := htr u hu
        obtain ⟨c1, c2⟩ := hin y hy _ a1 a2
        obtain ⟨d1, d2⟩ := hin y hy _ b1 b2
        refine (force_lip hA' hL a2 b2 c1 d1 c2 d2 (D := 500 * (|t - u| * |-1e-13 - st 1|)) ?_).trans (by rw [le_iff_eq_or_lt]; left; ring)
        intro z hz
        have e1 : st 0 + st 1 * y - (st 1 + t * (-1e-13 - st 1)) * y + (st 1 + t * (-1e-13 - st 1)) * z -
            (st 0 + st 1 * y - (st 1 + u * (-1e-13 - st 1)) * y + (st 1 + u * (-1e-13 - st 1)) * z) =
            (z - y) * ((t - u) * (-1e-13 - st 1)) := by ring
        rw [e1, abs_mul, abs_mul]
        refine mul_le_mul_of_nonneg_right ?_ (by positivity)
        rw [abs_le]
        rcases hy with rfl | rfl <;> constructor <;> linarith [hz.1, hz.2])
    (by
      have := force_low (e := st 0 + st 1 * 250 - -1e-13 * 250) (c := -1e-13) hA' hL (by norm_num) (by norm_num)
        (by norm_num at *; linarith) (by norm_num at *; linarith)
      linarith [hn.1])
    (by
      have := force_high (e := st 0 + st 1 * -200 - -1e-13 * -200) (c := -1e-13) hA.1 hL (by norm_num) (by norm_num)
        (by norm_num at *; linarith) (by norm_num at *; linarith)
      linarith [hn.2])
  refine ⟨e, c, k, hr, ?_, (pivot_curvature hst13 hr).2⟩
  obtain ⟨-, ⟨-, rfl, -⟩ | ⟨y, -, -, ⟨t, ht, rfl⟩, -⟩⟩ := fixedPivotFrom_spec _ _ _ _ _ _ _ _ _ hr
  · exact hst
  · exact hst.trans (htr t ht.mem_Icc).1

end DiagramBeam

end SC
