import Verif.Lemmas.Area
import Mathlib.Analysis.Convex.Join
import Mathlib.MeasureTheory.Measure.Haar.OfBasis

/-! Lemmas for C01: Green's identity on a triangle and the change of variables. -/

set_option autoImplicit false

namespace SC

open MeasureTheory intervalIntegral Spec Set

/-- the unit simplex -/
def simplex : Set (ℝ × ℝ) := {x | 0 ≤ x.1 ∧ 0 ≤ x.2 ∧ x.1 + x.2 ≤ 1}

theorem simplex_closed : IsClosed simplex := by
  unfold simplex
  refine IsClosed.inter (isClosed_le continuous_const continuous_fst)
    (IsClosed.inter (isClosed_le continuous_const continuous_snd)
      (isClosed_le (continuous_fst.add continuous_snd) continuous_const))

theorem simplex_measurable : MeasurableSet simplex := simplex_closed.measurableSet

theorem simplex_subset : simplex ⊆ Icc (0 : ℝ × ℝ) (1, 1) := by
  rintro ⟨s, t⟩ ⟨h1, h2, h3⟩
  simp only at h1 h2 h3
  refine ⟨⟨h1, h2⟩, ⟨?_, ?_⟩⟩ <;> simp only <;> linarith

theorem simplex_integrable (f : ℝ × ℝ → ℝ) (hf : Continuous f) : IntegrableOn f simplex :=
  (hf.continuousOn.integrableOn_compact isCompact_Icc).mono_set simplex_subset

/-- integration over the simplex, first variable outside -/
theorem simplex_iter (f : ℝ × ℝ → ℝ) (hf : Continuous f) :
    ∫ x in simplex, f x = ∫ s in (0:ℝ)..1, ∫ t in (0:ℝ)..(1 - s), f (s, t) := by
  have hi : Integrable (simplex.indicator f) :=
    (integrable_indicator_iff simplex_measurable).2 (simplex_integrable f hf)
  rw [← MeasureTheory.integral_indicator simplex_measurable, Measure.volume_eq_prod, integral_prod _ hi,
    intervalIntegral.integral_of_le zero_le_one, ← integral_Icc_eq_integral_Ioc,
    ← MeasureTheory.integral_indicator measurableSet_Icc]
  congr 1
  ext s
  by_cases hs : s ∈ Icc (0:ℝ) 1
  · rw [indicator_of_mem hs, intervalIntegral.integral_of_le (by linarith [hs.2]),
      ← integral_Icc_eq_integral_Ioc, ← MeasureTheory.integral_indicator measurableSet_Icc]
    congr 1
    ext t
    have : (s, t) ∈ simplex ↔ t ∈ Icc (0:ℝ) (1 - s) := by
      simp only [simplex, mem_setOf_eq, mem_Icc]
      constructor
      · rintro ⟨_, h2, h3⟩; exact ⟨h2, by linarith⟩
      · rintro ⟨h2, h3⟩; exact ⟨hs.1, h2, by linarith⟩
    by_cases h : t ∈ Icc (0:ℝ) (1 - s)
    · rw [indicator_of_mem h, indicator_of_mem (this.2 h)]
    · rw [indicator_of_notMem h, indicator_of_notMem (fun h' => h (this.1 h'))]
  · rw [indicator_of_notMem hs]
    have : ∀ t, simplex.indicator f (s, t) = 0 := by
      intro t
      apply indicator_of_notMem
      rintro ⟨h1, h2, h3⟩
      simp only at h1 h2 h3
      exact hs ⟨h1, by linarith⟩
    simp [this]

/-- integration over the simplex, second variable outside -/
theorem simplex_iter' (f : ℝ × ℝ → ℝ) (hf : Continuous f) :
    ∫ x in simplex, f x = ∫ t in (0:ℝ)..1, ∫ s in (0:ℝ)..(1 - t), f (s, t) := by
  have h := simplex_iter (fun x => f x.swap) (hf.comp continuous_swap)
  simp only [Prod.swap_prod_mk] at h
  rw [← h]
  have hm : MeasurePreserving (Prod.swap : ℝ × ℝ → ℝ × ℝ) volume volume :=
    Measure.measurePreserving_swap
  have he := MeasurableEquiv.prodComm.measurableEmbedding (α := ℝ × ℝ) (β := ℝ × ℝ)
  have := hm.setIntegral_preimage_emb he f simplex
  rw [← this]
  congr 2
  ext ⟨s, t⟩
  simp only [simplex, mem_preimage, mem_setOf_eq, Prod.swap_prod_mk]
  constructor <;> rintro ⟨a, b, c⟩ <;> exact ⟨b, a, by linarith⟩

theorem green_simplex (P Q Ps Qt : ℝ × ℝ → ℝ) (hPs : Continuous Ps) (hQt : Continuous Qt)
    (hP : Continuous P) (hQ : Continuous Q)
    (h1 : ∀ s t, HasDerivAt (fun s => P (s, t)) (Ps (s, t)) s)
    (h2 : ∀ s t, HasDerivAt (fun t => Q (s, t)) (Qt (s, t)) t) :
    ∫ x in simplex, (Ps x + Qt x) =
      ∫ u in (0:ℝ)..1, ((P (1 - u, u) + Q (1 - u, u)) - P (0, u) - Q (u, 0)) := by
  rw [MeasureTheory.integral_add (simplex_integrable _ hPs) (simplex_integrable _ hQt),
    simplex_iter' _ hPs, simplex_iter _ hQt]
  have e1 : ∀ t : ℝ, ∫ s in (0:ℝ)..(1 - t), Ps (s, t) = P (1 - t, t) - P (0, t) := by
    intro t
    exact integral_eq_sub_of_hasDerivAt (f := fun s => P (s, t)) (fun s _ => h1 s t)
      ((by fun_prop : Continuous fun s => Ps (s, t)).intervalIntegrable _ _)
  have e2 : ∀ s : ℝ, ∫ t in (0:ℝ)..(1 - s), Qt (s, t) = Q (s, 1 - s) - Q (s, 0) := by
    intro s
    exact integral_eq_sub_of_hasDerivAt (f := fun t => Q (s, t)) (fun t _ => h2 s t)
      ((by fun_prop : Continuous fun t => Qt (s, t)).intervalIntegrable _ _)
  simp_rw [e1, e2]
  have c1 : Continuous fun u : ℝ => P (1 - u, u) := by fun_prop
  have c2 : Continuous fun u : ℝ => P (0, u) := by fun_prop
  have c3 : Continuous fun u : ℝ => Q (1 - u, u) := by fun_prop
  have c4 : Continuous fun u : ℝ => Q (u, 0) := by fun_prop
  have c5 : Continuous fun u : ℝ => Q (u, 1 - u) := by fun_prop
  have c6 : Continuous fun u : ℝ => P (1 - u, u) + Q (1 - u, u) := by fun_prop
  have c7 : Continuous fun u : ℝ => P (1 - u, u) + Q (1 - u, u) - P (0, u) := by fun_prop
  have flip : ∫ u in (0:ℝ)..1, Q (u, 1 - u) = ∫ u in (0:ℝ)..1, Q (1 - u, u) := by
    have := intervalIntegral.integral_comp_sub_left (fun u => Q (u, 1 - u)) (1:ℝ) (a := 0) (b := 1)
    simpa using this.symm
  rw [intervalIntegral.integral_sub (c1.intervalIntegrable _ _) (c2.intervalIntegrable _ _),
    intervalIntegral.integral_sub (c5.intervalIntegrable _ _) (c4.intervalIntegrable _ _),
    intervalIntegral.integral_sub (c7.intervalIntegrable _ _) (c4.intervalIntegrable _ _),
    intervalIntegral.integral_sub (c6.intervalIntegrable _ _) (c2.intervalIntegrable _ _),
    intervalIntegral.integral_add (c1.intervalIntegrable _ _) (c3.intervalIntegrable _ _), flip]
  ring

/-- `y0 z1 - y1 z0` -/
def det2 (p q : ℝ × ℝ) : ℝ := p.1 * q.2 - q.1 * p.2

theorem euler_pow (x : ℝ) (m : ℕ) : x * ((m : ℝ) * x ^ (m - 1)) = m * x ^ m := by
  cases m with
  | zero => simp
  | succ m => simp [pow_succ]; ring

theorem triangle_green (m n : ℕ) (a b c : ℝ × ℝ) :
    ((m:ℝ) + n + 2) * (cross a b c *
      ∫ x in simplex, (a.1 + x.1 * (b.1 - a.1) + x.2 * (c.1 - a.1)) ^ m *
        (a.2 + x.1 * (b.2 - a.2) + x.2 * (c.2 - a.2)) ^ n) =
    det2 a b * lineInt m n a b + det2 b c * lineInt m n b c + det2 c a * lineInt m n c a := by
  obtain ⟨a1, a2⟩ := a
  obtain ⟨b1, b2⟩ := b
  obtain ⟨c1, c2⟩ := c
  simp only [cross, det2, lineInt]
  set X : ℝ × ℝ → ℝ := fun x => a1 + x.1 * (b1 - a1) + x.2 * (c1 - a1) with hX
  set Y : ℝ × ℝ → ℝ := fun x => a2 + x.1 * (b2 - a2) + x.2 * (c2 - a2) with hY
  have dXs : ∀ s t, HasDerivAt (fun s => X (s, t)) (b1 - a1) s := by
    intro s t
    have := (((hasDerivAt_id s).mul_const (b1 - a1)).const_add a1).add_const (t * (c1 - a1))
    rw [one_mul] at this; exact this
  have dYs : ∀ s t, HasDerivAt (fun s => Y (s, t)) (b2 - a2) s := by
    intro s t
    have := (((hasDerivAt_id s).mul_const (b2 - a2)).const_add a2).add_const (t * (c2 - a2))
    rw [one_mul] at this; exact this
  have dXt : ∀ s t, HasDerivAt (fun t => X (s, t)) (c1 - a1) t := by
    intro s t
    have := ((hasDerivAt_id t).mul_const (c1 - a1)).const_add (a1 + s * (b1 - a1))
    rw [one_mul] at this; exact this
  have dYt : ∀ s t, HasDerivAt (fun t => Y (s, t)) (c2 - a2) t := by
    intro s t
    have := ((hasDerivAt_id t).mul_const (c2 - a2)).const_add (a2 + s * (b2 - a2))
    rw [one_mul] at this; exact this
  have cX : Continuous X := by fun_prop
  have cY : Continuous Y := by fun_prop
  have g := green_simplex
    (fun x => X x ^ m * Y x ^ n * (X x * (c2 - a2) - (c1 - a1) * Y x))
    (fun x => X x ^ m * Y x ^ n * ((b1 - a1) * Y x - X x * (b2 - a2)))
    (fun x => ((m:ℝ) * X x ^ (m - 1) * (b1 - a1) * Y x ^ n + X x ^ m * (n * Y x ^ (n - 1) * (b2 - a2)))
        * (X x * (c2 - a2) - (c1 - a1) * Y x)
      + X x ^ m * Y x ^ n * ((b1 - a1) * (c2 - a2) - (c1 - a1) * (b2 - a2)))
    (fun x => ((m:ℝ) * X x ^ (m - 1) * (c1 - a1) * Y x ^ n + X x ^ m * (n * Y x ^ (n - 1) * (c2 - a2)))
        * ((b1 - a1) * Y x - X x * (b2 - a2))
      + X x ^ m * Y x ^ n * ((b1 - a1) * (c2 - a2) - (c1 - a1) * (b2 - a2)))
    (by fun_prop) (by fun_prop) (by fun_prop) (by fun_prop)
    (by
      intro s t
      exact ((((dXs s t).fun_pow m).mul ((dYs s t).fun_pow n)).mul
        (((dXs s t).mul_const _).sub ((dYs s t).const_mul _))))
    (by
      intro s t
      refine ((((dXt s t).fun_pow m).mul ((dYt s t).fun_pow n)).mul
        (((dYt s t).const_mul (b1 - a1)).sub ((dXt s t).mul_const (b2 - a2)))).congr_deriv ?_
      simp only [Pi.mul_apply, Pi.sub_apply])
  have lhs : ∀ x, (((m:ℝ) * X x ^ (m - 1) * (b1 - a1) * Y x ^ n + X x ^ m * (n * Y x ^ (n - 1) * (b2 - a2)))
        * (X x * (c2 - a2) - (c1 - a1) * Y x)
      + X x ^ m * Y x ^ n * ((b1 - a1) * (c2 - a2) - (c1 - a1) * (b2 - a2))) +
      (((m:ℝ) * X x ^ (m - 1) * (c1 - a1) * Y x ^ n + X x ^ m * (n * Y x ^ (n - 1) * (c2 - a2)))
        * ((b1 - a1) * Y x - X x * (b2 - a2))
      + X x ^ m * Y x ^ n * ((b1 - a1) * (c2 - a2) - (c1 - a1) * (b2 - a2))) =
      (((m:ℝ) + n + 2) * ((b1 - a1) * (c2 - a2) - (c1 - a1) * (b2 - a2))) * (X x ^ m * Y x ^ n) := by
    intro x
    have h1 := euler_pow (X x) m
    have h2 := euler_pow (Y x) n
    linear_combination ((b1 - a1) * (c2 - a2) - (c1 - a1) * (b2 - a2)) * (Y x ^ n * h1 + X x ^ m * h2)
  simp only [lhs] at g
  rw [MeasureTheory.integral_const_mul] at g
  rw [← mul_assoc, g]
  have rhs : ∀ u : ℝ, X (1 - u, u) ^ m * Y (1 - u, u) ^ n * (X (1 - u, u) * (c2 - a2) - (c1 - a1) * Y (1 - u, u)) +
      X (1 - u, u) ^ m * Y (1 - u, u) ^ n * ((b1 - a1) * Y (1 - u, u) - X (1 - u, u) * (b2 - a2)) -
      X (0, u) ^ m * Y (0, u) ^ n * (X (0, u) * (c2 - a2) - (c1 - a1) * Y (0, u)) -
      X (u, 0) ^ m * Y (u, 0) ^ n * ((b1 - a1) * Y (u, 0) - X (u, 0) * (b2 - a2)) =
      (a1 * b2 - b1 * a2) * (((1 - u) * a1 + u * b1) ^ m * ((1 - u) * a2 + u * b2) ^ n) +
      (b1 * c2 - c1 * b2) * (((1 - u) * b1 + u * c1) ^ m * ((1 - u) * b2 + u * c2) ^ n) +
      (c1 * a2 - a1 * c2) * ((u * c1 + (1 - u) * a1) ^ m * (u * c2 + (1 - u) * a2) ^ n) := by
    intro u
    have x1 : X (1 - u, u) = (1 - u) * b1 + u * c1 := by simp only [hX]; ring
    have y1 : Y (1 - u, u) = (1 - u) * b2 + u * c2 := by simp only [hY]; ring
    have x2 : X (0, u) = u * c1 + (1 - u) * a1 := by simp only [hX]; ring
    have y2 : Y (0, u) = u * c2 + (1 - u) * a2 := by simp only [hY]; ring
    have x3 : X (u, 0) = (1 - u) * a1 + u * b1 := by simp only [hX]; ring
    have y3 : Y (u, 0) = (1 - u) * a2 + u * b2 := by simp only [hY]; ring
    rw [x1, y1, x2, y2, x3, y3]
    ring
  simp only [rhs]
  have flip : ∫ u in (0:ℝ)..1, (u * c1 + (1 - u) * a1) ^ m * (u * c2 + (1 - u) * a2) ^ n =
      ∫ u in (0:ℝ)..1, ((1 - u) * c1 + u * a1) ^ m * ((1 - u) * c2 + u * a2) ^ n := by
    have := intervalIntegral.integral_comp_sub_left
      (fun u : ℝ => (u * c1 + (1 - u) * a1) ^ m * (u * c2 + (1 - u) * a2) ^ n) (1:ℝ) (a := 0) (b := 1)
    simpa using this.symm
  rw [intervalIntegral.integral_add, intervalIntegral.integral_add,
    intervalIntegral.integral_const_mul, intervalIntegral.integral_const_mul,
    intervalIntegral.integral_const_mul, flip]
  all_goals exact (by fun_prop : Continuous fun x : ℝ => _).intervalIntegrable _ _

/-! ### From the simplex to an arbitrary triangle -/

/-- the affine parametrisation of a triangle -/
def triMap (a b c : ℝ × ℝ) (x : ℝ × ℝ) : ℝ × ℝ :=
  (a.1 + x.1 * (b.1 - a.1) + x.2 * (c.1 - a.1), a.2 + x.1 * (b.2 - a.2) + x.2 * (c.2 - a.2))

theorem triangle_eq_image (a b c : ℝ × ℝ) : triangle a b c = triMap a b c '' simplex := by
  ext x
  simp only [triangle, mem_image, simplex, mem_setOf_eq]
  rw [convexHull_insert (by simp), convexHull_pair]
  simp only [mem_convexJoin, mem_singleton_iff, exists_eq_left, segment, mem_setOf_eq]
  constructor
  · rintro ⟨y, ⟨p, q, hp, hq, hpq, rfl⟩, r, s, hr, hs, hrs, rfl⟩
    refine ⟨(s * p, s * q), ⟨by positivity, by positivity, ?_⟩, ?_⟩
    · simp only; nlinarith
    · have : r = 1 - s := by linarith
      have : p = 1 - q := by linarith
      subst r p
      ext <;> simp [triMap] <;> ring
  · rintro ⟨⟨s, t⟩, ⟨h1, h2, h3⟩, rfl⟩
    simp only at h1 h2 h3
    rcases eq_or_lt_of_le (add_nonneg h1 h2) with h | h
    · have hs : s = 0 := by linarith
      have ht : t = 0 := by linarith
      subst s t
      refine ⟨b, ⟨1, 0, by norm_num, by norm_num, by norm_num, by simp⟩, 1, 0, by norm_num,
        by norm_num, by norm_num, ?_⟩
      ext <;> simp [triMap]
    · refine ⟨_, ⟨s / (s + t), t / (s + t), by positivity, by positivity, by field_simp, rfl⟩,
        1 - (s + t), s + t, by linarith, h.le, by ring, ?_⟩
      ext <;> simp [triMap] <;> field_simp <;> ring

/-- linear part of `triMap` -/
noncomputable def triLin (a b c : ℝ × ℝ) : ℝ × ℝ →L[ℝ] ℝ × ℝ :=
  ((ContinuousLinearMap.fst ℝ ℝ ℝ).smulRight (b - a)) + ((ContinuousLinearMap.snd ℝ ℝ ℝ).smulRight (c - a))

theorem triMap_eq (a b c : ℝ × ℝ) : triMap a b c = fun x => a + triLin a b c x := by
  ext x <;> simp [triMap, triLin] <;> ring

theorem triLin_det (a b c : ℝ × ℝ) : (triLin a b c).det = cross a b c := by
  rw [ContinuousLinearMap.det, ← LinearMap.det_toMatrix (Module.Basis.finTwoProd ℝ), Matrix.det_fin_two]
  simp [LinearMap.toMatrix_apply, triLin, cross]

theorem triMap_injective (a b c : ℝ × ℝ) (h : cross a b c ≠ 0) : Function.Injective (triMap a b c) := by
  rintro ⟨s, t⟩ ⟨s', t'⟩ e
  simp only [triMap, Prod.mk.injEq] at e
  obtain ⟨e1, e2⟩ := e
  have hs : cross a b c * (s - s') = 0 := by
    simp only [cross]; linear_combination (c.2 - a.2) * e1 - (c.1 - a.1) * e2
  have ht : cross a b c * (t - t') = 0 := by
    simp only [cross]; linear_combination (b.1 - a.1) * e2 - (b.2 - a.2) * e1
  have hs' := (mul_eq_zero.1 hs).resolve_left h
  have ht' := (mul_eq_zero.1 ht).resolve_left h
  ext <;> simp <;> linarith

theorem areaMoment_triangle (m n : ℕ) (a b c : ℝ × ℝ) :
    orientation a b c * areaMoment m n (triangle a b c) = cross a b c *
      ∫ x in simplex, (a.1 + x.1 * (b.1 - a.1) + x.2 * (c.1 - a.1)) ^ m *
        (a.2 + x.1 * (b.2 - a.2) + x.2 * (c.2 - a.2)) ^ n := by
  by_cases h : cross a b c = 0
  · simp [orientation, h]
  haveI : Measure.IsAddHaarMeasure (volume : Measure (ℝ × ℝ)) :=
    Measure.prod.instIsAddHaarMeasure _ _
  rw [areaMoment, triangle_eq_image,
    integral_image_eq_integral_abs_det_fderiv_smul volume simplex_measurable
      (f' := fun _ => triLin a b c) (f := triMap a b c) _ (triMap_injective a b c h).injOn]
  · simp only [triLin_det, smul_eq_mul]
    rw [MeasureTheory.integral_const_mul, ← mul_assoc]
    have : orientation a b c * |cross a b c| = cross a b c := by
      simp only [orientation]; exact sign_mul_abs _
    rw [this]
    rfl
  · intro x _
    rw [triMap_eq]
    exact ((triLin a b c).hasFDerivAt.const_add a).hasFDerivWithinAt

/-- twice-signed-area times line integral form of one edge -/
theorem marinEdge_eq (m n : ℕ) (p q : ℝ × ℝ) :
    marinEdge m n p.1 p.2 q.1 q.2 / (((m + n).choose n * (m + n + 1) * (m + n + 2) : ℕ) : ℝ) =
      det2 p q * lineInt m n p q / ((m:ℝ) + n + 2) := by
  rw [lineInt_eq, marinEdge, det2]
  push_cast
  have : (((m + n).choose n : ℕ) : ℝ) ≠ 0 := by
    exact_mod_cast (Nat.choose_pos (by omega)).ne'
  have h2 : (m:ℝ) + n + 1 ≠ 0 := by positivity
  have h3 : (m:ℝ) + n + 2 ≠ 0 := by positivity
  field_simp

/-- `marin` as a sum over edges -/
theorem marin_edges (poly : List (ℝ × ℝ)) (m n : ℕ) :
    marin poly m n = ((edges poly).map fun e =>
      det2 e.1 e.2 * lineInt m n e.1 e.2 / ((m:ℝ) + n + 2)).sum := by
  rw [marin, Finset.sum_div]
  simp_rw [marinEdge_eq]
  induction poly with
  | nil => simp [edges]
  | cons a l ih =>
    cases l with
    | nil => simp [edges]
    | cons b l =>
      simp only [edges, List.map_cons, List.sum_cons, ← ih]
      simp only [List.length_cons, Nat.add_sub_cancel]
      rw [Finset.sum_range_succ', add_comm]
      simp

/-- signed contribution of an edge -/
noncomputable def edgeTerm (m n : ℕ) (p q : ℝ × ℝ) : ℝ := det2 p q * lineInt m n p q / ((m:ℝ) + n + 2)

theorem lineInt_symm (m n : ℕ) (p q : ℝ × ℝ) : lineInt m n p q = lineInt m n q p := by
  unfold lineInt
  have := intervalIntegral.integral_comp_sub_left
      (fun u : ℝ => ((1 - u) * p.1 + u * q.1) ^ m * ((1 - u) * p.2 + u * q.2) ^ n) (1:ℝ) (a := 0) (b := 1)
  simp only [sub_sub_cancel, sub_self, sub_zero] at this
  rw [← this]
  congr 1; ext u; rw [add_comm (u * p.1), add_comm (u * p.2)]

theorem edgeTerm_symm (m n : ℕ) (p q : ℝ × ℝ) : edgeTerm m n q p = - edgeTerm m n p q := by
  simp only [edgeTerm, lineInt_symm m n q p, det2]; ring

theorem edgeTerm_self (m n : ℕ) (p : ℝ × ℝ) : edgeTerm m n p p = 0 := by
  simp only [edgeTerm, det2]; ring

theorem marin_edgeTerm (poly : List (ℝ × ℝ)) (m n : ℕ) :
    marin poly m n = ((edges poly).map fun e => edgeTerm m n e.1 e.2).sum := marin_edges poly m n

theorem triangle_edgeTerm (m n : ℕ) (a b c : ℝ × ℝ) :
    orientation a b c * areaMoment m n (triangle a b c) =
      edgeTerm m n a b + edgeTerm m n b c + edgeTerm m n c a := by
  have h3 : (m:ℝ) + n + 2 ≠ 0 := by positivity
  have := triangle_green m n a b c
  rw [areaMoment_triangle]
  simp only [edgeTerm]
  field_simp
  linarith

theorem marin_cons_cons (a b : ℝ × ℝ) (l : List (ℝ × ℝ)) (m n : ℕ) :
    marin (a :: b :: l) m n = edgeTerm m n a b + marin (b :: l) m n := by
  simp [marin_edgeTerm, edges]

theorem marin_single (a : ℝ × ℝ) (m n : ℕ) : marin [a] m n = 0 := by
  simp [marin_edgeTerm, edges]

theorem marin_nil (m n : ℕ) : marin [] m n = 0 := by
  simp [marin_edgeTerm, edges]

theorem marin_append (xs : List (ℝ × ℝ)) (a : ℝ × ℝ) (ys : List (ℝ × ℝ)) (m n : ℕ) :
    marin (xs ++ a :: ys) m n = marin (xs ++ [a]) m n + marin (a :: ys) m n := by
  induction xs with
  | nil => simp [marin_single]
  | cons x xs ih =>
    cases xs with
    | nil => simp [marin_cons_cons, marin_single]
    | cons x' xs =>
      simp only [List.cons_append, marin_cons_cons] at ih ⊢
      rw [ih]; ring

end SC
