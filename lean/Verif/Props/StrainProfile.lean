import Verif.Model.StrainProfile
import Verif.Lemmas.Loop
import Verif.Props.Fiber

/-! # C26: calculate_strain_profile -/

set_option autoImplicit false

namespace SC

open Matrix Spec

section

variable (R : (Fin 3 → ℝ) → Except PyErr (Fin 3 → ℝ))
  (step : (Fin 3 → ℝ) → (Fin 3 → ℝ) → Except PyErr (Fin 3 → ℝ)) (loads : Fin 3 → ℝ)
  (max_iter : ℤ) (tol : ℝ)

/-- **C26** (termination). For every section response the loop stops, after at most
`max_iter + 2` executions of its body (once, when `max_iter` is negative). -/
theorem C26_stops : ∃ r k, spLoop R step loads max_iter tol = some (r, k) ∧
    k ≤ (max_iter + 1).toNat + 1 := by
  obtain ⟨r, k, hr, hk⟩ := pyWhile_terminates (cond := fun s : SPState => s.stop = false)
    (body := spBody R step loads max_iter tol) (fun _ => True)
    (fun s => if s.stop then 0 else (max_iter + 1 - s.numIter).toNat + 1)
    (by
      intro s s' _ hc hb
      refine ⟨trivial, ?_⟩
      have hc' : s.stop = false := hc
      simp only [hc', Bool.false_eq_true, if_false]
      simp only [spBody] at hb
      split_ifs at hb with h1
      · simp only [Except.ok.injEq] at hb
        subst hb
        simp
      · split at hb
        · cases hb
        · split at hb
          · cases hb
          · simp only [Except.ok.injEq] at hb
            subst hb
            simp only
            split_ifs
            · omega
            · push_cast; omega)
    (by
      intro s _ hc
      have hc' : s.stop = false := hc
      simp [hc'])
    (s := ⟨0, 0, none, false⟩) trivial
  refine ⟨_, _, by rw [spLoop, hr]; rfl, hk.trans ?_⟩
  simp

/-- The planes visited by the iteration: `x` is reached after `m` updates. -/
inductive NewtonPath : ℕ → (Fin 3 → ℝ) → Prop
  | start : NewtonPath 0 0
  | update {m : ℕ} {x r d : Fin 3 → ℝ} : NewtonPath m x → R x = .ok r →
      step x (loads - r) = .ok d → NewtonPath (m + 1) (x + d)

/-- **C26** (contract). A returned plane is the result of at most `max_iter - 1` updates of the
zero plane, the last one smaller than `tol`; an exception is `StopIteration` or was raised by one
of the integrations or solutions. -/
theorem C26_contract {r : Except PyErr (Fin 3 → ℝ)} {k : ℕ}
    (h : spLoop R step loads max_iter tol = some (r, k)) :
    (∃ m x f d, NewtonPath R step loads m x ∧ R x = .ok f ∧ step x (loads - f) = .ok d ∧
        r = .ok (x + d) ∧ norm3 d < tol ∧ ((m : ℤ) + 1) < max_iter) ∨
      r = .error .stopIteration ∨
      (∃ m x e, NewtonPath R step loads m x ∧ r = .error e ∧
        (R x = .error e ∨ ∃ f, R x = .ok f ∧ step x (loads - f) = .error e)) := by
  rw [spLoop, Option.map_eq_some_iff] at h
  obtain ⟨⟨r', k'⟩, hw, hr⟩ := h
  simp only [Prod.mk.injEq] at hr
  obtain ⟨hr, -⟩ := hr
  have := pyWhile_inv (fun s : SPState => NewtonPath R step loads s.numIter s.strain ∧
      (s.stop = true → (s.numIter : ℤ) > max_iter ∨ ∃ m x f d, NewtonPath R step loads m x ∧
        R x = .ok f ∧ step x (loads - f) = .ok d ∧ s.strain = x + d ∧ norm3 d < tol ∧
        s.numIter = m + 1))
    (by
      rintro s s' ⟨hp, -⟩ hc hb
      simp only [spBody] at hb
      split_ifs at hb with h1
      · simp only [Except.ok.injEq] at hb
        subst hb
        exact ⟨hp, fun _ => Or.inl h1⟩
      · split at hb
        · cases hb
        · rename_i f hf
          split at hb
          · cases hb
          · rename_i d hd
            simp only [Except.ok.injEq] at hb
            subst hb
            refine ⟨hp.update hf hd, fun hs => Or.inr ⟨_, _, _, _, hp, hf, hd, rfl, ?_, rfl⟩⟩
            simpa using hs)
    ⟨.start, by simp⟩ hw
  rcases this with ⟨s, hs, ⟨-, hI⟩, hn⟩ | ⟨s, e, hs, ⟨hp, -⟩, hc, hb⟩
  · simp only at hs
    rw [hs] at hr
    simp only at hr
    split_ifs at hr with h1
    · exact Or.inr (Or.inl hr.symm)
    · left
      have hst : s.stop = true := by simpa using hn
      rcases hI hst with h2 | ⟨m, x, f, d, hp, hf, hd, hx, hnorm, hm⟩
      · omega
      · refine ⟨m, x, f, d, hp, hf, hd, ?_, hnorm, ?_⟩
        · rw [← hr, hx]
        · omega
  · right; right
    simp only at hs
    rw [hs] at hr
    simp only at hr
    refine ⟨_, _, e, hp, hr.symm, ?_⟩
    simp only [spBody] at hb
    split_ifs at hb with h1
    split at hb
    · rename_i e' he
      cases hb
      exact Or.inl he
    · rename_i f hf
      split at hb
      · rename_i e' he
        cases hb
        exact Or.inr ⟨f, hf, he⟩
      · cases hb

end

/-! ### Newton updates -/

theorem norm3_zero : norm3 0 = 0 := by simp [norm3]

theorem norm3_nonneg (v : Fin 3 → ℝ) : 0 ≤ norm3 v := Real.sqrt_nonneg _

theorem abs_le_norm3 (v : Fin 3 → ℝ) (i : Fin 3) : |v i| ≤ norm3 v := by
  rw [norm3]
  apply Real.abs_le_sqrt
  fin_cases i <;> simp only [Fin.zero_eta, Fin.mk_one, Fin.reduceFinMk] <;>
    nlinarith [sq_nonneg (v 0), sq_nonneg (v 1), sq_nonneg (v 2)]

/-- `np.linalg.solve` returns the solution when the matrix is regular and raises otherwise. -/
theorem solve3_spec (K : Matrix (Fin 3) (Fin 3) ℝ) (r d : Fin 3 → ℝ) :
    solve3 K r = .ok d ↔ K.det ≠ 0 ∧ K.mulVec d = r := by
  unfold solve3
  split_ifs with h
  · simp [h]
  · have hu : IsUnit K.det := isUnit_iff_ne_zero.2 h
    constructor
    · intro hd
      cases hd
      exact ⟨h, by rw [mulVec_mulVec, Matrix.mul_nonsing_inv _ hu, one_mulVec]⟩
    · rintro ⟨-, rfl⟩
      rw [mulVec_mulVec, Matrix.nonsing_inv_mul _ hu, one_mulVec]

/-- **C26** (full Newton). The plane returned without `initial` is `x + d` where `d` solves
`K(x) d = loads - R(x)` with the tangent at the previous plane, and every component of `d` is
smaller than `tol`: the out-of-balance force is bounded by the tangent stiffness times `tol`. -/
theorem C26_newton (R : (Fin 3 → ℝ) → Fin 3 → ℝ) (K : (Fin 3 → ℝ) → Matrix (Fin 3) (Fin 3) ℝ)
    (lu : Matrix (Fin 3) (Fin 3) ℝ → (Fin 3 → ℝ) → (Fin 3 → ℝ)) (K0 : Matrix (Fin 3) (Fin 3) ℝ)
    (loads : Fin 3 → ℝ) (max_iter : ℤ) (tol : ℝ) {e : Fin 3 → ℝ} {k : ℕ}
    (h : spLoop (fun x => .ok (R x)) (spStep lu false K0 fun x => .ok (K x)) loads max_iter tol =
      some (.ok e, k)) :
    ∃ x, (K x).mulVec (e - x) = loads - R x ∧ (∀ i, |e i - x i| < tol) ∧
      ∀ i, |loads i - R x i| ≤ tol * ∑ j, |K x i j| := by
  rcases C26_contract _ _ _ _ _ h with ⟨m, x, f, d, -, hf, hd, he, hn, -⟩ | h1 | ⟨_, _, _, _, h1, _⟩
  · simp only [Except.ok.injEq] at hf he
    subst hf he
    simp only [spStep, Bool.false_eq_true, if_false] at hd
    obtain ⟨-, hK⟩ := (solve3_spec _ _ _).1 hd
    have hlt : ∀ i, |d i| < tol := fun i => (abs_le_norm3 d i).trans_lt hn
    refine ⟨x, by simpa using hK, fun i => by simpa using hlt i, fun i => ?_⟩
    have hi : loads i - R x i = ∑ j, K x i j * d j := (congrFun hK i).symm
    rw [hi, Finset.mul_sum]
    refine (Finset.abs_sum_le_sum_abs _ _).trans (Finset.sum_le_sum fun j _ => ?_)
    rw [abs_mul, mul_comm]
    exact mul_le_mul_of_nonneg_right (hlt j).le (abs_nonneg _)
  · cases h1
  · cases h1

/-- **C26** (linear section). When the response is linear with a regular stiffness, both variants
return after two updates, for every load and every `max_iter ≥ 3`, the plane whose resultants are
exactly the loads. -/
theorem C26_linear (K : Matrix (Fin 3) (Fin 3) ℝ) (hK : K.det ≠ 0)
    (lu : Matrix (Fin 3) (Fin 3) ℝ → (Fin 3 → ℝ) → (Fin 3 → ℝ))
    (hlu : ∀ r, K.mulVec (lu K r) = r) (initial : Bool)
    (loads : Fin 3 → ℝ) (max_iter : ℤ) (hm : 3 ≤ max_iter) (tol : ℝ) (ht : 0 < tol) :
    ∃ e k, spLoop (fun x => .ok (K.mulVec x)) (spStep lu initial K fun _ => .ok K) loads
        max_iter tol = some (.ok e, k) ∧ K.mulVec e = loads ∧ k ≤ 2 := by
  have hu : IsUnit K.det := isUnit_iff_ne_zero.2 hK
  have hinj : ∀ a b, K.mulVec a = K.mulVec b → a = b := by
    intro a b hab
    have := congrArg (K⁻¹.mulVec) hab
    simpa [mulVec_mulVec, Matrix.nonsing_inv_mul _ hu] using this
  -- the increment
  have hstep : ∀ x r d, K.mulVec d = r → spStep lu initial K (fun _ => .ok K) x r = .ok d := by
    intro x r d hd
    unfold spStep
    split_ifs
    · congr 1
      exact hinj _ _ ((hlu r).trans hd.symm)
    · exact (solve3_spec _ _ _).2 ⟨hK, hd⟩
  set e := K⁻¹.mulVec loads with he
  have hKe : K.mulVec e = loads := by
    rw [he, mulVec_mulVec, Matrix.mul_nonsing_inv _ hu, one_mulVec]
  have hb1 : spBody (fun x => .ok (K.mulVec x)) (spStep lu initial K fun _ => .ok K) loads
      max_iter tol ⟨0, 0, none, false⟩ = .ok ⟨e, 1, some e, decide (norm3 e < tol)⟩ := by
    simp only [spBody]
    rw [if_neg (by push_cast; omega), hstep _ _ e (by simp [hKe])]
    simp
  have hb2 : ∀ dl, spBody (fun x => .ok (K.mulVec x)) (spStep lu initial K fun _ => .ok K) loads
      max_iter tol ⟨e, 1, dl, false⟩ = .ok ⟨e, 2, some 0, true⟩ := by
    intro dl
    simp only [spBody]
    rw [if_neg (by push_cast; omega), hstep _ _ 0 (by simp [hKe])]
    simp [norm3_zero, ht]
  unfold spLoop
  rw [pyWhile_step (by rfl) hb1]
  by_cases hn : norm3 e < tol
  · rw [decide_eq_true hn, pyWhile_stop (by simp)]
    refine ⟨e, 1, ?_, hKe, by norm_num⟩
    simp only [Option.map_some, Option.some.injEq, Prod.mk.injEq]
    rw [if_neg (by push_cast; omega)]
    simp
  · rw [decide_eq_false hn, pyWhile_step (by rfl) (hb2 _), pyWhile_stop (by simp)]
    refine ⟨e, 2, ?_, hKe, le_rfl⟩
    simp only [Option.map_some, Option.some.injEq, Prod.mk.injEq]
    rw [if_neg (by push_cast; omega)]
    simp

/-- **C26** (boundary). Convergence in the update number `max_iter` or later still raises: for a
linear section and `max_iter = 2` the exact plane is found but `StopIteration` is raised for every
load whose plane is not smaller than `tol`. -/
theorem C26_last_iteration (K : Matrix (Fin 3) (Fin 3) ℝ) (hK : K.det ≠ 0)
    (lu : Matrix (Fin 3) (Fin 3) ℝ → (Fin 3 → ℝ) → (Fin 3 → ℝ)) (e : Fin 3 → ℝ)
    (tol : ℝ) (ht : 0 < tol) (hne : tol ≤ norm3 e) :
    ∃ k, spLoop (fun x => .ok (K.mulVec x)) (spStep lu false K fun _ => .ok K) (K.mulVec e) 2 tol =
        some (.error .stopIteration, k) := by
  have hb1 : spBody (fun x => .ok (K.mulVec x)) (spStep lu false K fun _ => .ok K) (K.mulVec e)
      2 tol ⟨0, 0, none, false⟩ = .ok ⟨e, 1, some e, decide (norm3 e < tol)⟩ := by
    simp only [spBody, spStep, Bool.false_eq_true, if_false]
    rw [if_neg (by norm_num), (solve3_spec K _ e).2 ⟨hK, by simp⟩]
    simp
  have hb2 : ∀ dl, spBody (fun x => .ok (K.mulVec x)) (spStep lu false K fun _ => .ok K)
      (K.mulVec e) 2 tol ⟨e, 1, dl, false⟩ = .ok ⟨e, 2, some 0, true⟩ := by
    intro dl
    simp only [spBody, spStep, Bool.false_eq_true, if_false]
    rw [if_neg (by norm_num), (solve3_spec K _ 0).2 ⟨hK, by simp⟩]
    simp [norm3_zero, ht]
  refine ⟨2, ?_⟩
  unfold spLoop
  rw [pyWhile_step (by rfl) hb1, decide_eq_false (not_lt.2 hne), pyWhile_step (by rfl) (hb2 _),
    pyWhile_stop (by simp)]
  simp

/-- The loop never returns with `max_iter ≤ 1`. -/
theorem C26_small_max_iter (R : (Fin 3 → ℝ) → Except PyErr (Fin 3 → ℝ))
    (step : (Fin 3 → ℝ) → (Fin 3 → ℝ) → Except PyErr (Fin 3 → ℝ)) (loads : Fin 3 → ℝ)
    (max_iter : ℤ) (hm : max_iter ≤ 1) (tol : ℝ) (e : Fin 3 → ℝ) (k : ℕ) :
    spLoop R step loads max_iter tol ≠ some (.ok e, k) := by
  intro h
  rcases C26_contract _ _ _ _ _ h with ⟨m, x, f, d, -, -, -, -, -, h1⟩ | h1 | ⟨_, _, _, _, h1, _⟩
  · omega
  · cases h1
  · cases h1

end SC
