import Verif.Props.Strength
import Verif.Props.Calculator
import Verif.Props.DomainForces

/-!
# C68: the plane returned by `calculate_strain_profile` carries the loads up to the tolerance

The convergence test of the method is about the strain increment, not about the forces.  For materials whose
stress changes by at most `E` per unit strain, the out-of-balance forces of the *returned* plane are bounded by
`2 tol Σ A E |lever| sqrt(1 + y² + z²)`, for both variants and after any history of calls; and when the laws are
strictly increasing there is only one plane that carries the loads.
-/

set_option autoImplicit false

namespace SC

open Spec Matrix

/-! ### The two bounds for a set of fibres -/

/-- The strain of a plane is at most its Euclidean length times the distance factor of the fibre. -/
theorem planeStrain_norm3 (d : Fin 3 → ℝ) (y z : ℝ) :
    |planeStrain d y z| ≤ norm3 d * Real.sqrt (1 + y ^ 2 + z ^ 2) := by
  rw [norm3, ← Real.sqrt_mul (by positivity)]
  apply Real.abs_le_sqrt
  simp only [planeStrain]
  nlinarith [sq_nonneg (d 0 * z - d 1), sq_nonneg (d 0 * y + d 2), sq_nonneg (d 1 * y + d 2 * z)]

/-- Largest possible change of the `i`-th resultant per unit length of the strain plane: fibres with slope
bounds. -/
noncomputable def slopeBound (fs : List (Fibre × ℝ)) (i : Fin 3) : ℝ :=
  (fs.map fun f => f.1.A * f.2 * |lever f.1.y f.1.z i| * Real.sqrt (1 + f.1.y ^ 2 + f.1.z ^ 2)).sum

theorem resultants_lipschitz (fs : List (Fibre × ℝ)) (hA : ∀ f ∈ fs, 0 ≤ f.1.A)
    (hE : ∀ f ∈ fs, 0 ≤ f.2) (x y : Fin 3 → ℝ)
    (hs : ∀ f ∈ fs, |f.1.resp (planeStrain x f.1.y f.1.z) - f.1.resp (planeStrain y f.1.y f.1.z)| ≤
      f.2 * |planeStrain x f.1.y f.1.z - planeStrain y f.1.y f.1.z|) (i : Fin 3) :
    |resultants (fs.map Prod.fst) x i - resultants (fs.map Prod.fst) y i| ≤ slopeBound fs i * norm3 (x - y) := by
  induction fs with
  | nil => simp [resultants, slopeBound]
  | cons f fs ih =>
    have h1 := ih (fun g hg => hA g (by simp [hg])) (fun g hg => hE g (by simp [hg])) (fun g hg => hs g (by simp [hg]))
    have h2 := hs f (by simp)
    have hA1 := hA f (by simp)
    have h3 : planeStrain x f.1.y f.1.z - planeStrain y f.1.y f.1.z = planeStrain (x - y) f.1.y f.1.z := by
      simp only [planeStrain, Pi.sub_apply]; ring
    have hE := hE f (by simp)
    rw [h3] at h2
    have h4 : |f.1.resp (planeStrain x f.1.y f.1.z) - f.1.resp (planeStrain y f.1.y f.1.z)| ≤
        f.2 * (norm3 (x - y) * Real.sqrt (1 + f.1.y ^ 2 + f.1.z ^ 2)) :=
      h2.trans (mul_le_mul_of_nonneg_left (planeStrain_norm3 _ _ _) hE)
    simp only [resultants, slopeBound, List.map_cons, List.sum_cons] at h1 ⊢
    have e1 : ∀ p q : ℝ, f.1.A * f.1.resp (planeStrain x f.1.y f.1.z) * lever f.1.y f.1.z i + p -
        (f.1.A * f.1.resp (planeStrain y f.1.y f.1.z) * lever f.1.y f.1.z i + q) =
        f.1.A * (f.1.resp (planeStrain x f.1.y f.1.z) - f.1.resp (planeStrain y f.1.y f.1.z)) * lever f.1.y f.1.z i +
          (p - q) := by intros; ring
    rw [e1, add_mul]
    refine (abs_add_le _ _).trans (add_le_add ?_ h1)
    rw [abs_mul, abs_mul, abs_of_nonneg hA1]
    calc f.1.A * |f.1.resp (planeStrain x f.1.y f.1.z) - f.1.resp (planeStrain y f.1.y f.1.z)| * |lever f.1.y f.1.z i|
        ≤ f.1.A * (f.2 * (norm3 (x - y) * Real.sqrt (1 + f.1.y ^ 2 + f.1.z ^ 2))) * |lever f.1.y f.1.z i| :=
          mul_le_mul_of_nonneg_right (mul_le_mul_of_nonneg_left h4 hA1) (abs_nonneg _)
      _ = _ := by ring

theorem stiffness_bounded (fs : List (Fibre × ℝ)) (hA : ∀ f ∈ fs, 0 ≤ f.1.A)
    (hs : ∀ f ∈ fs, ∀ a, |f.1.resp a| ≤ f.2) (x d : Fin 3 → ℝ) (i : Fin 3) :
    |(stiffness (fs.map Prod.fst) x).mulVec d i| ≤ slopeBound fs i * norm3 d := by
  induction fs with
  | nil => simp [stiffness, slopeBound, mulVec, dotProduct]
  | cons f fs ih =>
    have h1 := ih (fun g hg => hA g (by simp [hg])) (fun g hg => hs g (by simp [hg]))
    have h2 := hs f (by simp) (planeStrain x f.1.y f.1.z)
    have hA1 := hA f (by simp)
    have e1 : (stiffness ((f :: fs).map Prod.fst) x).mulVec d i =
        f.1.A * f.1.resp (planeStrain x f.1.y f.1.z) * lever f.1.y f.1.z i * planeStrain d f.1.y f.1.z +
          (stiffness (fs.map Prod.fst) x).mulVec d i := by
      simp [stiffness, mulVec, dotProduct, Fin.sum_univ_three, lever, planeStrain]
      ring
    rw [e1]
    simp only [slopeBound, List.map_cons, List.sum_cons] at h1 ⊢
    rw [add_mul]
    refine (abs_add_le _ _).trans (add_le_add ?_ h1)
    rw [abs_mul, abs_mul, abs_mul, abs_of_nonneg hA1]
    calc f.1.A * |f.1.resp (planeStrain x f.1.y f.1.z)| * |lever f.1.y f.1.z i| * |planeStrain d f.1.y f.1.z|
        ≤ f.1.A * f.2 * |lever f.1.y f.1.z i| * (norm3 d * Real.sqrt (1 + f.1.y ^ 2 + f.1.z ^ 2)) := by
          refine mul_le_mul (mul_le_mul_of_nonneg_right (mul_le_mul_of_nonneg_left h2 hA1) (abs_nonneg _))
            (planeStrain_norm3 _ _ _) (abs_nonneg _) ?_
          exact mul_nonneg (mul_nonneg hA1 ((abs_nonneg _).trans h2)) (abs_nonneg _)
      _ = _ := by ring

/-! ### The method, for any integrator -/

/-- Residual of the plane returned by the Newton loop: change of the response along the last increment plus the
unbalanced force before it. -/
theorem profile_residual (R : (Fin 3 → ℝ) → Fin 3 → ℝ) (K : (Fin 3 → ℝ) → Matrix (Fin 3) (Fin 3) ℝ)
    (lu : Matrix (Fin 3) (Fin 3) ℝ → (Fin 3 → ℝ) → (Fin 3 → ℝ)) (initial : Bool)
    (hlu : initial = true → ∀ r, (K 0).mulVec (lu (K 0) r) = r)
    (loads : Fin 3 → ℝ) (max_iter : ℤ) (tol : ℝ) (M : Fin 3 → ℝ) (hM : ∀ i, 0 ≤ M i)
    (hK : ∀ x d i, |(K x).mulVec d i| ≤ M i * norm3 d) {e : Fin 3 → ℝ} {k : ℕ}
    (hR : ∀ x i, norm3 (e - x) < tol → |R e i - R x i| ≤ M i * norm3 (e - x))
    (h : spLoop (fun x => .ok (R x)) (spStep lu initial (K 0) fun x => .ok (K x)) loads max_iter tol =
      some (.ok e, k)) (i : Fin 3) :
    |R e i - loads i| ≤ 2 * tol * M i := by
  rcases C26_contract _ _ _ _ _ h with ⟨m, x, f, d, -, hf, hd, he, hn, -⟩ | h1 | ⟨_, _, _, _, h1, _⟩
  · simp only [Except.ok.injEq] at hf he
    subst hf he
    have hd' : ∃ y, (K y).mulVec d = loads - R x := by
      simp only [spStep] at hd
      split_ifs at hd with hi
      · simp only [Except.ok.injEq] at hd
        exact ⟨0, by rw [← hd]; exact hlu hi _⟩
      · exact ⟨x, ((solve3_spec _ _ _).1 hd).2⟩
    obtain ⟨y, hy⟩ := hd'
    have h1 := hR x i
    rw [add_sub_cancel_left] at h1
    have h1 := h1 hn
    have h2 := hK y d i
    rw [hy] at h2
    have h3 : M i * norm3 d ≤ M i * tol := mul_le_mul_of_nonneg_left hn.le (hM i)
    have e1 : R (x + d) i - loads i = (R (x + d) i - R x i) - (loads - R x) i := by
      simp only [Pi.sub_apply]; ring
    rw [e1]
    refine (abs_sub _ _).trans ?_
    linarith
  · cases h1
  · cases h1

/-- The run of `calculate_strain_profile` on a calculator in a state that any undisturbed history leaves. -/
theorem strainProfile_run {E : Engine} {base : ℝ → Except PyErr (List Group)} (hE : E.Lawful base)
    (hm : base defaultMesh = base E.meshSize) {D : List Group} (hD : base E.meshSize = .ok D)
    (R : (Fin 3 → ℝ) → Fin 3 → ℝ) (K : (Fin 3 → ℝ) → Matrix (Fin 3) (Fin 3) ℝ)
    (hf : ∀ x m, E.integ 0 x .stress (some D) m = .ok (.forces (R x), D))
    (hs : ∀ x m, E.integ 0 x .modulus (some D) m = .ok (.stiffness (K x), D))
    (lu : Matrix (Fin 3) (Fin 3) ℝ → (Fin 3 → ℝ) → (Fin 3 → ℝ)) (loads : Fin 3 → ℝ) (initial : Bool) (max_iter : ℤ)
    (tol : ℝ) (ops : List Op) (hops : Undisturbed E lu ops .fresh) (e : Fin 3 → ℝ)
    (hrun : (strainProfileM E lu loads initial max_iter tol (history E lu ops .fresh)).2 = .ok e) :
    ∃ k, spLoop (fun x => .ok (R x)) (spStep lu initial (K 0) fun x => .ok (K x)) loads max_iter tol =
      some (.ok e, k) := by
  have hcan := canonical_history lu hE hm ops _ .fresh hops
  generalize history E lu ops .fresh = s at hcan hrun
  have hcall : ∃ lim, call E 0 0 .modulus defaultMesh true s = (⟨some D, lim⟩, .ok (.stiffness (K 0))) := by
    have h0 : ∀ m, E.integ 0 0 .modulus none m = E.integ 0 0 .modulus (some D) m ∨ base m ≠ base E.meshSize := by
      intro m
      by_cases hmm : base m = base E.meshSize
      · left
        rw [hE.first, hmm, hD]
      · exact Or.inr hmm
    rcases hcan with rfl | ⟨D', hD', rfl | ⟨L, -, rfl⟩⟩
    · refine ⟨none, ?_⟩
      have : E.integ 0 0 .modulus none defaultMesh = .ok (.stiffness (K 0), D) := by
        rcases h0 defaultMesh with h | h
        · rw [h, hs]
        · exact absurd hm h
      simp only [call, CalcState.fresh, this]
      rfl
    · rw [hD] at hD'
      cases hD'
      exact ⟨none, by rw [call_some, hs]⟩
    · rw [hD] at hD'
      cases hD'
      exact ⟨some L, by rw [call_some, hs]⟩
  obtain ⟨lim, hcall⟩ := hcall
  rw [strainProfileM, CalcM.bind_ok hcall] at hrun
  simp only [withData, hf, hs, Response.vec, Response.mat] at hrun
  split at hrun
  · cases hrun
  · rename_i r k hk
    exact ⟨k, by rw [hk, hrun]⟩

/-- **C68** (fibre integrator).  If around the returned strain of every fibre (within `tol sqrt(1 + y² + z²)`) its
stress changes by at most `E` per unit strain, and its tangent is at most `E`, then the forces of a returned plane differ from the loads by at most
`2 tol Σ A E |lever| sqrt(1 + y² + z²)`, whatever was called before. -/
theorem C68_fiber (surfs : ℝ → List MeshSurf) (surfParts : ℝ → List Part) (bars : List Bar) (rc : Bool) (ms : ℝ)
    (D : List Group) (hD : triangulate (surfs 0) bars ms = .ok D) (hm : triangulate (surfs 0) bars defaultMesh = .ok D)
    (hne : D ≠ []) (Eg : Law → ℝ) (hA : ∀ g ∈ D, ∀ p ∈ g.pts, 0 ≤ p.2.2)
    (htangent : ∀ g ∈ D, ∀ a, |g.law.law.tangent a| ≤ Eg g.law.law)
    (lu : Matrix (Fin 3) (Fin 3) ℝ → (Fin 3 → ℝ) → (Fin 3 → ℝ)) (initial : Bool)
    (hlu : initial = true → ∀ r, (stiffness (fibres Law.tangent D) 0).mulVec (lu (stiffness (fibres Law.tangent D) 0) r) = r)
    (loads : Fin 3 → ℝ) (max_iter : ℤ) (tol : ℝ) (ops : List Op)
    (hops : Undisturbed (fiberEngine surfs surfParts bars rc ms) lu ops .fresh) (e : Fin 3 → ℝ)
    (hrun : (strainProfileM (fiberEngine surfs surfParts bars rc ms) lu loads initial max_iter tol
      (history (fiberEngine surfs surfParts bars rc ms) lu ops .fresh)).2 = .ok e)
    (hstress : ∀ g ∈ D, ∀ p ∈ g.pts, ∀ a, |planeStrain e p.1 p.2.1 - a| ≤ tol * Real.sqrt (1 + p.1 ^ 2 + p.2.1 ^ 2) →
      |g.law.law.stress (planeStrain e p.1 p.2.1) - g.law.law.stress a| ≤ Eg g.law.law * |planeStrain e p.1 p.2.1 - a|)
    (i : Fin 3) :
    |resultants (fibres Law.stress D) e i - loads i| ≤ 2 * tol *
      (D.flatMap fun g => g.pts.map fun p => p.2.2 * Eg g.law.law * |lever p.1 p.2.1 i| *
        Real.sqrt (1 + p.1 ^ 2 + p.2.1 ^ 2)).sum := by
  obtain ⟨k, hk⟩ := strainProfile_run (fiberEngine_lawful surfs surfParts bars rc ms) (hm.trans hD.symm) hD
    (resultants (fibres Law.stress D)) (stiffness (fibres Law.tangent D))
    (fun x m => C18_forces (surfs 0) (bars.map (Bar.rotate 0)) D hne x m)
    (fun x m => C18_stiffness (surfs 0) (bars.map (Bar.rotate 0)) D hne x m) lu loads initial max_iter tol ops hops e hrun
  set F : (Law → ℝ → ℝ) → List (Fibre × ℝ) := fun resp => D.flatMap fun g => g.pts.map fun p =>
    ((⟨p.1, p.2.1, p.2.2, resp g.law.law⟩ : Fibre), Eg g.law.law) with hF
  have h1 : ∀ resp, fibres resp D = (F resp).map Prod.fst := by
    intro resp
    simp only [hF, fibres, List.map_flatMap, List.map_map, Function.comp_def]
  have hmem : ∀ resp, ∀ f ∈ F resp, ∃ g ∈ D, ∃ p ∈ g.pts, f = ((⟨p.1, p.2.1, p.2.2, resp g.law.law⟩ : Fibre), Eg g.law.law) := by
    intro resp f hf
    simp only [hF, List.mem_flatMap, List.mem_map] at hf
    obtain ⟨g, hg, p, hp, rfl⟩ := hf
    exact ⟨g, hg, p, hp, rfl⟩
  have hsb : ∀ resp i, slopeBound (F resp) i = (D.flatMap fun g => g.pts.map fun p => p.2.2 * Eg g.law.law *
      |lever p.1 p.2.1 i| * Real.sqrt (1 + p.1 ^ 2 + p.2.1 ^ 2)).sum := by
    intro resp i
    simp only [slopeBound, hF, List.map_flatMap, List.map_map, Function.comp_def]
  have hFA : ∀ resp, ∀ f ∈ F resp, 0 ≤ f.1.A := by
    intro resp f hf
    obtain ⟨g, hg, p, hp, rfl⟩ := hmem resp f hf
    exact hA g hg p hp
  have hFE : ∀ resp, ∀ f ∈ F resp, 0 ≤ f.2 := by
    intro resp f hf
    obtain ⟨g, hg, p, hp, rfl⟩ := hmem resp f hf
    exact (abs_nonneg _).trans (htangent g hg 0)
  have hR : ∀ x i, norm3 (e - x) < tol → |resultants (fibres Law.stress D) e i - resultants (fibres Law.stress D) x i| ≤
      slopeBound (F Law.stress) i * norm3 (e - x) := by
    intro x i hx
    rw [h1]
    refine resultants_lipschitz _ (hFA _) (hFE _) e x ?_ i
    intro f hf
    obtain ⟨g, hg, p, hp, rfl⟩ := hmem _ f hf
    refine hstress g hg p hp _ ?_
    have h3 : planeStrain e p.1 p.2.1 - planeStrain x p.1 p.2.1 = planeStrain (e - x) p.1 p.2.1 := by
      simp only [planeStrain, Pi.sub_apply]; ring
    rw [h3]
    exact (planeStrain_norm3 _ _ _).trans (mul_le_mul_of_nonneg_right hx.le (Real.sqrt_nonneg _))
  have hKb : ∀ x d i, |(stiffness (fibres Law.tangent D) x).mulVec d i| ≤ slopeBound (F Law.stress) i * norm3 d := by
    intro x d i
    rw [hsb, ← hsb Law.tangent, h1]
    refine stiffness_bounded _ (hFA _) ?_ x d i
    intro f hf a
    obtain ⟨g, hg, p, hp, rfl⟩ := hmem _ f hf
    exact htangent g hg a
  have := profile_residual _ _ lu initial hlu loads max_iter tol (slopeBound (F Law.stress)) ?_ hKb hR hk i
  · rwa [hsb] at this
  · intro i
    refine List.sum_nonneg ?_
    intro x hx
    simp only [List.mem_map] at hx
    obtain ⟨f, hf, rfl⟩ := hx
    have h2 := hFA _ f hf
    have h3 := hFE _ f hf
    positivity

/-- **C68** (uniqueness).  When all fibres have positive area and strictly increasing stress and three of them are not
collinear, at most one strain plane carries given loads. -/
theorem C68_unique (fs : List Fibre) (hA : ∀ f ∈ fs, 0 < f.A) (hmono : ∀ f ∈ fs, StrictMono f.resp)
    {a b c : Fibre} (ha : a ∈ fs) (hb : b ∈ fs) (hc : c ∈ fs)
    (hnc : (b.y - a.y) * (c.z - a.z) - (c.y - a.y) * (b.z - a.z) ≠ 0) (x y : Fin 3 → ℝ)
    (h : resultants fs x = resultants fs y) : x = y := by
  set v := x - y with hv
  have hpl : ∀ f : Fibre, planeStrain x f.y f.z - planeStrain y f.y f.z = planeStrain v f.y f.z := by
    intro f
    simp only [hv, planeStrain, Pi.sub_apply]; ring
  have key : ∀ gs : List Fibre, v 0 * (resultants gs x 0 - resultants gs y 0) + v 1 * (resultants gs x 1 - resultants gs y 1) +
      v 2 * (resultants gs x 2 - resultants gs y 2) =
      (gs.map fun f => f.A * (f.resp (planeStrain x f.y f.z) - f.resp (planeStrain y f.y f.z)) * planeStrain v f.y f.z).sum := by
    intro gs
    induction gs with
    | nil => simp [resultants]
    | cons g gs ih =>
      simp only [resultants, List.map_cons, List.sum_cons, lever, Matrix.cons_val_zero, Matrix.cons_val_one,
        Matrix.cons_val] at ih ⊢
      rw [← ih]
      simp only [planeStrain]
      ring
  have h0 := key fs
  rw [h] at h0
  simp only [sub_self, mul_zero, add_zero] at h0
  have hnn : ∀ f ∈ fs, 0 ≤ f.A * (f.resp (planeStrain x f.y f.z) - f.resp (planeStrain y f.y f.z)) * planeStrain v f.y f.z := by
    intro f hf
    rw [← hpl, mul_assoc]
    refine mul_nonneg (hA f hf).le ?_
    rcases le_total (planeStrain x f.y f.z) (planeStrain y f.y f.z) with hle | hle
    · have := (hmono f hf).monotone hle
      exact mul_nonneg_of_nonpos_of_nonpos (by linarith) (by linarith)
    · have := (hmono f hf).monotone hle
      exact mul_nonneg (by linarith) (by linarith)
  have hz : ∀ f ∈ fs, planeStrain v f.y f.z = 0 := by
    intro f hf
    have := List.all_zero_of_le_zero_le_of_sum_eq_zero (by
      simp only [List.mem_map, forall_exists_index, and_imp, forall_apply_eq_imp_iff₂]
      exact hnn) h0.symm (List.mem_map_of_mem (f := fun f : Fibre => f.A * (f.resp (planeStrain x f.y f.z) -
        f.resp (planeStrain y f.y f.z)) * planeStrain v f.y f.z) hf)
    rcases mul_eq_zero.1 this with h1 | h1
    · rcases mul_eq_zero.1 h1 with h2 | h2
      · exact absurd h2 (hA f hf).ne'
      · have := (hmono f hf).injective (sub_eq_zero.1 h2)
        rw [← hpl, this, sub_self]
    · exact h1
  have za := hz a ha
  have zb := hz b hb
  have zc := hz c hc
  simp only [planeStrain] at za zb zc
  have e1 : v 1 * ((b.y - a.y) * (c.z - a.z) - (c.y - a.y) * (b.z - a.z)) = 0 := by
    linear_combination (c.y - b.y) * za + (a.y - c.y) * zb + (b.y - a.y) * zc
  have e2 : v 2 * ((b.y - a.y) * (c.z - a.z) - (c.y - a.y) * (b.z - a.z)) = 0 := by
    linear_combination (c.z - b.z) * za + (a.z - c.z) * zb + (b.z - a.z) * zc
  have h1 : v 1 = 0 := (mul_eq_zero.1 e1).resolve_right hnc
  have h2 : v 2 = 0 := (mul_eq_zero.1 e2).resolve_right hnc
  have h3 : v 0 = 0 := by rw [h1, h2] at za; linarith
  have hv0 : v = 0 := by
    funext i
    fin_cases i <;> simpa
  exact sub_eq_zero.1 hv0

/-- Three elastic bars, not collinear. -/
noncomputable def elasticTrio : List Bar :=
  [⟨0, 0, 1, ⟨0, (⟨1, none⟩ : Elastic).law⟩⟩, ⟨1, 0, 1, ⟨0, (⟨1, none⟩ : Elastic).law⟩⟩,
   ⟨0, 1, 1, ⟨0, (⟨1, none⟩ : Elastic).law⟩⟩]

/-- Non-vacuity: for every load the call returns (modified Newton), and the returned plane meets the bound. -/
example (loads : Fin 3 → ℝ) : ∃ e, (strainProfileM (fiberEngine (fun _ => []) (fun _ => []) elasticTrio false 0.01)
      (fun K r => K⁻¹.mulVec r) loads true 10 1e-6 .fresh).2 = .ok e ∧
    |resultants (elasticTrio.map (Bar.fibre Law.stress)) e 0 - loads 0| ≤ 2 * 1e-6 * (1 + 2 * Real.sqrt 2) := by
  set D : List Group := [⟨[(0, 0, 1), (1, 0, 1), (0, 1, 1)], ⟨0, (⟨1, none⟩ : Elastic).law⟩⟩] with hDdef
  have hD : triangulate ((fun _ : ℝ => ([] : List MeshSurf)) 0) elasticTrio 0.01 = .ok D := by
    rw [triangulate, if_neg (by norm_num)]
    simp [groupBars, elasticTrio, insertBar, hDdef]
  have hst : ∀ x, (⟨1, none⟩ : Elastic).law.stress x = 1 * x := fun _ => rfl
  have htan : ∀ x, (⟨1, none⟩ : Elastic).law.tangent x = 1 := fun _ => rfl
  have hdet : (stiffness (fibres Law.tangent D) 0).det ≠ 0 := by
    rw [Matrix.det_fin_three]
    simp [stiffness, fibres, lever, htan, hDdef]
  have hmem : ∀ g ∈ D, g = ⟨[(0, 0, 1), (1, 0, 1), (0, 1, 1)], ⟨0, (⟨1, none⟩ : Elastic).law⟩⟩ := by
    intro g hg
    simpa [hDdef] using hg
  have hlu : ∀ (K : Matrix (Fin 3) (Fin 3) ℝ) (r : Fin 3 → ℝ), K.det ≠ 0 → K.mulVec (K⁻¹.mulVec r) = r := by
    intro K r hK
    rw [mulVec_mulVec, Matrix.mul_nonsing_inv _ (isUnit_iff_ne_zero.2 hK), one_mulVec]
  obtain ⟨e, he, -⟩ := C26_elastic_section (fun _ => []) (fun _ => []) elasticTrio false 0.01 D hD (by simp [hDdef])
    (fun _ => 1) (by
      intro g hg x
      rw [hmem g hg]
      exact ⟨hst x, htan x⟩) hdet (fun K r => K⁻¹.mulVec r) hlu loads true 10 (by norm_num) 1e-6 (by norm_num)
  refine ⟨e, by rw [he], ?_⟩
  have := C68_fiber (fun _ => []) (fun _ => []) elasticTrio false 0.01 D hD hD (by simp [hDdef]) (fun _ => 1) (by
      intro g hg p hp
      rw [hmem g hg] at hp
      simp only [List.mem_cons, List.not_mem_nil, or_false] at hp
      rcases hp with rfl | rfl | rfl <;> norm_num) (by
      intro g hg a
      rw [hmem g hg]
      show |(1:ℝ)| ≤ 1
      norm_num) (fun K r => K⁻¹.mulVec r) true (fun _ r => hlu _ r hdet) loads 10 1e-6 [] trivial e
    (by show (strainProfileM _ _ _ _ _ _ CalcState.fresh).2 = _; rw [he]) (by
      intro g hg p _ a _
      rw [hmem g hg]
      show |1 * _ - 1 * _| ≤ 1 * _
      rw [one_mul, one_mul, one_mul]) 0
  have h1 : fibres Law.stress D = elasticTrio.map (Bar.fibre Law.stress) := by
    simp [fibres, hDdef, elasticTrio, Bar.fibre]
  rw [h1] at this
  refine this.trans (le_of_eq ?_)
  simp [hDdef, lever]
  norm_num
  ring

end SC
