import Verif.Model.Fiber
import Verif.Spec.Section
import Verif.Props.LawsDeriv
import Mathlib.Analysis.Calculus.FDeriv.Pi
import Mathlib.Analysis.Calculus.FDeriv.Mul
import Mathlib.Analysis.Calculus.Deriv.Add
import Mathlib.Analysis.Calculus.Deriv.Mul
import Mathlib.Analysis.Calculus.Deriv.Comp
import Mathlib.LinearAlgebra.Matrix.ToLin
import Mathlib.Topology.Algebra.Module.FiniteDimension
import Mathlib.Tactic.FinCases

/-! # C18, C19: the fiber integrator -/

set_option autoImplicit false

namespace SC

open Spec

/-- The fibres described by integration data, with the stress (or tangent) as response. -/
def fibres (resp : Law → ℝ → ℝ) (data : List Group) : List Fibre :=
  data.flatMap fun g => g.pts.map fun p => ⟨p.1, p.2.1, p.2.2, resp g.law.law⟩

theorem except_mapM_ok {α β : Type} {f : α → Except PyErr β} {g : α → β}
    (h : ∀ a, f a = .ok (g a)) (l : List α) : l.mapM f = .ok (l.map g) := by
  induction l with
  | nil => rfl
  | cons a l ih => simp only [List.mapM_cons, h, ih]; rfl

theorem fiberPrepare_eq (data : List Group) (hd : data ≠ []) (e : Fin 3 → ℝ) (ig : IntegrateArg)
    (resp : Law → ℝ → ℝ) (hr : ∀ l : LawObj, l.integrand ig = .ok (resp l.law)) :
    fiberPrepare data e ig = .ok ((fibres resp data).map fun f =>
      (f.y, f.z, f.A * f.resp (planeStrain e f.y f.z))) := by
  have h1 : data.mapM (fiberGroup e ig) = .ok (data.map fun g => g.pts.map fun p =>
      (p.1, p.2.1, resp g.law.law (e 0 - e 2 * p.1 + e 1 * p.2.1) * p.2.2)) := by
    apply except_mapM_ok
    intro g
    simp only [fiberGroup, hr]
  unfold fiberPrepare
  rw [h1]
  obtain ⟨g, gs, rfl⟩ := List.exists_cons_of_ne_nil hd
  simp only [List.map_cons]
  congr 1
  rw [← List.map_cons (f := fun g : Group => g.pts.map fun p =>
      (p.1, p.2.1, resp g.law.law (e 0 - e 2 * p.1 + e 1 * p.2.1) * p.2.2)), ← List.flatMap_def,
    fibres, List.map_flatMap]
  congr 1
  funext g
  simp only [List.map_map]
  congr 1
  funext p
  simp only [Function.comp, planeStrain, Prod.mk.injEq, true_and]
  rw [mul_comm]
  congr 2
  ring

theorem fiberStress_eq (fs : List Fibre) (e : Fin 3 → ℝ) :
    fiberStress (fs.map fun f => (f.y, f.z, f.A * f.resp (planeStrain e f.y f.z)))
      = resultants fs e := by
  funext i
  fin_cases i <;> simp [fiberStress, resultants, lever, Function.comp_def]

theorem fiberModulus_eq (fs : List Fibre) (e : Fin 3 → ℝ) :
    fiberModulus (fs.map fun f => (f.y, f.z, f.A * f.resp (planeStrain e f.y f.z)))
      = stiffness fs e := by
  funext i j
  fin_cases i <;> fin_cases j <;>
    simp [fiberModulus, stiffness, lever, Function.comp_def, mul_comm, mul_left_comm]

/-- **C18.** The forces returned for `integrate = 'stress'` are the resultants of the fibre
stresses, for every non-empty integration data and every strain plane. -/
theorem C18_forces (surfs : List MeshSurf) (bars : List Bar) (data : List Group) (hd : data ≠ [])
    (e : Fin 3 → ℝ) (ms : ℝ) :
    fiberIntegrate surfs bars e .stress (some data) ms =
      .ok (.forces (resultants (fibres Law.stress data) e), data) := by
  simp only [fiberIntegrate, fiberPrepare_eq data hd e .stress Law.stress (fun _ => rfl),
    fiberStress_eq]

/-- **C18.** The matrix returned for `integrate = 'modulus'` is the section stiffness. -/
theorem C18_stiffness (surfs : List MeshSurf) (bars : List Bar) (data : List Group) (hd : data ≠ [])
    (e : Fin 3 → ℝ) (ms : ℝ) :
    fiberIntegrate surfs bars e .modulus (some data) ms =
      .ok (.stiffness (stiffness (fibres Law.tangent data) e), data) := by
  simp only [fiberIntegrate, fiberPrepare_eq data hd e .modulus Law.tangent (fun _ => rfl),
    fiberModulus_eq]

/-- Any other `integrate` argument raises `ValueError`, with or without cached data. -/
theorem C18_unknown (surfs : List MeshSurf) (bars : List Bar) (data : Option (List Group))
    (e : Fin 3 → ℝ) (ms : ℝ) :
    fiberIntegrate surfs bars e .other data ms = .error .valueError := by
  have key : ∀ d, fiberPrepare d e .other = .error .valueError := by
    intro d
    cases d with
    | nil => rfl
    | cons g gs => rfl
  unfold fiberIntegrate
  cases data with
  | some d => simp only [key]
  | none =>
    simp only [triangulate]
    split_ifs with h
    · rfl
    · simp only [key]

/-- The forces do not depend on the order or grouping of the fibres: integration data describing
the same fibres up to a permutation give the same forces. -/
theorem C18_order_forces (surfs : List MeshSurf) (bars : List Bar) (d d' : List Group)
    (hd : d ≠ []) (hd' : d' ≠ []) (h : (fibres Law.stress d).Perm (fibres Law.stress d'))
    (e : Fin 3 → ℝ) (ms : ℝ) :
    (fiberIntegrate surfs bars e .stress (some d) ms).map Prod.fst =
      (fiberIntegrate surfs bars e .stress (some d') ms).map Prod.fst := by
  rw [C18_forces _ _ _ hd, C18_forces _ _ _ hd']
  have : resultants (fibres Law.stress d) e = resultants (fibres Law.stress d') e := by
    funext i
    exact (h.map _).sum_eq
  simp only [Except.map, this]

/-- Same for the stiffness. -/
theorem C18_order_stiffness (surfs : List MeshSurf) (bars : List Bar) (d d' : List Group)
    (hd : d ≠ []) (hd' : d' ≠ []) (h : (fibres Law.tangent d).Perm (fibres Law.tangent d'))
    (e : Fin 3 → ℝ) (ms : ℝ) :
    (fiberIntegrate surfs bars e .modulus (some d) ms).map Prod.fst =
      (fiberIntegrate surfs bars e .modulus (some d') ms).map Prod.fst := by
  rw [C18_stiffness _ _ _ hd, C18_stiffness _ _ _ hd']
  have : stiffness (fibres Law.tangent d) e = stiffness (fibres Law.tangent d') e := by
    funext i j
    exact (h.map _).sum_eq
  simp only [Except.map, this]

/-- The fibre a bar stands for. -/
def Bar.fibre (resp : Law → ℝ → ℝ) (b : Bar) : Fibre := ⟨b.x, b.y, b.area, resp b.law.law⟩

/-- Law objects with the same identity are the same object. -/
def SameIds (ls : List LawObj) : Prop := ∀ a ∈ ls, ∀ b ∈ ls, a.id = b.id → a.law = b.law

theorem insertBar_perm (resp : Law → ℝ → ℝ) (d : List Group) (b : Bar)
    (hid : ∀ g ∈ d, g.law.id = b.law.id → g.law.law = b.law.law) :
    (fibres resp (insertBar d b)).Perm (b.fibre resp :: fibres resp d) := by
  induction d with
  | nil => simp [insertBar, fibres, Bar.fibre]
  | cons g d ih =>
    unfold insertBar
    split_ifs with h
    · have hl := hid g (by simp) h
      simp only [fibres, List.flatMap_cons, List.map_append, List.map_cons, List.map_nil, Bar.fibre,
        hl]
      rw [List.append_assoc]
      exact List.perm_middle
    · have ih' := ih (fun g hg => hid g (List.mem_cons_of_mem _ hg))
      simp only [fibres, List.flatMap_cons] at ih' ⊢
      exact (ih'.append_left _).trans List.perm_middle

theorem insertBar_laws (d : List Group) (b : Bar) :
    ∀ g ∈ insertBar d b, g.law = b.law ∨ ∃ g' ∈ d, g'.law = g.law := by
  induction d with
  | nil => simp [insertBar]
  | cons g d ih =>
    intro g1 hg1
    unfold insertBar at hg1
    split_ifs at hg1 with h
    · rcases List.mem_cons.1 hg1 with rfl | h1
      · right; exact ⟨g, by simp, rfl⟩
      · right; exact ⟨g1, by simp [h1], rfl⟩
    · rcases List.mem_cons.1 hg1 with rfl | h1
      · right; exact ⟨g1, by simp, rfl⟩
      · rcases ih g1 h1 with h2 | ⟨g', h2, h3⟩
        · left; exact h2
        · right; exact ⟨g', by simp [h2], h3⟩

theorem groupBars_perm_aux (resp : Law → ℝ → ℝ) (bars : List Bar) (all : List LawObj)
    (hall : SameIds all) (hb : ∀ b ∈ bars, b.law ∈ all) (d : List Group)
    (hd : ∀ g ∈ d, g.law ∈ all) :
    (fibres resp (bars.foldl insertBar d)).Perm (fibres resp d ++ bars.map (Bar.fibre resp)) := by
  induction bars generalizing d with
  | nil => simp
  | cons b bars ih =>
    simp only [List.foldl_cons, List.map_cons]
    have hbl := hb b (by simp)
    refine (ih (fun b hb' => hb b (by simp [hb'])) (insertBar d b) ?_).trans ?_
    · intro g hg
      rcases insertBar_laws d b g hg with h | ⟨g', h, h'⟩
      · rw [h]; exact hbl
      · rw [← h']; exact hd g' h
    · refine ((insertBar_perm resp d b ?_).append_right _).trans ?_
      · intro g hg h
        exact hall _ (hd g hg) _ hbl h
      · exact List.perm_middle.symm

/-- Grouping the bars by law loses and duplicates nothing: the groups contain exactly the bars
(as fibres, up to order), for any number of bars and laws. -/
theorem C18_grouping (resp : Law → ℝ → ℝ) (bars : List Bar)
    (hid : SameIds (bars.map Bar.law)) :
    (fibres resp (groupBars bars)).Perm (bars.map (Bar.fibre resp)) := by
  simpa [groupBars, fibres] using groupBars_perm_aux resp bars (bars.map Bar.law) hid
    (fun b hb => List.mem_map_of_mem hb) [] (by simp)

/-- The section is the union of its parts: forces and stiffness add up. -/
theorem C18_additive (d d' : List Group) (e : Fin 3 → ℝ) :
    resultants (fibres Law.stress (d ++ d')) e =
      resultants (fibres Law.stress d) e + resultants (fibres Law.stress d') e ∧
    stiffness (fibres Law.tangent (d ++ d')) e =
      stiffness (fibres Law.tangent d) e + stiffness (fibres Law.tangent d') e := by
  constructor
  · funext i
    simp [resultants, fibres]
  · funext i j
    simp [stiffness, fibres]

/-- The returned stiffness matrix is symmetric. -/
theorem C18_symmetric (fs : List Fibre) (e : Fin 3 → ℝ) :
    (stiffness fs e).transpose = stiffness fs e := by
  funext i j
  simp only [Matrix.transpose_apply, stiffness]
  congr 1
  apply List.map_congr_left
  intro f _
  ring

theorem quad_form (fs : List Fibre) (e v : Fin 3 → ℝ) :
    v ⬝ᵥ (stiffness fs e).mulVec v =
      (fs.map fun f => f.A * f.resp (planeStrain e f.y f.z) * (planeStrain v f.y f.z) ^ 2).sum := by
  induction fs with
  | nil => simp [stiffness, Matrix.mulVec, dotProduct]
  | cons f fs ih =>
    rw [List.map_cons, List.sum_cons, ← ih]
    simp [stiffness, Matrix.mulVec, dotProduct, Fin.sum_univ_three, lever, planeStrain]
    ring

/-- Positive semidefinite as soon as no fibre has a negative area or tangent. -/
theorem C18_psd (fs : List Fibre) (e v : Fin 3 → ℝ)
    (h : ∀ f ∈ fs, 0 ≤ f.A * f.resp (planeStrain e f.y f.z)) :
    0 ≤ v ⬝ᵥ (stiffness fs e).mulVec v := by
  rw [quad_form]
  apply List.sum_nonneg
  simp only [List.mem_map, forall_exists_index, and_imp, forall_apply_eq_imp_iff₂]
  intro f hf
  exact mul_nonneg (h f hf) (sq_nonneg _)

/-- Positive definite when three fibres with positive stiffness are not collinear; so the Newton
step of `calculate_strain_profile` is uniquely solvable there. -/
theorem C18_posdef (fs : List Fibre) (e v : Fin 3 → ℝ)
    (h : ∀ f ∈ fs, 0 ≤ f.A * f.resp (planeStrain e f.y f.z))
    {a b c : Fibre} (ha : a ∈ fs) (hb : b ∈ fs) (hc : c ∈ fs)
    (pa : 0 < a.A * a.resp (planeStrain e a.y a.z)) (pb : 0 < b.A * b.resp (planeStrain e b.y b.z))
    (pc : 0 < c.A * c.resp (planeStrain e c.y c.z))
    (hnc : (b.y - a.y) * (c.z - a.z) - (c.y - a.y) * (b.z - a.z) ≠ 0) (hv : v ≠ 0) :
    0 < v ⬝ᵥ (stiffness fs e).mulVec v := by
  refine lt_of_le_of_ne (C18_psd fs e v h) fun h0 => hv ?_
  have hz : ∀ f ∈ fs, f.A * f.resp (planeStrain e f.y f.z) * (planeStrain v f.y f.z) ^ 2 = 0 := by
    rw [quad_form] at h0
    have hn : ∀ x ∈ fs.map (fun f => f.A * f.resp (planeStrain e f.y f.z) *
        (planeStrain v f.y f.z) ^ 2), 0 ≤ x := by
      simp only [List.mem_map, forall_exists_index, and_imp, forall_apply_eq_imp_iff₂]
      intro f hf
      exact mul_nonneg (h f hf) (sq_nonneg _)
    intro f hf
    exact List.all_zero_of_le_zero_le_of_sum_eq_zero hn h0.symm
      (List.mem_map_of_mem (f := fun f : Fibre => f.A * f.resp (planeStrain e f.y f.z) *
        (planeStrain v f.y f.z) ^ 2) hf)
  have z : ∀ f ∈ fs, 0 < f.A * f.resp (planeStrain e f.y f.z) → planeStrain v f.y f.z = 0 := by
    intro f hf hp
    have := hz f hf
    rcases mul_eq_zero.1 this with h1 | h1
    · exact absurd h1 hp.ne'
    · exact pow_eq_zero_iff (two_ne_zero) |>.1 h1
  have za := z a ha pa
  have zb := z b hb pb
  have zc := z c hc pc
  simp only [planeStrain] at za zb zc
  have e1 : v 1 * ((b.y - a.y) * (c.z - a.z) - (c.y - a.y) * (b.z - a.z)) = 0 := by
    linear_combination (c.y - b.y) * za + (a.y - c.y) * zb + (b.y - a.y) * zc
  have e2 : v 2 * ((b.y - a.y) * (c.z - a.z) - (c.y - a.y) * (b.z - a.z)) = 0 := by
    linear_combination (c.z - b.z) * za + (a.z - c.z) * zb + (b.z - a.z) * zc
  have h1 : v 1 = 0 := (mul_eq_zero.1 e1).resolve_right hnc
  have h2 : v 2 = 0 := (mul_eq_zero.1 e2).resolve_right hnc
  have h3 : v 0 = 0 := by rw [h1, h2] at za; linarith
  funext i
  fin_cases i <;> simpa

/-- The linear form `v ↦ planeStrain v y z`. -/
noncomputable def planeForm (y z : ℝ) : (Fin 3 → ℝ) →L[ℝ] ℝ :=
  ContinuousLinearMap.proj 0 + z • ContinuousLinearMap.proj 1 - y • ContinuousLinearMap.proj 2

theorem planeForm_apply (y z : ℝ) (v : Fin 3 → ℝ) : planeForm y z v = planeStrain v y z := by
  simp [planeForm, planeStrain]
  ring

theorem hasFDerivAt_plane (y z : ℝ) (e : Fin 3 → ℝ) :
    HasFDerivAt (fun v => planeStrain v y z) (planeForm y z) e := by
  have : (fun v => planeStrain v y z) = planeForm y z := by
    funext v; rw [planeForm_apply]
  rw [this]
  exact (planeForm y z).hasFDerivAt

theorem jacobian_row (data : List Group) (e : Fin 3 → ℝ)
    (h : ∀ g ∈ data, ∀ p ∈ g.pts, HasDerivAt g.law.law.stress
      (g.law.law.tangent (planeStrain e p.1 p.2.1)) (planeStrain e p.1 p.2.1)) (i : Fin 3) :
    HasFDerivAt (fun v => resultants (fibres Law.stress data) v i)
      ((ContinuousLinearMap.proj i).comp
        (Matrix.toLin' (stiffness (fibres Law.tangent data) e)).toContinuousLinearMap) e := by
  suffices H : ∀ ps : List (LawObj × ℝ × ℝ × ℝ), (∀ q ∈ ps, HasDerivAt q.1.law.stress
      (q.1.law.tangent (planeStrain e q.2.1 q.2.2.1)) (planeStrain e q.2.1 q.2.2.1)) →
      HasFDerivAt (fun v => resultants (ps.map fun q => ⟨q.2.1, q.2.2.1, q.2.2.2, q.1.law.stress⟩) v i)
      ((ContinuousLinearMap.proj i).comp
        (Matrix.toLin' (stiffness (ps.map fun q => ⟨q.2.1, q.2.2.1, q.2.2.2, q.1.law.tangent⟩) e)).toContinuousLinearMap) e by
    have := H (data.flatMap fun g => g.pts.map fun p => (g.law, p)) (by
      intro q hq
      simp only [List.mem_flatMap, List.mem_map] at hq
      obtain ⟨g, hg, p, hp, rfl⟩ := hq
      exact h g hg p hp)
    simpa only [fibres, List.map_flatMap, List.map_map, Function.comp_def] using this
  intro ps hps
  induction ps with
  | nil =>
    have h1 : (fun v => resultants (List.map (fun q : LawObj × ℝ × ℝ × ℝ =>
        (⟨q.2.1, q.2.2.1, q.2.2.2, q.1.law.stress⟩ : Fibre)) []) v i) = fun _ => 0 := by
      funext v; simp [resultants]
    have h2 : ((ContinuousLinearMap.proj i).comp (Matrix.toLin' (stiffness
        (List.map (fun q : LawObj × ℝ × ℝ × ℝ =>
        (⟨q.2.1, q.2.2.1, q.2.2.2, q.1.law.tangent⟩ : Fibre)) []) e)).toContinuousLinearMap) =
        (0 : (Fin 3 → ℝ) →L[ℝ] ℝ) := by
      ext v
      simp [stiffness, Matrix.mulVec, dotProduct]
    rw [h1, h2]
    exact hasFDerivAt_const _ _
  | cons q ps ih =>
    have ih := ih (fun q hq => hps q (by simp [hq]))
    have hq := hps q (by simp)
    have hd := ((hq.comp_hasFDerivAt e (hasFDerivAt_plane q.2.1 q.2.2.1 e)).const_mul
      q.2.2.2).mul_const (lever q.2.1 q.2.2.1 i)
    have := hd.add ih
    refine (this.congr_fderiv ?_).congr_of_eventuallyEq (Filter.Eventually.of_forall fun v => ?_)
    · ext v
      simp only [ContinuousLinearMap.add_apply, ContinuousLinearMap.smul_apply,
        ContinuousLinearMap.comp_apply, planeForm_apply, ContinuousLinearMap.proj_apply,
        LinearMap.coe_toContinuousLinearMap', Matrix.toLin'_apply, Matrix.mulVec, dotProduct,
        Fin.sum_univ_three, stiffness, List.map_cons, List.sum_cons, smul_eq_mul, planeStrain,
        lever]
      simp
      ring
    · simp [resultants, Function.comp]

/-- **C19.** At a strain plane where every fibre's `get_tangent` is the derivative of its
`get_stress`, the matrix returned for `integrate='modulus'` is the Jacobian of the forces returned
for `integrate='stress'` (with respect to axial strain and the two curvatures). -/
theorem C19_jacobian (surfs : List MeshSurf) (bars : List Bar) (data : List Group) (hd : data ≠ [])
    (e : Fin 3 → ℝ) (ms : ℝ)
    (h : ∀ g ∈ data, ∀ p ∈ g.pts, HasDerivAt g.law.law.stress
      (g.law.law.tangent (planeStrain e p.1 p.2.1)) (planeStrain e p.1 p.2.1)) :
    ∃ (F : (Fin 3 → ℝ) → Fin 3 → ℝ) (K : Matrix (Fin 3) (Fin 3) ℝ),
      (∀ v, fiberIntegrate surfs bars v .stress (some data) ms = .ok (.forces (F v), data)) ∧
      fiberIntegrate surfs bars e .modulus (some data) ms = .ok (.stiffness K, data) ∧
      HasFDerivAt F (Matrix.toLin' K).toContinuousLinearMap e :=
  ⟨_, _, fun v => C18_forces surfs bars data hd v ms, C18_stiffness surfs bars data hd e ms,
    hasFDerivAt_pi'' fun i => jacobian_row data e h i⟩

/-- Three elastic bars at the corners of a triangle. -/
noncomputable def threeBars : List Group :=
  [⟨[(0, 0, 314), (200, 0, 314), (0, 400, 314)], ⟨0, Elastic.law ⟨200000, none⟩⟩⟩]

/-- They meet the hypotheses of C19 at every strain plane. -/
example (e : Fin 3 → ℝ) : ∀ g ∈ threeBars, ∀ p ∈ g.pts, HasDerivAt g.law.law.stress
      (g.law.law.tangent (planeStrain e p.1 p.2.1)) (planeStrain e p.1 p.2.1) := by
  intro g hg p _
  simp only [threeBars, List.mem_singleton] at hg
  subst hg
  exact C10_elastic _ _

/-- They meet the hypotheses of C18_posdef. -/
example (e v : Fin 3 → ℝ) (hv : v ≠ 0) :
    0 < v ⬝ᵥ (stiffness (fibres Law.tangent threeBars) e).mulVec v := by
  have hf : fibres Law.tangent threeBars =
      [⟨0, 0, 314, fun _ => 200000⟩, ⟨200, 0, 314, fun _ => 200000⟩,
        ⟨0, 400, 314, fun _ => 200000⟩] := by
    simp [fibres, threeBars, Elastic.law]
    rfl
  rw [hf]
  refine C18_posdef _ e v ?_ (a := ⟨0, 0, 314, fun _ => 200000⟩)
    (b := ⟨200, 0, 314, fun _ => 200000⟩) (c := ⟨0, 400, 314, fun _ => 200000⟩)
    (by simp) (by simp) (by simp) (by norm_num) (by norm_num) (by norm_num) (by norm_num) hv
  intro f hf
  simp only [List.mem_cons, List.not_mem_nil, or_false] at hf
  rcases hf with rfl | rfl | rfl <;> norm_num

end SC
