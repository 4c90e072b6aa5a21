import Verif.Props.Calculator
import Verif.Props.StrainProfile

/-! # C53: returned strain planes and forces belong together; C26 on elastic sections -/

set_option autoImplicit false

namespace SC

open Spec

/-! ### Rotation of fibres -/

/-- A fibre rotated about the origin. -/
noncomputable def rotFibre (a : ℝ) (f : Fibre) : Fibre :=
  ⟨(rotPt a (f.y, f.z)).1, (rotPt a (f.y, f.z)).2, f.A, f.resp⟩

theorem fibres_rot (resp : Law → ℝ → ℝ) (a : ℝ) (D : List Group) :
    fibres resp (D.map (rotGroup a)) = (fibres resp D).map (rotFibre a) := by
  simp only [fibres, List.flatMap_map, List.map_flatMap, rotGroup, List.map_map]
  rfl

theorem planeStrain_rot (th e c z y x : ℝ) :
    planeStrain ![e, c, z] (rotPt (-th) (y, x)).1 (rotPt (-th) (y, x)).2 =
      planeStrain ![e, (rotPt th (c, z)).1, (rotPt th (c, z)).2] y x := by
  simp only [planeStrain, rotPt, Matrix.cons_val, Real.cos_neg, Real.sin_neg]
  ring

/-- Forces of a plane on the rotated section, rotated back. -/
theorem resultants_rot (fs : List Fibre) (th e c z : ℝ) :
    resultants (fs.map (rotFibre (-th))) ![e, c, z] 0 =
      resultants fs ![e, (rotPt th (c, z)).1, (rotPt th (c, z)).2] 0 ∧
    rotPt th (resultants (fs.map (rotFibre (-th))) ![e, c, z] 1,
        resultants (fs.map (rotFibre (-th))) ![e, c, z] 2) =
      (resultants fs ![e, (rotPt th (c, z)).1, (rotPt th (c, z)).2] 1,
        resultants fs ![e, (rotPt th (c, z)).1, (rotPt th (c, z)).2] 2) := by
  induction fs with
  | nil => simp [resultants, rotPt]
  | cons f fs ih =>
    obtain ⟨h0, h12⟩ := ih
    have hcons : ∀ (g : Fibre) gs x i, resultants (g :: gs) x i =
        g.A * g.resp (planeStrain x g.y g.z) * lever g.y g.z i + resultants gs x i := by
      intro g gs x i; simp [resultants]
    rw [Prod.mk.injEq] at h12
    obtain ⟨h1, h2⟩ := h12
    have hst := planeStrain_rot th e c z f.y f.z
    have hsq := Real.sin_sq_add_cos_sq th
    simp only [List.map_cons, hcons, rotFibre, hst] at *
    set S := f.A * f.resp (planeStrain ![e, (rotPt th (c, z)).1, (rotPt th (c, z)).2] f.y f.z)
    refine ⟨by rw [h0]; simp [lever], ?_⟩
    simp only [rotPt, Prod.mk.injEq] at h1 h2 ⊢
    constructor
    · rw [← h1]
      simp only [lever, Matrix.cons_val, Real.cos_neg, Real.sin_neg]
      linear_combination S * f.z * hsq
    · rw [← h2]
      simp only [lever, Matrix.cons_val, Real.cos_neg, Real.sin_neg]
      linear_combination -S * f.y * hsq

/-! ### The strength calculation of a section integrated with fibres -/

/-- What C53 needs of an integrator: with cached data, the forces are the resultants of the fibres
described by the data. -/
def Engine.Exact (E : Engine) (D : List Group) : Prop :=
  ∀ a b e m, E.integ a e .stress (some (D.map (rotGroup b))) m =
    .ok (.forces (resultants (fibres Law.stress (D.map (rotGroup b))) e), D.map (rotGroup b))

theorem fiberEngine_exact (surfs : ℝ → List MeshSurf) (surfParts : ℝ → List Part) (bars : List Bar)
    (rc : Bool) (ms : ℝ) (D : List Group) (hD : D ≠ []) :
    (fiberEngine surfs surfParts bars rc ms).Exact D :=
  fun a _ e m => C18_forces (surfs a) (bars.map (Bar.rotate a)) _ (by simpa using hD) e m

theorem marinEngine_exact (split : Polygon → ℝ → ℝ → ShapelyResult) (surfParts : ℝ → List Part)
    (bars : List Bar) (rc : Bool) (ms : ℝ) (D : List Group) (hs : EqualSizes D) :
    (marinEngine split [] surfParts bars rc ms).Exact D := by
  intro a b e m
  refine C20_forces_partial split _ _ ?_ e
  intro x hx y hy
  simp only [List.mem_map] at hx hy
  obtain ⟨g, hg, rfl⟩ := hx
  obtain ⟨g', hg', rfl⟩ := hy
  simpa [rotGroup] using hs g hg g' hg'

section
variable {E : Engine} {base : ℝ → Except PyErr (List Group)}

/-- State in which the rotated part of a calculation starts. -/
theorem check_ok_state (hE : E.Lawful base) {n : ℝ} {s s1 : CalcState} (hs : Canonical E base s)
    (h : checkAxialLoad E n s = (s1, .ok ())) :
    ∃ D L, base E.meshSize = .ok D ∧ s1 = ⟨some D, some L⟩ := by
  obtain ⟨h1, h2, h3⟩ := limits_canonical hE hs
  simp only [checkAxialLoad, CalcM.bind_def] at h
  rcases hl : limits E s with ⟨s', r⟩
  rw [hl] at h h1 h2
  cases r with
  | error e => simp at h
  | ok l =>
    simp only at h h1
    obtain ⟨D, hD, hs'⟩ := h2 l h1.symm
    simp only at hs'
    split_ifs at h with hc
    · simp [liftE] at h
    · simp only [CalcM.pure_def, Prod.mk.injEq, and_true] at h
      exact ⟨D, l, hD, by rw [← h, hs']⟩

theorem CalcM.bind_eq_ok {α β : Type} {m : CalcM α} {f : α → CalcM β} {s s' : CalcState} {b : β}
    (h : (m >>= f) s = (s', .ok b)) : ∃ s1 a, m s = (s1, .ok a) ∧ f a s1 = (s', .ok b) := by
  rw [CalcM.bind_def] at h
  rcases hm : m s with ⟨s1, r⟩
  rw [hm] at h
  cases r with
  | error e => simp at h
  | ok a => exact ⟨s1, a, rfl, h⟩

theorem call_exact (D : List Group) (hX : E.Exact D) (a b : ℝ) (e : Fin 3 → ℝ) (m : ℝ) (c : Bool)
    (lim : Option (ℝ × ℝ)) : call E a e .stress m c ⟨some (D.map (rotGroup b)), lim⟩ =
      (⟨some (D.map (rotGroup b)), lim⟩,
        .ok (.forces (resultants (fibres Law.stress (D.map (rotGroup b))) e))) := by
  rw [call_some, hX]

theorem searchResult_ok {r : Option (Except PyErr (ℝ × ℝ × ℝ) × ℕ)} {v : Fin 3 → ℝ}
    (h : searchResult r = .ok v) : ∃ e c z k, r = some (.ok (e, c, z), k) ∧ v = ![e, c, z] := by
  unfold searchResult at h
  split at h
  · cases h
  · cases h
  · rename_i e c z k
    cases h
    exact ⟨e, c, z, k, rfl, rfl⟩

/-- **C53** (bending strength). On any calculator (new or used, canonical state), the returned axial
force and moments are exactly the resultants of the returned strain plane over the fibres of the
(unrotated) section, for every angle and load. -/
theorem C53_bending (hE : E.Lawful base) (D : List Group) (hD : base E.meshSize = .ok D)
    (hX : E.Exact D) (th n : ℝ) (s s' : CalcState) (hs : Canonical E base s) (b : BendingResult)
    (h : bendingStrength E th n s = (s', .ok b)) :
    resultants (fibres Law.stress D) ![b.eps_a, b.chi.1, b.chi.2] = ![b.n, b.m.1, b.m.2] := by
  obtain ⟨s1, _, hc, h⟩ := CalcM.bind_eq_ok h
  obtain ⟨D', L, hD', rfl⟩ := check_ok_state hE hs hc
  rw [hD] at hD'
  cases hD'
  obtain ⟨s2, _, hr, h⟩ := CalcM.bind_eq_ok h
  simp only [rotateData, Option.map_some, Prod.mk.injEq, and_true] at hr
  subst hr
  obtain ⟨s3, v, hp, h⟩ := CalcM.bind_eq_ok h
  have hs3 := frozen_pivot (E := E) (-th) n false (D.map (rotGroup (-th))) (some L)
  rw [hp] at hs3
  simp only at hs3
  subst hs3
  rw [CalcM.bind_ok (call_exact D hX _ _ _ _ _ _)] at h
  obtain ⟨s4, _, hr, h⟩ := CalcM.bind_eq_ok h
  simp only [CalcM.pure_def, Prod.mk.injEq, Except.ok.injEq] at h
  obtain ⟨-, rfl⟩ := h
  obtain ⟨h0, h12⟩ := resultants_rot (fibres Law.stress D) th (v 0) (v 1) (v 2)
  have hv : v = ![v 0, v 1, v 2] := by funext i; fin_cases i <;> rfl
  rw [← hv, ← fibres_rot] at h0 h12
  simp only [Response.N, Response.M, rot2]
  rw [h0, h12]
  funext i
  fin_cases i <;> rfl

theorem fixedPivotFromE_zero {N : ℝ → ℝ → Except PyErr ℝ} {n yn yp : ℝ} {st : Fin 3 → ℝ}
    {e c z : ℝ} {k : ℕ} (h : fixedPivotFromE N n yn yp st = some (.ok (e, c, z), k)) : z = 0 := by
  unfold fixedPivotFromE at h
  split at h
  · simp at h
  · split_ifs at h
    · simp only [Option.some.injEq, Prod.mk.injEq, Except.ok.injEq] at h
      exact h.1.2.2.symm
    all_goals
      simp only at h
      split at h
      · simp at h
      · rw [Option.map_eq_some_iff] at h
        obtain ⟨⟨r, k'⟩, -, h⟩ := h
        cases r with
        | error e => simp at h
        | ok c =>
          simp only [Prod.mk.injEq, Except.ok.injEq] at h
          exact h.1.2.2.symm

theorem fixedCurvatureE_snd {N : ℝ → ℝ → Except PyErr ℝ} {n curv eps0 : ℝ}
    {e c z : ℝ} {k : ℕ} (h : fixedCurvatureE N n curv eps0 = some (.ok (e, c, z), k)) :
    c = curv ∧ z = 0 := by
  unfold fixedCurvatureE at h
  split at h
  · simp at h
  · split_ifs at h
    · simp only [Option.some.injEq, Prod.mk.injEq, Except.ok.injEq] at h
      exact ⟨h.1.2.1.symm, h.1.2.2.symm⟩
    · split at h
      · simp at h
      · simp at h
      · rw [Option.map_eq_some_iff] at h
        obtain ⟨⟨r, k'⟩, -, h⟩ := h
        cases r with
        | error e => simp at h
        | ok c =>
          simp only [Prod.mk.injEq, Except.ok.injEq] at h
          exact ⟨h.1.2.1.symm, h.1.2.2.symm⟩

/-- The neutral axis of the returned plane has the requested inclination. -/
theorem C53_neutral_axis (th n : ℝ) (s s' : CalcState) (b : BendingResult)
    (h : bendingStrength E th n s = (s', .ok b)) :
    ∃ c, b.chi = (c * Real.cos th, c * Real.sin th) := by
  obtain ⟨s1, _, hc, h⟩ := CalcM.bind_eq_ok h
  obtain ⟨s2, _, hr, h⟩ := CalcM.bind_eq_ok h
  obtain ⟨s3, v, hp, h⟩ := CalcM.bind_eq_ok h
  obtain ⟨s4, r, hcall, h⟩ := CalcM.bind_eq_ok h
  obtain ⟨s5, _, hr5, h⟩ := CalcM.bind_eq_ok h
  simp only [CalcM.pure_def, Prod.mk.injEq, Except.ok.injEq] at h
  obtain ⟨-, rfl⟩ := h
  obtain ⟨s6, bal, hb, hp⟩ := CalcM.bind_eq_ok hp
  obtain ⟨s7, r7, hb7, hp⟩ := CalcM.bind_eq_ok hp
  simp only [withData, Prod.mk.injEq] at hp
  obtain ⟨e, c, z, k, hrun, rfl⟩ := searchResult_ok hp.2
  have := fixedPivotFromE_zero hrun
  subst this
  refine ⟨c, ?_⟩
  simp only [rot2, rotPt, Matrix.cons_val]
  rw [Prod.mk.injEq]
  constructor <;> ring

/-- The points of a moment-curvature diagram: as many as curvatures, in order, each with the
moments of its own strain plane. -/
theorem mcLoop_spec (D : List Group) (hX : E.Exact D) (th n : ℝ) (lim : Option (ℝ × ℝ)) :
    ∀ (chis : List ℝ) (e0 : ℝ) (s' : CalcState) (pts : List MCPoint),
    mcLoop E th n e0 chis ⟨some (D.map (rotGroup (-th))), lim⟩ = (s', .ok pts) →
    pts.map (fun p => p.2.2) = chis.map (fun c => (c * Real.cos th, c * Real.sin th)) ∧
    ∀ p ∈ pts, (resultants (fibres Law.stress D) ![p.1, p.2.2.1, p.2.2.2] 1,
      resultants (fibres Law.stress D) ![p.1, p.2.2.1, p.2.2.2] 2) = p.2.1 := by
  intro chis
  induction chis with
  | nil =>
    intro e0 s' pts h
    simp only [mcLoop, CalcM.pure_def, Prod.mk.injEq, Except.ok.injEq] at h
    rw [← h.2]
    simp
  | cons c chis ih =>
    intro e0 s' pts h
    rw [mcLoop] at h
    obtain ⟨s1, v, hv, h⟩ := CalcM.bind_eq_ok h
    have hs1 := frozen_curvature (E := E) (-th) n c e0 (D.map (rotGroup (-th))) lim
    rw [hv] at hs1
    simp only at hs1
    subst hs1
    rw [CalcM.bind_ok (call_exact D hX _ _ _ _ _ _)] at h
    obtain ⟨s2, tail, ht, h⟩ := CalcM.bind_eq_ok h
    obtain ⟨ih1, ih2⟩ := ih _ _ _ ht
    simp only [CalcM.pure_def, Prod.mk.injEq, Except.ok.injEq] at h
    obtain ⟨-, rfl⟩ := h
    obtain ⟨s3, r, hr, hsr⟩ := CalcM.bind_eq_ok hv
    simp only [withData, Prod.mk.injEq] at hsr
    obtain ⟨e, c', z, k, hrun, hve⟩ := searchResult_ok hsr.2
    obtain ⟨rfl, rfl⟩ := fixedCurvatureE_snd hrun
    have hv1 : v 1 = c' := by rw [hve]; rfl
    have hv2 : v 2 = 0 := by rw [hve]; rfl
    have hvv : v = ![v 0, c', 0] := by rw [hve]; rfl
    constructor
    · simp only [List.map_cons, ih1, rot2, rotPt]
      congr 2 <;> ring
    · intro p hp
      rcases List.mem_cons.1 hp with rfl | hp
      · obtain ⟨-, h12⟩ := resultants_rot (fibres Law.stress D) th (v 0) c' 0
        rw [← hvv, ← fibres_rot] at h12
        simp only [Response.M, rot2]
        rw [h12]
      · exact ih2 p hp

/-- **C53** (moment-curvature). The returned points have exactly the requested curvatures, turned by
the angle, in order, and the moments of each point are the resultants of its strain plane over the
fibres of the unrotated section. -/
theorem C53_moment_curvature (hE : E.Lawful base) (D : List Group) (hD : base E.meshSize = .ok D)
    (hX : E.Exact D) (th n c : ℝ) (a b : ℕ) (chis : List ℝ) (s s' : CalcState)
    (hs : Canonical E base s) (pts : List MCPoint)
    (h : momentCurvature E th n c a b (some chis) s = (s', .ok pts)) :
    pts.map (fun p => p.2.2) = chis.map (fun c => (c * Real.cos th, c * Real.sin th)) ∧
    ∀ p ∈ pts, (resultants (fibres Law.stress D) ![p.1, p.2.2.1, p.2.2.2] 1,
      resultants (fibres Law.stress D) ![p.1, p.2.2.1, p.2.2.2] 2) = p.2.1 := by
  obtain ⟨s1, _, hc, h⟩ := CalcM.bind_eq_ok h
  obtain ⟨D', L, hD', rfl⟩ := check_ok_state hE hs hc
  rw [hD] at hD'
  cases hD'
  obtain ⟨s2, _, hr, h⟩ := CalcM.bind_eq_ok h
  simp only [rotateData, Option.map_some, Prod.mk.injEq, and_true] at hr
  subst hr
  obtain ⟨s3, g, hg, h⟩ := CalcM.bind_eq_ok h
  simp only [CalcM.pure_def, Prod.mk.injEq, Except.ok.injEq] at hg
  obtain ⟨rfl, rfl⟩ := hg
  obtain ⟨s4, p, hp, h⟩ := CalcM.bind_eq_ok h
  obtain ⟨s5, _, h5, h⟩ := CalcM.bind_eq_ok h
  simp only [CalcM.pure_def, Prod.mk.injEq, Except.ok.injEq] at h
  obtain ⟨-, rfl⟩ := h
  exact mcLoop_spec D hX th n _ _ _ _ _ hp

end

/-! ### The searches of the calculator are the searches of C23-C25 -/

theorem bisectionE_pure (f : ℝ → ℝ) (a da b db : ℝ) :
    bisectionE (fun x => .ok (f x)) a da b db = bisection f a da b db := rfl

theorem prefindE_pure (f : ℝ → ℝ) (a da : ℝ) :
    prefindE (fun x => .ok (f x)) a da = prefind f a da := rfl

theorem residual_pure (N : ℝ → ℝ → ℝ) (n e c : ℝ) :
    residual (fun e c => .ok (N e c)) n e c = .ok (N e c - n) := rfl

theorem fixedPivotFromE_pure (N : ℝ → ℝ → ℝ) (n yn yp : ℝ) (st : Fin 3 → ℝ) :
    fixedPivotFromE (fun e c => .ok (N e c)) n yn yp st = fixedPivotFrom N n yn yp st := by
  simp only [fixedPivotFromE, fixedPivotFrom, residual_pure, bisectionE_pure]
  split_ifs <;> rfl

theorem fixedCurvatureE_pure (N : ℝ → ℝ → ℝ) (n c e : ℝ) :
    fixedCurvatureE (fun e c => .ok (N e c)) n c e = fixedCurvature N n c e := by
  simp only [fixedCurvatureE, fixedCurvature, residual_pure, bisectionE_pure, prefindE_pure]
  rfl

/-- **C25** on the calculator: with cached data and an integrator that does not raise, the two
searches inside the public methods always produce a result or an exception (never run forever). -/
theorem C25_calculator (E : Engine) (D : List Group) (hX : E.Exact D) (a b n : ℝ) :
    (∀ yn yp st, ∃ r, fixedPivotFromE (oracleN E a (some (D.map (rotGroup b)))) n yn yp st = some r) ∧
    ∀ c e, ∃ r, fixedCurvatureE (oracleN E a (some (D.map (rotGroup b)))) n c e = some r := by
  have ho : oracleN E a (some (D.map (rotGroup b))) = fun e c =>
      .ok (resultants (fibres Law.stress (D.map (rotGroup b))) ![e, c, 0] 0) := by
    funext e c
    rw [oracleN, hX]
    rfl
  rw [ho]
  constructor
  · intro yn yp st
    rw [fixedPivotFromE_pure]
    unfold fixedPivotFrom
    simp only
    split_ifs
    · exact ⟨_, rfl⟩
    all_goals
      obtain ⟨r, k, hr, -⟩ := bisection_terminates _ _ _ _ _
      rw [hr]
      exact ⟨_, rfl⟩
  · intro c e
    rw [fixedCurvatureE_pure]
    obtain ⟨r, k, hr, -⟩ := C25_fixed_curvature_stops
      (fun e c => resultants (fibres Law.stress (D.map (rotGroup b))) ![e, c, 0] 0) n c e
    exact ⟨_, hr⟩

/-! ### C26: elastic sections -/

/-- Fibres of elastic material: the response is `K e`, with `K` the stiffness. -/
theorem elastic_resultants (D : List Group) (E : Group → ℝ)
    (hel : ∀ g ∈ D, ∀ x, g.law.law.stress x = E g * x ∧ g.law.law.tangent x = E g)
    (e x : Fin 3 → ℝ) :
    resultants (fibres Law.stress D) e = (stiffness (fibres Law.tangent D) x).mulVec e := by
  induction D with
  | nil => funext i; simp [resultants, fibres, stiffness, Matrix.mulVec, dotProduct]
  | cons g D ih =>
    have ih' := ih (fun g' hg' => hel g' (List.mem_cons_of_mem _ hg'))
    have hg := hel g (by simp)
    have h1 : fibres Law.stress (g :: D) = fibres Law.stress [g] ++ fibres Law.stress D := by
      simp [fibres]
    have h2 : fibres Law.tangent (g :: D) = fibres Law.tangent [g] ++ fibres Law.tangent D := by
      simp [fibres]
    have a1 : ∀ l l' : List Fibre, resultants (l ++ l') e = resultants l e + resultants l' e := by
      intro l l'; funext i; simp [resultants]
    have a2 : ∀ l l' : List Fibre, stiffness (l ++ l') x = stiffness l x + stiffness l' x := by
      intro l l'; funext i j; simp [stiffness]
    rw [h1, h2, a1, a2, Matrix.add_mulVec, ← ih']
    congr 1
    simp only [fibres, List.flatMap_cons, List.flatMap_nil, List.append_nil]
    generalize g.pts = pts
    induction pts with
    | nil => funext i; simp [resultants, stiffness, Matrix.mulVec, dotProduct]
    | cons p pts ihp =>
      have h1 : ∀ q : List Fibre, ∀ f : Fibre, f :: q = [f] ++ q := fun _ _ => rfl
      rw [List.map_cons, List.map_cons, h1 (List.map _ _), h1 (List.map _ pts) ⟨_, _, _, g.law.law.tangent⟩,
        a1, a2, Matrix.add_mulVec, ihp]
      congr 1
      funext i
      fin_cases i <;>
        simp [resultants, stiffness, Matrix.mulVec, dotProduct, Fin.sum_univ_three, lever,
          planeStrain, hg] <;> ring

/-- **C26** (elastic section, whole method). For a section of elastic fibres with regular stiffness,
`calculate_strain_profile` on a new calculator returns, for all loads and both variants, the strain
plane whose resultants are exactly the loads. -/
theorem C26_elastic_section (surfs : ℝ → List MeshSurf) (surfParts : ℝ → List Part)
    (bars : List Bar) (rc : Bool) (ms : ℝ) (D : List Group)
    (hD : triangulate (surfs 0) bars defaultMesh = .ok D) (hne : D ≠ []) (Eg : Group → ℝ)
    (hel : ∀ g ∈ D, ∀ x, g.law.law.stress x = Eg g * x ∧ g.law.law.tangent x = Eg g)
    (hdet : (stiffness (fibres Law.tangent D) 0).det ≠ 0)
    (lu : Matrix (Fin 3) (Fin 3) ℝ → (Fin 3 → ℝ) → (Fin 3 → ℝ))
    (hlu : ∀ (K : Matrix (Fin 3) (Fin 3) ℝ) r, K.det ≠ 0 → K.mulVec (lu K r) = r)
    (loads : Fin 3 → ℝ) (initial : Bool) (max_iter : ℤ) (hm : 3 ≤ max_iter) (tol : ℝ) (ht : 0 < tol) :
    ∃ e, (strainProfileM (fiberEngine surfs surfParts bars rc ms) lu loads initial max_iter tol
        .fresh) = (⟨some D, none⟩, .ok e) ∧
      resultants (fibres Law.stress D) e = loads := by
  set K := stiffness (fibres Law.tangent D) 0 with hK
  have hKx : ∀ x, stiffness (fibres Law.tangent D) x = K := by
    intro x
    have h1 : ∀ v, (stiffness (fibres Law.tangent D) x).mulVec v = K.mulVec v := by
      intro v
      rw [← elastic_resultants D Eg hel v x, elastic_resultants D Eg hel v 0]
    exact Matrix.ext_of_mulVec_single fun i => h1 _
  obtain ⟨e, k, hrun, hKe, -⟩ := C26_linear K hdet lu (fun r => hlu K r hdet) initial loads max_iter
    hm tol ht
  refine ⟨e, ?_, by rw [elastic_resultants D Eg hel e 0]; exact hKe⟩
  have hfirst : (fiberEngine surfs surfParts bars rc ms).integ 0 0 .modulus none defaultMesh =
      .ok (.stiffness K, D) := by
    rw [(fiberEngine_lawful surfs surfParts bars rc ms).first]
    simp only [hD]
    exact C18_stiffness (surfs 0) (bars.map (Bar.rotate 0)) D hne 0 defaultMesh
  have hcall : call (fiberEngine surfs surfParts bars rc ms) 0 0 .modulus defaultMesh true .fresh =
      (⟨some D, none⟩, .ok (.stiffness K)) := by
    simp only [call, CalcState.fresh, hfirst]
    rfl
  rw [strainProfileM, CalcM.bind_ok hcall]
  have hf : ∀ x m, (fiberEngine surfs surfParts bars rc ms).integ 0 x .stress (some D) m =
      .ok (.forces (K.mulVec x), D) := by
    intro x m
    rw [← elastic_resultants D Eg hel x 0]
    exact C18_forces (surfs 0) (bars.map (Bar.rotate 0)) D hne x m
  have hs : ∀ x m, (fiberEngine surfs surfParts bars rc ms).integ 0 x .modulus (some D) m =
      .ok (.stiffness K, D) := by
    intro x m
    rw [← hKx x]
    exact C18_stiffness (surfs 0) (bars.map (Bar.rotate 0)) D hne x m
  simp only [withData, hf, hs, Response.vec, Response.mat]
  rw [hrun]

/-- Non-vacuity: three elastic bars that are not collinear have a regular stiffness. -/
example : (stiffness (fibres Law.tangent
    [⟨[(0, 0, 1), (1, 0, 1), (0, 1, 1)], ⟨0, (⟨1, none⟩ : Elastic).law⟩⟩]) 0).det ≠ 0 := by
  have ht : ∀ x, (⟨1, none⟩ : Elastic).law.tangent x = 1 := fun _ => rfl
  rw [Matrix.det_fin_three]
  simp [stiffness, fibres, lever, ht]

end SC
