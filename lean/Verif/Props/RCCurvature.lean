import Verif.Props.RCReturns
import Verif.Props.EquilibriumGeneric
import Verif.Props.Grid

/-! # C70: moment-curvature diagrams of reinforced concrete sections

The whole path of `calculate_moment_curvature` with the Marin integrator: axial load check, rotation, (for the default grid) the two
pivot searches, the loop of equilibrium searches at fixed curvature, each starting from the strain found before, and the back
rotation. -/

set_option autoImplicit false

namespace SC

open Spec MeasureTheory

/-! ### All strains of a diagram are dyadic multiples of 0.001 -/

/-- Dyadic multiples of 0.001. -/
def Grain : Set ℝ := {x | ∃ (p : ℤ) (k : ℕ), x = 1e-3 * p / 2 ^ k}

theorem grain_zero : (0 : ℝ) ∈ Grain := ⟨0, 0, by norm_num⟩

theorem grain_countable : Grain.Countable := by
  refine (Set.countable_range fun q : ℤ × ℕ => (1e-3 * q.1 / 2 ^ q.2 : ℝ)).mono ?_
  rintro x ⟨p, k, rfl⟩
  exact ⟨(p, k), rfl⟩

theorem grain_add {x y : ℝ} (hx : x ∈ Grain) (hy : y ∈ Grain) : x + y ∈ Grain := by
  obtain ⟨p, k, rfl⟩ := hx
  obtain ⟨q, m, rfl⟩ := hy
  refine ⟨p * 2 ^ m + q * 2 ^ k, k + m, ?_⟩
  push_cast
  rw [pow_add]
  field_simp

theorem grain_step {s : ℝ} (hs : s = 1 ∨ s = -1) (p m : ℕ) : s * 1e-3 * p / 2 ^ m ∈ Grain := by
  rcases hs with rfl | rfl
  · exact ⟨p, m, by push_cast; ring⟩
  · exact ⟨-p, m, by push_cast; ring⟩

/-- A search that starts at a dyadic multiple of 0.001 ends at one. -/
theorem fixedCurvature_grain (N : ℝ → ℝ → ℝ) {n curv eps0 e chi z : ℝ} {k : ℕ} (h0 : eps0 ∈ Grain)
    (h : fixedCurvature N n curv eps0 = some (.ok (e, chi, z), k)) : e ∈ Grain := by
  unfold fixedCurvature at h
  simp only at h
  split_ifs at h
  · simp only [Option.some.injEq, Prod.mk.injEq, Except.ok.injEq] at h
    obtain ⟨⟨rfl, -, -⟩, -⟩ := h
    exact h0
  · cases hp : prefind (fun e => N e curv - n) eps0 (N eps0 curv - n) with
    | none => rw [hp] at h; simp at h
    | some v =>
      obtain ⟨r, kp⟩ := v
      rw [hp] at h
      cases r with
      | error e => simp at h
      | ok b =>
        obtain ⟨eb, db⟩ := b
        obtain ⟨hdb, htr, -⟩ := (prefind_spec _ _ _ hp).1 eb db rfl
        simp only [Option.map_eq_some_iff] at h
        obtain ⟨⟨r', k'⟩, hbis, h⟩ := h
        simp only [Prod.mk.injEq] at h
        obtain ⟨h, -⟩ := h
        cases r' with
        | error e => simp at h
        | ok c =>
          simp only [Except.ok.injEq, Prod.mk.injEq] at h
          obtain ⟨rfl, -, -⟩ := h
          rw [hdb] at hbis
          obtain ⟨t, ht, rfl⟩ := ((bisection_spec (fun e => N e curv - n) eps0 eb hbis).1 c rfl).1
          obtain ⟨s, hs, p, m, hpm⟩ := trial_dyadic htr ht
          rw [hpm]
          exact grain_add h0 (grain_step hs p m)

/-- The search only asks for the given curvature. -/
theorem fixedCurvatureE_at {N : ℝ → ℝ → Except PyErr ℝ} {N' : ℝ → ℝ → ℝ} {curv : ℝ} (h : ∀ e, N e curv = .ok (N' e curv))
    (n e0 : ℝ) : fixedCurvatureE N n curv e0 = fixedCurvature N' n curv e0 := by
  rw [← fixedCurvatureE_pure]
  have hr : ∀ e, residual N n e curv = residual (fun e c => .ok (N' e c)) n e curv := by
    intro e; simp only [residual, h]
  simp only [fixedCurvatureE, hr]

/-! ### The specification of one point -/

/-- The strain plane of a point of the diagram. -/
def MCPoint.plane (p : MCPoint) : Fin 3 → ℝ := ![p.1, p.2.2.1, p.2.2.2]

/-- A search for the axial strain, started at `e0`, was driven away: some strain on the side that should lessen the imbalance has a
larger one, of the same sign (a material fails there). -/
def DrivenAway (S : CrossSection) (n : ℝ) (p : MCPoint) (e0 : ℝ) : Prop :=
  ∃ x, (S.forces ![e0, p.2.2.1, p.2.2.2] 0 - n) * (x - e0) < 0 ∧
    0 ≤ (S.forces ![e0, p.2.2.1, p.2.2.2] 0 - n) * (S.forces ![x, p.2.2.1, p.2.2.2] 0 - n) ∧
    |S.forces ![x, p.2.2.1, p.2.2.2] 0 - n| > |S.forces ![e0, p.2.2.1, p.2.2.2] 0 - n|

/-- The axial forces the searches could meet exactly, for the curvatures `C`. -/
def metExactly (S : CrossSection) (th : ℝ) (C : Set ℝ) : Set ℝ :=
  {n | ∃ e ∈ Grain, ∃ c ∈ C, S.forces ![e, c * Real.cos th, c * Real.sin th] 0 = n}

theorem metExactly_countable (S : CrossSection) (th : ℝ) {C : Set ℝ} (hC : C.Countable) : (metExactly S th C).Countable := by
  refine ((grain_countable.prod hC).image fun q : ℝ × ℝ => S.forces ![q.1, q.2 * Real.cos th, q.2 * Real.sin th] 0).mono ?_
  rintro n ⟨e, he, c, hc, rfl⟩
  exact ⟨(e, c), ⟨he, hc⟩, rfl⟩

/-- The loop over the curvatures. -/
theorem rc_mcLoop {E : Engine} {D : List Group} {S : CrossSection} {th : ℝ} (n : ℝ) (lim : Option (ℝ × ℝ)) (C : Set ℝ)
    (hn : n ∉ metExactly S th C) :
    ∀ (chis : List ℝ) (e0 : ℝ) (s' : CalcState) (pts : List MCPoint), e0 ∈ Grain →
    (∀ c ∈ chis, E.AnswersAt D S th c) → (∀ c ∈ chis, c ∈ C) →
    mcLoop E th n e0 chis ⟨some (D.map (rotGroup (-th))), lim⟩ = (s', .ok pts) →
    pts.map (fun p => p.2.2) = chis.map (fun c => (c * Real.cos th, c * Real.sin th)) ∧
    (∀ p ∈ pts, (S.forces p.plane 1, S.forces p.plane 2) = p.2.1) ∧
    ∀ q ∈ (e0 :: pts.map Prod.fst).zip pts, |S.forces q.2.plane 0 - n| ≤ 1e-2 ∨ DrivenAway S n q.2 q.1 := by
  intro chis
  induction chis with
  | nil =>
    intro e0 s' pts _ _ _ h
    simp only [mcLoop, CalcM.pure_def, Prod.mk.injEq, Except.ok.injEq] at h
    rw [← h.2]
    simp
  | cons c chis ih =>
    intro e0 s' pts h0 hA hC h
    have hAc := hA c (by simp)
    rw [mcLoop] at h
    obtain ⟨s1, v, hv, h⟩ := CalcM.bind_eq_ok h
    have hs1 := frozen_curvature (E := E) (-th) n c e0 (D.map (rotGroup (-th))) lim
    rw [hv] at hs1
    simp only at hs1
    subst hs1
    obtain ⟨s3, r3, hr3, hsr⟩ := CalcM.bind_eq_ok hv
    have hs3 : s3 = ⟨some (D.map (rotGroup (-th))), lim⟩ := by
      rw [call_some] at hr3
      exact (Prod.mk.inj hr3).1.symm
    subst hs3
    simp only [withData, Prod.mk.injEq] at hsr
    obtain ⟨e, c', z, k, hrun, rfl⟩ := searchResult_ok hsr.2
    obtain ⟨rfl, rfl⟩ := fixedCurvatureE_snd hrun
    rw [fixedCurvatureE_at (N' := fun e c => S.forces ![e, c * Real.cos th, c * Real.sin th] 0) (fun e => by
      obtain ⟨F, h1, h2, -⟩ := hAc e defaultMesh
      rw [oracleN, h1]
      simp only [Response.N, h2])] at hrun
    have heg := fixedCurvature_grain _ h0 hrun
    obtain ⟨F, hF1, hF2, hF3⟩ := hAc e defaultMesh
    rw [CalcM.bind_ok (s' := ⟨some (D.map (rotGroup (-th))), lim⟩) (a := .forces F) (by rw [call_some, hF1])] at h
    obtain ⟨s2, tail, ht, h⟩ := CalcM.bind_eq_ok h
    obtain ⟨ih1, ih2, ih3⟩ := ih _ _ _ heg (fun c hc => hA c (by simp [hc])) (fun c hc => hC c (by simp [hc])) ht
    simp only [CalcM.pure_def, Prod.mk.injEq, Except.ok.injEq] at h
    obtain ⟨-, rfl⟩ := h
    have hchi : rot2 th (c', 0) = (c' * Real.cos th, c' * Real.sin th) := by
      simp only [rot2, rotPt, Prod.mk.injEq]; constructor <;> ring
    refine ⟨?_, ?_, ?_⟩
    · simp only [List.map_cons, ih1, hchi]
    · intro p hp
      rcases List.mem_cons.1 hp with rfl | hp
      · simp only [MCPoint.plane, Response.M, hchi, Matrix.cons_val]
        rw [show rot2 th (F 1, F 2) = rotPt th (F 1, F 2) from rfl, hF3]
      · exact ih2 p hp
    · intro q hq
      simp only [List.map_cons, List.zip_cons_cons, List.mem_cons] at hq
      rcases hq with rfl | hq
      · simp only [MCPoint.plane, DrivenAway, hchi, Matrix.cons_val]
        obtain ⟨-, -, h | ⟨s, hs, p, m, hz⟩ | h⟩ := C23_fixed_curvature_partial _ n c' e0 e c' 0 k hrun
        · exact Or.inl h
        · exact absurd ⟨_, grain_add h0 (grain_step hs p m), c', hC c' (by simp), hz⟩ hn
        · exact Or.inr h
      · exact ih3 q hq

/-! ### Curvatures given by the caller -/

/-- **C70** for any integrator that answers with the forces of the section (partial: the two exceptions of the last clause are
real, `C23_fixed_curvature_violated` and `C23_no_bracket_violated`). -/
theorem C70_given_partial {E : Engine} {base : ℝ → Except PyErr (List Group)} (hE : E.Lawful base)
    (hm : base defaultMesh = base E.meshSize) {D : List Group} (hD : base E.meshSize = .ok D) {S : CrossSection} {th : ℝ}
    (lu : Matrix (Fin 3) (Fin 3) ℝ → (Fin 3 → ℝ) → (Fin 3 → ℝ)) (chis : List ℝ) (hA : ∀ c ∈ chis, E.AnswersAt D S th c) :
    ∃ C : Set ℝ, C.Countable ∧ ∀ n ∉ C, ∀ (c : ℝ) (a b : ℕ) (ops : List Op) (pts : List MCPoint),
      Undisturbed E lu ops .fresh →
      (momentCurvature E th n c a b (some chis) (history E lu ops .fresh)).2 = .ok pts →
      pts.map (fun p => p.2.2) = chis.map (fun c => (c * Real.cos th, c * Real.sin th)) ∧
      (∀ p ∈ pts, (S.forces p.plane 1, S.forces p.plane 2) = p.2.1) ∧
      ∀ q ∈ (0 :: pts.map Prod.fst).zip pts, |S.forces q.2.plane 0 - n| ≤ 1e-2 ∨ DrivenAway S n q.2 q.1 := by
  refine ⟨metExactly S th {c | c ∈ chis}, metExactly_countable S th chis.finite_toSet.countable, ?_⟩
  intro n hn c a b ops pts hops hrun
  have hs := canonical_history lu hE hm ops _ .fresh hops
  have h : momentCurvature E th n c a b (some chis) (history E lu ops .fresh) = (_, .ok pts) := Prod.ext rfl hrun
  obtain ⟨s1, _, hc, h⟩ := CalcM.bind_eq_ok h
  obtain ⟨D', L, hD', rfl⟩ := check_ok_state hE hs hc
  rw [hD] at hD'
  cases hD'
  obtain ⟨s2, _, hr, h⟩ := CalcM.bind_eq_ok h
  simp only [rotateData, Option.map_some, Prod.mk.injEq, and_true] at hr
  subst hr
  obtain ⟨s3, g, hg, h⟩ := CalcM.bind_eq_ok h
  simp only [CalcM.pure_def, Prod.mk.injEq, Except.ok.injEq] at hg
  obtain ⟨rfl, rfl⟩ := hg
  obtain ⟨s4, p, hp, h⟩ := CalcM.bind_eq_ok h
  obtain ⟨s5, _, h5, h⟩ := CalcM.bind_eq_ok h
  simp only [CalcM.pure_def, Prod.mk.injEq, Except.ok.injEq] at h
  obtain ⟨-, rfl⟩ := h
  exact rc_mcLoop n _ _ hn _ _ _ _ grain_zero hA (fun _ h => h) hp

/-! ### The default curvatures -/

/-- The pivot search on the turned section. -/
theorem rc_pivot {E : Engine} {D : List Group} {S : CrossSection} {th : ℝ} (hA : E.Answers D S th) {n : ℝ} {y : Bool}
    {lim : Option (ℝ × ℝ)} {yn yp : ℝ} {st v : Fin 3 → ℝ} (hbal : E.balanced (-th) y = .ok (yn, yp, st)) (hsteep : st 1 < 0)
    {s' : CalcState} (h : pivotM E (-th) n y ⟨some (D.map (rotGroup (-th))), lim⟩ = (s', .ok v)) :
    s' = ⟨some (D.map (rotGroup (-th))), lim⟩ ∧ ∃ e c k, v = ![e, c, 0] ∧
      fixedPivotFrom (fun e c => S.forces ![e, c * Real.cos th, c * Real.sin th] 0) n yn yp st = some (.ok (e, c, 0), k) := by
  have hs3 := frozen_pivot (E := E) (-th) n y (D.map (rotGroup (-th))) lim
  rw [h] at hs3
  simp only at hs3
  subst hs3
  refine ⟨rfl, ?_⟩
  obtain ⟨s6, bal, hb, hp⟩ := CalcM.bind_eq_ok h
  simp only [liftE, Prod.mk.injEq] at hb
  obtain ⟨rfl, hb⟩ := hb
  rw [hbal] at hb
  cases hb
  obtain ⟨s7, r7, hb7, hp⟩ := CalcM.bind_eq_ok hp
  have hs7 : s7 = ⟨some (D.map (rotGroup (-th))), lim⟩ := by
    rw [call_some] at hb7
    exact (Prod.mk.inj hb7).1.symm
  subst hs7
  simp only [withData, Prod.mk.injEq] at hp
  obtain ⟨e, c, z, k, hrun, rfl⟩ := searchResult_ok hp.2
  have hz := fixedPivotFromE_zero hrun
  subst hz
  rw [fixedPivotFromE_congr (N' := fun e c => S.forces ![e, c * Real.cos th, c * Real.sin th] 0) ?_ hsteep] at hrun
  · exact ⟨e, c, k, rfl, hrun⟩
  · intro e c hc
    obtain ⟨F, h1, h2, -⟩ := hA c hc e defaultMesh
    rw [oracleN, h1]
    simp only [Response.N, h2]

/-- The curvatures a pivot search can end at. -/
def pivotCurvatures (c0 : ℝ) : Set ℝ := Set.range fun q : ℕ × ℕ => c0 + (q.1 / 2 ^ q.2 : ℝ) * (-1e-13 - c0)

/-- The pivot search ends at one of countably many curvatures, all negative. -/
theorem pivot_curvature {N : ℝ → ℝ → ℝ} {n yn yp : ℝ} {st : Fin 3 → ℝ} {e c : ℝ} {k : ℕ} (hs : st 1 ≤ -1e-13)
    (h : fixedPivotFrom N n yn yp st = some (.ok (e, c, 0), k)) : c ∈ pivotCurvatures (st 1) ∧ c < 0 := by
  obtain ⟨-, ⟨-, rfl, -⟩ | ⟨y, -, -, ⟨t, ht, rfl⟩, -⟩⟩ := fixedPivotFrom_spec N n yn yp st e c 0 k h
  · exact ⟨⟨(0, 0), by simp⟩, lt_of_le_of_lt hs (by norm_num)⟩
  · have := ht.mem_Icc
    obtain ⟨p, m, -, rfl⟩ := ht
    refine ⟨⟨(p, m), rfl⟩, ?_⟩
    have h4 : (p / 2 ^ m : ℝ) * (-1e-13 - st 1) ≤ -1e-13 - st 1 := by
      have h5 : 0 ≤ -1e-13 - st 1 := by linarith
      nlinarith [this.2]
    linarith [show (0:ℝ) < 1e-13 by norm_num]

theorem firstCurvature_neg {cf cy : ℝ} {a : ℕ} (hf : cf ≠ 0) (hy : cy < 0) (ha : 1 ≤ a) : firstCurvature cf cy a < 0 := by
  have ha' : (0 : ℝ) < a := by exact_mod_cast ha
  unfold firstCurvature
  split_ifs with h1 h2
  · exact div_neg_of_neg_of_pos hy ha'
  · have : 0 < cf := by
      by_contra hc
      push Not at hc
      linarith [mul_nonneg_of_nonpos_of_nonpos hc hy.le]
    linarith
  · rcases lt_or_gt_of_ne hf with h | h
    · exact h
    · exact absurd (mul_neg_of_pos_of_neg h hy) h2

/-- All default curvatures are negative. -/
theorem grid_neg {cf cy cu : ℝ} {a b : ℕ} (hf : cf ≠ 0) (hy : cy < 0) (hu : cu < 0) (ha : 1 ≤ a) :
    ∀ x ∈ curvatureGrid cf cy cu a b, x < 0 := by
  have key : ∀ p q : ℝ, p < 0 → q < 0 → ∀ m e, ∀ x ∈ linspace p q m e, x < 0 := by
    intro p q hp hq m e x hx
    exact lt_of_le_of_lt (linspace_mem p q m e x hx).2 (max_lt hp hq)
  intro x hx
  unfold curvatureGrid at hx
  simp only [grid_first] at hx
  have hf' := firstCurvature_neg hf hy ha
  split_ifs at hx
  · exact key _ _ hf' hy _ _ x hx
  · rcases List.mem_append.1 hx with h | h
    · exact key _ _ hf' hy _ _ x h
    · exact key _ _ hy hu _ _ x h

/-- A plane with curvature `c` passes through one of the two limit strains of the balanced plane `st`. -/
def AtPivot (yn yp : ℝ) (st : Fin 3 → ℝ) (c : ℝ) : Prop :=
  ∃ e y, (y = yn ∨ y = yp) ∧ planeStrain ![e, c, 0] 0 y = planeStrain st 0 y

theorem pivot_at {N : ℝ → ℝ → ℝ} {n yn yp : ℝ} {st : Fin 3 → ℝ} {e c : ℝ} {k : ℕ} (h2 : st 2 = 0)
    (h : fixedPivotFrom N n yn yp st = some (.ok (e, c, 0), k)) : AtPivot yn yp st c := by
  have hp : ∀ v : Fin 3 → ℝ, v 2 = 0 → ∀ y, planeStrain v 0 y = v 0 + v 1 * y := by
    intro v hv y; simp [planeStrain]
  obtain ⟨-, ⟨rfl, rfl, -⟩ | ⟨y, hy, heq, -⟩⟩ := fixedPivotFrom_spec N n yn yp st e c 0 k h
  · exact ⟨st 0, yp, Or.inr rfl, by rw [hp _ rfl, hp _ h2]; simp⟩
  · refine ⟨e, y, ?_, by rw [hp _ rfl, hp _ h2]; simpa using heq⟩
    split_ifs at hy
    · exact Or.inr hy
    · exact Or.inl hy

/-- **C70** with the default curvatures (partial: as `C70_given_partial`). -/
theorem C70_default_partial {E : Engine} {base : ℝ → Except PyErr (List Group)} (hE : E.Lawful base)
    (hm : base defaultMesh = base E.meshSize) {D : List Group} (hD : base E.meshSize = .ok D) {S : CrossSection} {th : ℝ}
    (lu : Matrix (Fin 3) (Fin 3) ℝ → (Fin 3 → ℝ) → (Fin 3 → ℝ)) (hA : E.Answers D S th)
    {yn yp yn' yp' : ℝ} {st sty : Fin 3 → ℝ} (hbal : E.balanced (-th) false = .ok (yn, yp, st))
    (hbaly : E.balanced (-th) true = .ok (yn', yp', sty)) (hst : st 1 ≤ -1e-13) (hsty : sty 1 ≤ -1e-13)
    (hst2 : st 2 = 0) (hsty2 : sty 2 = 0) (cf : ℝ) (hcf : cf ≠ 0) (a b : ℕ) (ha : 2 ≤ a) (hb : 1 ≤ b) :
    ∃ C : Set ℝ, C.Countable ∧ ∀ n ∉ C, ∀ (ops : List Op) (pts : List MCPoint), Undisturbed E lu ops .fresh →
      (momentCurvature E th n cf a b none (history E lu ops .fresh)).2 = .ok pts →
      ∃ cy < 0, ∃ cu < 0, AtPivot yn' yp' sty cy ∧ AtPivot yn yp st cu ∧
        (∀ (ops' : List Op) (r : BendingResult), Undisturbed E lu ops' .fresh →
          (bendingStrength E th n (history E lu ops' .fresh)).2 = .ok r → r.chi = (cu * Real.cos th, cu * Real.sin th)) ∧
        (∃ chis : List ℝ, pts.map (fun p => p.2.2) = chis.map (fun c => (c * Real.cos th, c * Real.sin th)) ∧
          chis.Pairwise (fun x y => y < x) ∧ (∀ x ∈ chis, x < 0) ∧ chis[a - 1]? = some cy ∧
          (|cy| + 1e-8 < |cu| → chis.length = a + b ∧ chis[a + b - 1]? = some cu) ∧
          (|cu| ≤ |cy| + 1e-8 → chis.length = a)) ∧
        (∀ p ∈ pts, (S.forces p.plane 1, S.forces p.plane 2) = p.2.1) ∧
        ∀ q ∈ (0 :: pts.map Prod.fst).zip pts, |S.forces q.2.plane 0 - n| ≤ 1e-2 ∨ DrivenAway S n q.2 q.1 := by
  have hneg : st 1 < 0 := lt_of_le_of_lt hst (by norm_num)
  have hnegy : sty 1 < 0 := lt_of_le_of_lt hsty (by norm_num)
  set K : Set ℝ := ⋃ q ∈ pivotCurvatures (sty 1) ×ˢ pivotCurvatures (st 1), {x | x ∈ curvatureGrid cf q.1 q.2 a b} with hK
  have hKc : K.Countable :=
    Set.Countable.biUnion ((Set.countable_range _).prod (Set.countable_range _)) fun q _ => (List.finite_toSet _).countable
  refine ⟨metExactly S th K, metExactly_countable S th hKc, ?_⟩
  intro n hn ops pts hops hrun
  have hs := canonical_history lu hE hm ops _ .fresh hops
  have h : momentCurvature E th n cf a b none (history E lu ops .fresh) = (_, .ok pts) := Prod.ext rfl hrun
  obtain ⟨s1, _, hc, h⟩ := CalcM.bind_eq_ok h
  obtain ⟨D', L, hD', rfl⟩ := check_ok_state hE hs hc
  rw [hD] at hD'
  cases hD'
  obtain ⟨s2, _, hr, h⟩ := CalcM.bind_eq_ok h
  simp only [rotateData, Option.map_some, Prod.mk.injEq, and_true] at hr
  subst hr
  obtain ⟨s3, g, hg, h⟩ := CalcM.bind_eq_ok h
  simp only at hg
  obtain ⟨s6, su, hsu, hg⟩ := CalcM.bind_eq_ok hg
  obtain ⟨rfl, eu, cu, ku, rfl, hu⟩ := rc_pivot hA hbal hneg hsu
  obtain ⟨s7, sy, hsy, hg⟩ := CalcM.bind_eq_ok hg
  obtain ⟨rfl, ey, cy, ky, rfl, hy⟩ := rc_pivot hA hbaly hnegy hsy
  obtain ⟨hcu, hcu0⟩ := pivot_curvature hst hu
  obtain ⟨hcy, hcy0⟩ := pivot_curvature hsty hy
  have hpos : ¬ (![eu, cu, 0] : Fin 3 → ℝ) 1 * (![ey, cy, 0] : Fin 3 → ℝ) 1 < 0 := by
    simp only [Matrix.cons_val]
    exact not_lt.2 (mul_nonneg_of_nonpos_of_nonpos hcu0.le hcy0.le)
  rw [if_neg hpos] at hg
  simp only [CalcM.pure_def, Prod.mk.injEq, Except.ok.injEq, Matrix.cons_val] at hg
  obtain ⟨rfl, rfl⟩ := hg
  obtain ⟨s4, p, hp, h⟩ := CalcM.bind_eq_ok h
  obtain ⟨s5, _, h5, h⟩ := CalcM.bind_eq_ok h
  simp only [CalcM.pure_def, Prod.mk.injEq, Except.ok.injEq] at h
  obtain ⟨-, rfl⟩ := h
  have hgn := grid_neg (b := b) hcf hcy0 hcu0 (by omega : 1 ≤ a)
  obtain ⟨h1, h2, h3⟩ := rc_mcLoop n _ K hn _ _ _ _ grain_zero (fun c hc => hA c (hgn c hc))
    (fun c hc => Set.mem_biUnion (show (cy, cu) ∈ pivotCurvatures (sty 1) ×ˢ pivotCurvatures (st 1) from ⟨hcy, hcu⟩) hc) hp
  refine ⟨cy, hcy0, cu, hcu0, pivot_at hsty2 hy, pivot_at hst2 hu, ?_, ?_, h2, h3⟩
  · intro ops' r hops' hrun'
    have hcan := canonical_history lu hE hm ops' _ .fresh hops'
    obtain ⟨e, c, k, hpiv, -, hchi, -⟩ := bending_spec hE hD hA (n := n) hcan hbal hneg
      (Prod.ext rfl hrun' : bendingStrength E th n (history E lu ops' .fresh) = (_, .ok r))
    rw [hu] at hpiv
    simp only [Option.some.injEq, Prod.mk.injEq, Except.ok.injEq] at hpiv
    rw [hchi, ← hpiv.1.2.1]
  · have hdir : ∀ l : List ℝ, RunsTowards cy l → l.Pairwise fun x y => y < x := by
      intro l hl
      refine hl.imp fun {x y} hxy => ?_
      by_contra hcon
      push Not at hcon
      linarith [mul_nonpos_of_nonpos_of_nonneg hcy0.le (sub_nonneg.2 hcon)]
    refine ⟨_, h1, ?_, hgn, ?_, ?_, ?_⟩
    · rcases lt_or_ge (|cy| + 1e-8) |cu| with hpl | hpl
      · exact hdir _ (C39_plastic_partial cf cy cu a b ha hb hcy0.ne (mul_nonneg_of_nonpos_of_nonpos hcu0.le hcy0.le) hpl).2.2.2.2.1
      · exact hdir _ (C39_elastic_partial cf cy cu a b ha hcy0.ne hpl).2.2.2
    · rcases lt_or_ge (|cy| + 1e-8) |cu| with hpl | hpl
      · exact (C39_plastic_partial cf cy cu a b ha hb hcy0.ne (mul_nonneg_of_nonpos_of_nonpos hcu0.le hcy0.le) hpl).2.2.1
      · exact (C39_elastic_partial cf cy cu a b ha hcy0.ne hpl).2.2.1
    · intro hpl
      have := C39_plastic_partial cf cy cu a b ha hb hcy0.ne (mul_nonneg_of_nonpos_of_nonpos hcu0.le hcy0.le) hpl
      exact ⟨this.1, this.2.2.2.1⟩
    · intro hpl
      exact (C39_elastic_partial cf cy cu a b ha hcy0.ne hpl).1

/-- Where the axial force never falls with the axial strain no search is driven away: every point of the diagram is balanced. -/
theorem driven_monotone {S : CrossSection} {n e0 : ℝ} {p : MCPoint} (hmono : Monotone fun x => S.forces ![x, p.2.2.1, p.2.2.2] 0) :
    ¬ DrivenAway S n p e0 := by
  rintro ⟨x, h0, h1, h2⟩
  rcases mul_neg_iff.1 h0 with ⟨a, b⟩ | ⟨a, b⟩
  · have hm := hmono (show x ≤ e0 by linarith)
    simp only at hm
    have h3 : 0 ≤ S.forces ![x, p.2.2.1, p.2.2.2] 0 - n := by
      by_contra hc
      push Not at hc
      linarith [mul_neg_of_pos_of_neg a hc]
    rw [abs_of_nonneg h3, abs_of_pos a] at h2
    linarith
  · have hm := hmono (show e0 ≤ x by linarith)
    simp only at hm
    have h3 : S.forces ![x, p.2.2.1, p.2.2.2] 0 - n ≤ 0 := by
      by_contra hc
      push Not at hc
      linarith [mul_neg_of_neg_of_pos a hc]
    rw [abs_of_nonpos h3, abs_of_neg a] at h2
    linarith

/-! ### Reinforced concrete -/

/-- Positive curvatures: the clipper is asked about the section in its turned position. -/
theorem concrete_good_up {split : Polygon → ℝ → ℝ → ShapelyResult} {th : ℝ} {p : ConcretePart} (h : p.Ok split th)
    (hup : SplitsExactly split (p.polygon.rotate (-th)) (rotPt (-th) '' p.region)) (e chi : ℝ)
    (hchi : 0 < chi) : (p.solid.spec.turn (-th)).Good split .stress ![e, chi, 0] := by
  have hg : (![e, chi, 0] : Fin 3 → ℝ) 1 ≠ 0 ∨ (![e, chi, 0] : Fin 3 → ℝ) 2 ≠ 0 := Or.inl hchi.ne'
  have hp := gradient_pos hg
  have hu : |p.eps_0| ≤ |p.eps_u| := by
    linarith [h.plateau, abs_nonneg p.eps_u, show (0:ℝ) < 1e-6 by norm_num]
  obtain ⟨rs, hrs, hm⟩ := pr_core_pieces p.fc p.eps_0 p.eps_u ((![e, chi, 0] : Fin 3 → ℝ) 0) (gradient ![e, chi, 0]) h.peak hu hp.ne'
  have e2 : ∀ e0 e1, e1 ≠ 0 → (p.law.marin e0 e1).2 = e0 := by
    intro a b hb; simp [ParabolaRectangle.marin, hb]
  have e2' : ∀ e0 e1, e1 ≠ 0 → (p.law.marinT e0 e1).2 = e0 := by
    intro a b hb; simp [ParabolaRectangle.marinT, hb]
  have hz : rotPt 0 = id := funext rotPt_zero
  exact (good_of_pieces split ![e, chi, 0] hg (p.polygon.rotate (-th)) (rotPt (-th) '' p.region)
    (encloses_rot (-th) h.encloses)
    (by rw [neutralAngle_up (by simpa using hchi) rfl, polygon_rotate_zero, hz, Set.image_id]; exact hup)
    p.law.marin p.law.marinT p.law.core _
    (fun _ _ => trivial) e2 e2').1 ⟨rs, hrs, piecesMatch_interior hm⟩

/-- The Marin integrator answers with the exact forces for every curvature other than zero. -/
theorem concrete_answers {split : Polygon → ℝ → ℝ → ShapelyResult} {parts : List ConcretePart} {bars : List Bar} (ms : ℝ) {th : ℝ}
    (hok : ∀ p ∈ parts, p.Ok split th) (hid : SameIds (bars.map Bar.law)) (hd : EqualSizes (groupBars bars)) {c : ℝ} (hc : c ≠ 0)
    (hup : 0 < c → ∀ p ∈ parts, SplitsExactly split (p.polygon.rotate (-th)) (rotPt (-th) '' p.region)) :
    (sectionEngine split (parts.map ConcretePart.solid) bars ms).AnswersAt (groupBars bars)
      (crossSection (parts.map ConcretePart.solid) bars) th c := by
  refine marin_answers_at split _ bars ms th c hid hd ?_
  intro s hs
  obtain ⟨p, hp, rfl⟩ := List.mem_map.1 hs
  refine ⟨(hok p hp).encloses.measurable, fun e => ?_⟩
  rcases lt_or_gt_of_ne hc with h | h
  · exact concrete_good (hok p hp) e c h
  · exact concrete_good_up (hok p hp) (hup h p hp) e c h

/-- **C70** for reinforced concrete, curvatures given by the caller (partial: curvatures other than zero, and the exceptions of the
last clause).  The forces are those of the laws without numpy's tolerance at the limit strains; in admissible states
(`concrete_forces`) those of the laws as they are. -/
theorem C70_reinforced_concrete_partial (split : Polygon → ℝ → ℝ → ShapelyResult) (parts : List ConcretePart) (bars : List Bar)
    (ms th : ℝ) (lu : Matrix (Fin 3) (Fin 3) ℝ → (Fin 3 → ℝ) → (Fin 3 → ℝ)) (hok : ∀ p ∈ parts, p.Ok split th)
    (hid : SameIds (bars.map Bar.law)) (hd : EqualSizes (groupBars bars)) (chis : List ℝ) (hne : ∀ c ∈ chis, c ≠ 0)
    (hup : (∃ c ∈ chis, 0 < c) → ∀ p ∈ parts, SplitsExactly split (p.polygon.rotate (-th)) (rotPt (-th) '' p.region)) :
    ∃ C : Set ℝ, C.Countable ∧ ∀ n ∉ C, ∀ (c : ℝ) (a b : ℕ) (ops : List Op) (pts : List MCPoint),
      Undisturbed (sectionEngine split (parts.map ConcretePart.solid) bars ms) lu ops .fresh →
      (momentCurvature (sectionEngine split (parts.map ConcretePart.solid) bars ms) th n c a b (some chis)
        (history (sectionEngine split (parts.map ConcretePart.solid) bars ms) lu ops .fresh)).2 = .ok pts →
      pts.map (fun p => p.2.2) = chis.map (fun c => (c * Real.cos th, c * Real.sin th)) ∧
      (∀ p ∈ pts, ((crossSection (parts.map ConcretePart.solid) bars).forces p.plane 1,
        (crossSection (parts.map ConcretePart.solid) bars).forces p.plane 2) = p.2.1) ∧
      (∀ p ∈ pts, (concreteSection parts bars).Admissible p.plane →
        ((concreteSection parts bars).forces p.plane 1, (concreteSection parts bars).forces p.plane 2) = p.2.1) ∧
      ∀ q ∈ (0 :: pts.map Prod.fst).zip pts,
        |(crossSection (parts.map ConcretePart.solid) bars).forces q.2.plane 0 - n| ≤ 1e-2 ∨
        DrivenAway (crossSection (parts.map ConcretePart.solid) bars) n q.2 q.1 := by
  have hE : (sectionEngine split (parts.map ConcretePart.solid) bars ms).Lawful fun _ => .ok (groupBars bars) :=
    marinEngine_lawful _ _ _ _ _ _
  obtain ⟨C, hC, h⟩ := C70_given_partial hE rfl rfl lu (th := th) (S := crossSection (parts.map ConcretePart.solid) bars) chis
    (fun c hc => concrete_answers ms hok hid hd (hne c hc) fun h => hup ⟨c, hc, h⟩)
  refine ⟨C, hC, fun n hn c a b ops pts hops hrun => ?_⟩
  obtain ⟨h1, h2, h3⟩ := h n hn c a b ops pts hops hrun
  refine ⟨h1, h2, fun p hp ha => ?_, h3⟩
  rw [← h2 p hp, concrete_forces bars hok ha]

/-- **C70** for reinforced concrete with the default curvatures (partial: the exceptions of the last clause). -/
theorem C70_concrete_default_partial (split : Polygon → ℝ → ℝ → ShapelyResult) (parts : List ConcretePart) (bars : List Bar)
    (ms th : ℝ) (lu : Matrix (Fin 3) (Fin 3) ℝ → (Fin 3 → ℝ) → (Fin 3 → ℝ)) (hok : ∀ p ∈ parts, p.Ok split th)
    (hid : SameIds (bars.map Bar.law)) (hd : EqualSizes (groupBars bars)) {yn yp yn' yp' : ℝ} {st sty : Fin 3 → ℝ}
    (hbal : (sectionEngine split (parts.map ConcretePart.solid) bars ms).balanced (-th) false = .ok (yn, yp, st))
    (hbaly : (sectionEngine split (parts.map ConcretePart.solid) bars ms).balanced (-th) true = .ok (yn', yp', sty))
    (hst : st 1 ≤ -1e-13) (hsty : sty 1 ≤ -1e-13) (cf : ℝ) (hcf : cf ≠ 0) (a b : ℕ) (ha : 2 ≤ a) (hb : 1 ≤ b) :
    ∃ C : Set ℝ, C.Countable ∧ ∀ n ∉ C, ∀ (ops : List Op) (pts : List MCPoint),
      Undisturbed (sectionEngine split (parts.map ConcretePart.solid) bars ms) lu ops .fresh →
      (momentCurvature (sectionEngine split (parts.map ConcretePart.solid) bars ms) th n cf a b none
        (history (sectionEngine split (parts.map ConcretePart.solid) bars ms) lu ops .fresh)).2 = .ok pts →
      ∃ cy < 0, ∃ cu < 0, AtPivot yn' yp' sty cy ∧ AtPivot yn yp st cu ∧
        (∀ (ops' : List Op) (r : BendingResult), Undisturbed (sectionEngine split (parts.map ConcretePart.solid) bars ms) lu ops' .fresh →
          (bendingStrength (sectionEngine split (parts.map ConcretePart.solid) bars ms) th n
            (history (sectionEngine split (parts.map ConcretePart.solid) bars ms) lu ops' .fresh)).2 = .ok r →
          r.chi = (cu * Real.cos th, cu * Real.sin th)) ∧
        (∃ chis : List ℝ, pts.map (fun p => p.2.2) = chis.map (fun c => (c * Real.cos th, c * Real.sin th)) ∧
          chis.Pairwise (fun x y => y < x) ∧ (∀ x ∈ chis, x < 0) ∧ chis[a - 1]? = some cy ∧
          (|cy| + 1e-8 < |cu| → chis.length = a + b ∧ chis[a + b - 1]? = some cu) ∧
          (|cu| ≤ |cy| + 1e-8 → chis.length = a)) ∧
        (∀ p ∈ pts, ((crossSection (parts.map ConcretePart.solid) bars).forces p.plane 1,
          (crossSection (parts.map ConcretePart.solid) bars).forces p.plane 2) = p.2.1) ∧
        (∀ p ∈ pts, (concreteSection parts bars).Admissible p.plane →
          ((concreteSection parts bars).forces p.plane 1, (concreteSection parts bars).forces p.plane 2) = p.2.1) ∧
        ∀ q ∈ (0 :: pts.map Prod.fst).zip pts,
          |(crossSection (parts.map ConcretePart.solid) bars).forces q.2.plane 0 - n| ≤ 1e-2 ∨
          DrivenAway (crossSection (parts.map ConcretePart.solid) bars) n q.2 q.1 := by
  have hE : (sectionEngine split (parts.map ConcretePart.solid) bars ms).Lawful fun _ => .ok (groupBars bars) :=
    marinEngine_lawful _ _ _ _ _ _
  have h2 : ∀ (y : Bool) (yn yp : ℝ) (st : Fin 3 → ℝ),
      (sectionEngine split (parts.map ConcretePart.solid) bars ms).balanced (-th) y = .ok (yn, yp, st) → st 2 = 0 := by
    intro y yn yp st h
    simp only [sectionEngine, marinEngine, balancedFailure] at h
    split at h
    · cases h
    · simp only [Except.ok.injEq, Prod.mk.injEq] at h
      rw [← h.2.2]; rfl
  obtain ⟨C, hC, h⟩ := C70_default_partial hE rfl rfl lu (th := th) (S := crossSection (parts.map ConcretePart.solid) bars)
    (fun c hc => concrete_answers ms hok hid hd hc.ne fun h => absurd h hc.not_gt) hbal hbaly hst hsty
    (h2 _ _ _ _ hbal) (h2 _ _ _ _ hbaly) cf hcf a b ha hb
  refine ⟨C, hC, fun n hn ops pts hops hrun => ?_⟩
  obtain ⟨cy, hy, cu, hu, p1, p2, h1, h2, h3, h4⟩ := h n hn ops pts hops hrun
  refine ⟨cy, hy, cu, hu, p1, p2, h1, h2, h3, fun p hp hadm => ?_, h4⟩
  rw [← h3 p hp, concrete_forces bars hok hadm]

/-! ### The search at a given curvature returns -/

/-- If one of the first eleven trial strains lies on the other side of the equilibrium, the bracketing search finds a bracket. -/
theorem prefind_finds (f : ℝ → ℝ) (epsA : ℝ) {i : ℕ} (hi : i ≤ 10)
    (hbr : f epsA * f (epsA + preSign (f epsA) * (1e-3 * 2 ^ i)) < 0) :
    ∃ j ≤ i, ∃ k, prefind f epsA (f epsA) = some (.ok (epsA + preSign (f epsA) * (1e-3 * 2 ^ j),
      f (epsA + preSign (f epsA) * (1e-3 * 2 ^ j))), k) ∧ f epsA * f (epsA + preSign (f epsA) * (1e-3 * 2 ^ j)) < 0 := by
  obtain ⟨r, k, hr, -⟩ := prefind_terminates f epsA (f epsA)
  have hr' := hr
  unfold prefind at hr'
  rw [Option.map_eq_some_iff] at hr'
  obtain ⟨⟨w, k'⟩, hw, hr'⟩ := hr'
  simp only [Prod.mk.injEq] at hr'
  obtain ⟨hr', rfl⟩ := hr'
  rcases pyWhile_inv (fun s : PreState => s.restarts = 0 ∧ s.delta = 1e-3 ∧ s.steps ≤ s.it ∧ (s.found = false → s.it ≤ i) ∧
      (s.found = true → ∃ j ≤ i, s.b = (epsA + preSign (f epsA) * (1e-3 * 2 ^ j), f (epsA + preSign (f epsA) * (1e-3 * 2 ^ j))) ∧
        f epsA * f (epsA + preSign (f epsA) * (1e-3 * 2 ^ j)) < 0))
    (fun s s' hI hc hb => by
      obtain ⟨h1, h2, h3, h4, h5⟩ := hI
      obtain ⟨c1, c2, c3⟩ := hc
      have h6 := h4 c1
      simp only [preBody, h2] at hb
      rw [show epsA + preSign (f epsA) * 1e-3 * 2 ^ s.it = epsA + preSign (f epsA) * (1e-3 * 2 ^ s.it) by ring] at hb
      have hnext : ¬ f epsA * f (epsA + preSign (f epsA) * (1e-3 * 2 ^ s.it)) < 0 → s.it + 1 ≤ i := by
        intro hn
        rcases Nat.lt_or_eq_of_le h6 with h | h
        · exact h
        · rw [h] at hn; exact absurd hbr hn
      split_ifs at hb with g1 g2 g3
      · simp only [Except.ok.injEq] at hb; subst hb
        exact ⟨h1, rfl, by simp; omega, by simp, fun _ => ⟨s.it, h6, rfl, g1⟩⟩
      · have := hnext g1
        omega
      · simp only [Except.ok.injEq] at hb; subst hb
        exact ⟨h1, rfl, by simp; omega, fun _ => hnext g1, by simp⟩
      · simp only [Except.ok.injEq] at hb; subst hb
        exact ⟨h1, rfl, by simp; omega, fun _ => hnext g1, by simp⟩)
    ⟨rfl, rfl, by simp [preStart], by simp [preStart], by simp [preStart]⟩ hw with
    ⟨s, rfl, ⟨h1, h2, h3, h4, h5⟩, hn⟩ | ⟨s, e, -, -, -, hb⟩
  · have hfo : s.found = true := by
      by_contra hcon
      have hfo : s.found = false := by simpa using hcon
      have := h4 hfo
      exact hn ⟨hfo, by omega, by omega⟩
    obtain ⟨j, hj, hb, hl⟩ := h5 hfo
    refine ⟨j, hj, k', ?_, hl⟩
    simp only at hr'
    rw [if_neg (by simp [hfo]), hb] at hr'
    rw [hr, ← hr']
  · simp only [preBody] at hb
    split_ifs at hb

/-- The search at a given curvature returns if one of the first eleven trial strains lies on the other side of the equilibrium and
the axial force is Lipschitz up to there. -/
theorem fixedCurvature_returns (N : ℝ → ℝ → ℝ) (n curv eps0 L : ℝ) {i : ℕ} (hi : i ≤ 10)
    (hbr : (N eps0 curv - n) * (N (eps0 + preSign (N eps0 curv - n) * (1e-3 * 2 ^ i)) curv - n) < 0)
    (hL0 : 0 ≤ L) (hL : ∀ x y, |x - eps0| ≤ 1e-3 * 2 ^ i → |y - eps0| ≤ 1e-3 * 2 ^ i →
      0 ≤ preSign (N eps0 curv - n) * (x - eps0) → 0 ≤ preSign (N eps0 curv - n) * (y - eps0) →
      |N x curv - N y curv| ≤ L * |x - y|) (hsmall : L ≤ 1e24) :
    ∃ e k, fixedCurvature N n curv eps0 = some (.ok (e, curv, 0), k) := by
  unfold fixedCurvature
  simp only
  split_ifs with h0
  · exact ⟨_, _, rfl⟩
  · obtain ⟨j, hj, k, hp, hb⟩ := prefind_finds (fun e => N e curv - n) eps0 hi hbr
    rw [hp]
    set sg := preSign (N eps0 curv - n) with hsg
    have hs : sg = 1 ∨ sg = -1 := by rw [hsg]; unfold preSign; split_ifs <;> simp
    have hs2 : sg * sg = 1 := by rcases hs with h | h <;> rw [h] <;> norm_num
    have hsa : |sg| = 1 := by rcases hs with h | h <;> rw [h] <;> norm_num
    have hpow : (1e-3 : ℝ) * 2 ^ j ≤ 1e-3 * 2 ^ i := by
      have : (2 : ℝ) ^ j ≤ 2 ^ i := pow_le_pow_right₀ (by norm_num) hj
      linarith
    have hpos : (0 : ℝ) < 1e-3 * 2 ^ j := by positivity
    set d : ℝ := 1e-3 * 2 ^ j with hd
    have hbd : eps0 + sg * d - eps0 = sg * d := by ring
    obtain ⟨c, k', hbis⟩ := bisection_lipschitz (fun e => N e curv - n) eps0 (eps0 + sg * d) L (by
        intro t u ht hu
        have ht' := ht.mem_Icc
        have hu' := hu.mem_Icc
        have key : ∀ t ∈ Set.Icc (0:ℝ) 1, |eps0 + t * (eps0 + sg * d - eps0) - eps0| ≤ 1e-3 * 2 ^ i ∧
            0 ≤ sg * (eps0 + t * (eps0 + sg * d - eps0) - eps0) := by
          rintro t ⟨t0, t1⟩
          have e1 : eps0 + t * (eps0 + sg * d - eps0) - eps0 = sg * (t * d) := by ring
          rw [e1, abs_mul, hsa, one_mul, abs_of_nonneg (mul_nonneg t0 hpos.le),
            show sg * (sg * (t * d)) = t * d by rw [← mul_assoc, hs2, one_mul]]
          exact ⟨by nlinarith, by positivity⟩
        have := hL _ _ (key t ht').1 (key u hu').1 (key t ht').2 (key u hu').2
        have e2 : eps0 + t * (eps0 + sg * d - eps0) - (eps0 + u * (eps0 + sg * d - eps0)) = (t - u) * (eps0 + sg * d - eps0) := by ring
        rw [e2, abs_mul] at this
        simp only [sub_sub_sub_cancel_right]
        linarith) (by
        rw [hbd, abs_mul, hsa, one_mul, abs_of_pos hpos]
        have h1 : d ≤ 1e-3 * 2 ^ 10 := hpow.trans (by
          have : (2 : ℝ) ^ i ≤ 2 ^ 10 := pow_le_pow_right₀ (by norm_num) hi
          linarith)
        calc L * d ≤ 1e24 * (1e-3 * 2 ^ 10) := mul_le_mul hsmall h1 hpos.le (by norm_num)
          _ ≤ _ := by norm_num) (by
        have : |N eps0 curv - n| ≤ |N eps0 curv - n - (N (eps0 + sg * d) curv - n)| := by
          rcases mul_neg_iff.1 hb with ⟨h1, h2⟩ | ⟨h1, h2⟩
          · rw [abs_of_pos h1, abs_of_pos (by linarith)]; linarith
          · rw [abs_of_neg h1, abs_of_neg (by linarith)]; linarith
        exact lt_of_lt_of_le (not_le.1 h0) this)
    simp only
    rw [hbis]
    exact ⟨_, _, rfl⟩

/-! ### The axial force is Lipschitz in the axial strain -/

/-- Bound for the change of the axial force per unit change of the axial strain. -/
noncomputable def axialSlope (parts : List ConcretePart) (bars : List Bar) (K : ℝ) : ℝ :=
  (parts.map fun p => 2 * |p.fc| / |p.eps_0| * volume.real p.region).sum + (bars.map fun b => K * |b.area|).sum

theorem force_axial_lipschitz {split : Polygon → ℝ → ℝ → ShapelyResult} {th : ℝ} {parts : List ConcretePart} {bars : List Bar}
    (hok : ∀ p ∈ parts, p.Ok split th) {K : ℝ}
    (hK : ∀ b ∈ bars, ∀ x ∈ Set.Icc (b.law.law.ult false).1 (b.law.law.ult false).2,
      ∀ y ∈ Set.Icc (b.law.law.ult false).1 (b.law.law.ult false).2, |b.law.law.stress x - b.law.law.stress y| ≤ K * |x - y|)
    {e e' c : ℝ} (hc : c < 0)
    (ha : (concreteSection parts bars).Admissible ![e, c * Real.cos th, c * Real.sin th])
    (ha' : (concreteSection parts bars).Admissible ![e', c * Real.cos th, c * Real.sin th]) :
    |(concreteSection parts bars).forces ![e, c * Real.cos th, c * Real.sin th] 0 -
      (concreteSection parts bars).forces ![e', c * Real.cos th, c * Real.sin th] 0| ≤ axialSlope parts bars K * |e - e'| := by
  rw [← concrete_forces bars hok ha, ← concrete_forces bars hok ha']
  have hrot : ∀ c : ℝ, rotPt th (c, 0) = (c * Real.cos th, c * Real.sin th) := by
    intro c; simp only [rotPt, Prod.mk.injEq]; constructor <;> ring
  have hdiff : ∀ x y, planeStrain ![e, c * Real.cos th, c * Real.sin th] x y - planeStrain ![e', c * Real.cos th, c * Real.sin th] x y =
      e - e' := by
    intro x y; simp only [planeStrain, Matrix.cons_val]; ring
  have hint : ∀ p ∈ parts, ∀ e, IntegrableOn (fun x : ℝ × ℝ => p.law.core (planeStrain ![e, c * Real.cos th, c * Real.sin th] x.1 x.2))
      p.region := by
    intro p hp e
    have := turn_integrable (s := p.solid.spec) (hok p hp).encloses.measurable (concrete_good (hok p hp) e c hc) 0
    rw [hrot] at this
    simpa [lever, ConcretePart.solid] using this
  have h1 : |(parts.map fun p => ∫ x in p.region, p.law.core (planeStrain ![e, c * Real.cos th, c * Real.sin th] x.1 x.2)).sum -
      (parts.map fun p => ∫ x in p.region, p.law.core (planeStrain ![e', c * Real.cos th, c * Real.sin th] x.1 x.2)).sum| ≤
      (parts.map fun p => (2 * |p.fc| / |p.eps_0| * volume.real p.region) * |e - e'|).sum := by
    refine list_abs_sum_sub _ _ _ _ fun p hp => ?_
    have hR := (hok p hp).encloses
    have hlt : |p.eps_0| < |p.eps_u| := by
      linarith [(hok p hp).plateau, abs_nonneg p.eps_u, show (0:ℝ) < 1e-6 by norm_num]
    rw [← integral_sub (hint p hp e) (hint p hp e'), ← Real.norm_eq_abs (∫ x in p.region, _)]
    have hfin : volume p.region < ⊤ := hR.bounded.measure_lt_top
    refine (norm_setIntegral_le_of_norm_le_const (C := 2 * |p.fc| / |p.eps_0| * |e - e'|) hfin fun x hx => ?_).trans_eq (by ring)
    have q : (⟨p.region, p.polygon.ext, p.law.stress, (p.law.ult false).1, (p.law.ult false).2⟩ : Plate) ∈
      (concreteSection parts bars).plates := by simp only [concreteSection, List.mem_map]; exact ⟨p, hp, rfl⟩
    have l1 := (ha.1 _ q x ((hok p hp).inHull hx)).1
    have l2 := (ha'.1 _ q x ((hok p hp).inHull hx)).1
    have := pr_core_lipschitz p.fc p.eps_0 p.eps_u (hok p hp).peak hlt l1 l2
    rw [hdiff] at this
    exact this
  have h2 : |(bars.map fun b => b.area * b.law.law.stress (planeStrain ![e, c * Real.cos th, c * Real.sin th] b.x b.y)).sum -
      (bars.map fun b => b.area * b.law.law.stress (planeStrain ![e', c * Real.cos th, c * Real.sin th] b.x b.y)).sum| ≤
      (bars.map fun b => (K * |b.area|) * |e - e'|).sum := by
    refine list_abs_sum_sub _ _ _ _ fun b hb => ?_
    have q : (⟨b.fibre Law.stress, (b.law.law.ult false).1, (b.law.law.ult false).2⟩ : Rod) ∈
      (concreteSection parts bars).rods := by simp only [concreteSection, List.mem_map]; exact ⟨b, hb, rfl⟩
    have := hK b hb _ (ha.2 _ q) _ (ha'.2 _ q)
    simp only [Bar.fibre, hdiff] at this
    rw [← mul_sub, abs_mul]
    refine (mul_le_mul_of_nonneg_left this (abs_nonneg _)).trans_eq ?_
    ring
  rw [list_sum_mul_const] at h1 h2
  have hf : ∀ e, (crossSection (parts.map ConcretePart.solid) bars).forces e 0 =
      (parts.map fun p => ∫ x in p.region, p.law.core (planeStrain e x.1 x.2)).sum +
      (bars.map fun b => b.area * b.law.law.stress (planeStrain e b.x b.y)).sum := by
    intro e
    simp only [CrossSection.forces, crossSection, List.map_map, Function.comp_def, Pi.add_apply, list_sum_apply, resultants,
      regionResultants, lever, Matrix.cons_val, mul_one, Bar.fibre]
    rfl
  rw [hf, hf, axialSlope, add_mul]
  have : ∀ a b a' b' : ℝ, a + b - (a' + b') = (a - a') + (b - b') := by intros; ring
  rw [this]
  exact (abs_add_le _ _).trans (add_le_add h1 h2)

end SC
