import Verif.Props.RCCurvature
import Verif.Props.RCReturns
import Verif.Props.BilinearStrength

/-! # C70, C87: diagrams that contain the curvature zero, and concrete of any law

Under a uniform strain a law may replace the strain it is asked about by its limit strain (core/base.py:200-219), and the Marin
integrator goes on with the replaced strain, also for the bars. The forces at a point of zero curvature are therefore those of a strain
within numpy's tolerance of the reported one. -/

set_option autoImplicit false

namespace SC

open Spec MeasureTheory

/-- At the inclination `th` and the curvature `c` the integrator answers, for the axial strain `e`, with the forces `G e`. -/
def Engine.Gives (E : Engine) (D : List Group) (th c : ℝ) (G : ℝ → Fin 3 → ℝ) : Prop :=
  ∀ e m, ∃ F, E.integ (-th) ![e, c, 0] .stress (some (D.map (rotGroup (-th)))) m = .ok (.forces F, D.map (rotGroup (-th))) ∧
    F 0 = G e 0 ∧ rotPt th (F 1, F 2) = (G e 1, G e 2)

/-- A search for the strain at which the force `N` is `n`, started at `e0`, was driven away: some strain on the side that should lessen
the imbalance has a larger one, of the same sign. -/
def Driven (N : ℝ → ℝ) (n e0 : ℝ) : Prop :=
  ∃ x, (N e0 - n) * (x - e0) < 0 ∧ 0 ≤ (N e0 - n) * (N x - n) ∧ |N x - n| > |N e0 - n|

/-- A search from `e0`, not in balance there, that brackets the force `n` between `e0` and some strain `b` on the side that should lessen
the imbalance, and meets it exactly at the strain `x` in between, one of those the search can try. -/
def MetBetween (N : ℝ → ℝ) (n e0 x : ℝ) : Prop :=
  1e-2 < |N e0 - n| ∧ x ∈ Grain ∧ N x = n ∧
    ∃ b, (N e0 - n) * (b - e0) < 0 ∧ (N e0 - n) * (N b - n) < 0 ∧ x ∈ Set.uIcc e0 b

/-- The search at a fixed curvature, with the bracket in which it meets the force exactly. -/
theorem fixedCurvature_bracket (N : ℝ → ℝ → ℝ) (n curv eps0 : ℝ) (e chi z : ℝ) (k : ℕ)
    (h : fixedCurvature N n curv eps0 = some (.ok (e, chi, z), k)) :
    |N e curv - n| ≤ 1e-2 ∨ Driven (fun x => N x curv) n eps0 ∨
      (eps0 ∈ Grain → ∃ x, MetBetween (fun x => N x curv) n eps0 x) := by
  unfold fixedCurvature at h
  simp only at h
  split_ifs at h with h0
  · simp only [Option.some.injEq, Prod.mk.injEq, Except.ok.injEq] at h
    obtain ⟨⟨rfl, rfl, rfl⟩, -⟩ := h
    exact Or.inl h0
  · set f := fun e => N e curv - n with hf
    cases hp : prefind f eps0 (N eps0 curv - n) with
    | none => rw [hp] at h; simp at h
    | some v =>
      obtain ⟨r, kp⟩ := v
      rw [hp] at h
      cases r with
      | error e => simp at h
      | ok b =>
        obtain ⟨eb, db⟩ := b
        obtain ⟨hdb, htr, hbr⟩ := (prefind_spec _ _ _ hp).1 eb db rfl
        simp only [Option.map_eq_some_iff] at h
        obtain ⟨⟨r', k'⟩, hbis, h⟩ := h
        simp only [Prod.mk.injEq] at h
        obtain ⟨h, -⟩ := h
        cases r' with
        | error e => simp at h
        | ok c =>
          simp only [Except.ok.injEq, Prod.mk.injEq] at h
          obtain ⟨rfl, rfl, rfl⟩ := h
          rw [hdb] at hbis hbr
          obtain ⟨-, hspec⟩ := (bisection_spec f eps0 eb hbis).1 c rfl
          rcases hbr with hbr | hbr
          · by_cases hz : ∃ t, DyadicUnit t ∧ f (eps0 + t * (eb - eps0)) = 0
            · right; right
              intro hg
              obtain ⟨t, ht, hz⟩ := hz
              refine ⟨eps0 + t * (eb - eps0), not_le.1 h0, ?_, ?_, eb, trial_side htr ?_, hbr, ?_⟩
              · obtain ⟨s, hs, p, m, hxs⟩ := trial_dyadic htr ht
                rw [hxs]; exact grain_add hg (grain_step hs p m)
              · simp only [hf] at hz
                linarith
              · rintro h'
                apply h0
                rw [h', abs_zero]; norm_num
              · obtain ⟨t0, t1⟩ := ht.mem_Icc
                rcases le_total eps0 eb with h | h
                · rw [Set.uIcc_of_le h]; constructor <;> nlinarith
                · rw [Set.uIcc_of_ge h]; constructor <;> nlinarith
            · left
              push Not at hz
              exact (hspec hbr hz).le
          · right; left
            refine ⟨eb, trial_side htr ?_, hbr⟩
            rintro h'
            apply h0
            rw [h', abs_zero]; norm_num

/-- One point of a diagram for the axial force `n`, with the strain at which its search started: `G` are the forces as a function of
curvature and axial strain. -/
structure PointOk (G : ℝ → ℝ → Fin 3 → ℝ) (th n c : ℝ) (q : ℝ × MCPoint) : Prop where
  curvature : q.2.2.2 = (c * Real.cos th, c * Real.sin th)
  moment : q.2.2.1 = (G c q.2.1 1, G c q.2.1 2)
  balance : |G c q.2.1 0 - n| ≤ 1e-2 ∨ Driven (fun x => G c x 0) n q.1 ∨ ∃ x, MetBetween (fun x => G c x 0) n q.1 x

theorem gives_loop {E : Engine} {D : List Group} {G : ℝ → ℝ → Fin 3 → ℝ} {th : ℝ} (n : ℝ) (lim : Option (ℝ × ℝ)) :
    ∀ (chis : List ℝ) (e0 : ℝ) (s' : CalcState) (pts : List MCPoint), e0 ∈ Grain →
    (∀ c ∈ chis, E.Gives D th c (G c)) →
    mcLoop E th n e0 chis ⟨some (D.map (rotGroup (-th))), lim⟩ = (s', .ok pts) →
    List.Forall₂ (PointOk G th n) chis ((e0 :: pts.map Prod.fst).zip pts) := by
  intro chis
  induction chis with
  | nil =>
    intro e0 s' pts _ _ h
    simp only [mcLoop, CalcM.pure_def, Prod.mk.injEq, Except.ok.injEq] at h
    rw [← h.2]
    simp
  | cons c chis ih =>
    intro e0 s' pts h0 hA h
    have hAc := hA c (by simp)
    rw [mcLoop] at h
    obtain ⟨s1, v, hv, h⟩ := CalcM.bind_eq_ok h
    have hs1 := frozen_curvature (E := E) (-th) n c e0 (D.map (rotGroup (-th))) lim
    rw [hv] at hs1
    simp only at hs1
    subst hs1
    obtain ⟨s3, r3, hr3, hsr⟩ := CalcM.bind_eq_ok hv
    have hs3 : s3 = ⟨some (D.map (rotGroup (-th))), lim⟩ := by
      rw [call_some] at hr3
      exact (Prod.mk.inj hr3).1.symm
    subst hs3
    simp only [withData, Prod.mk.injEq] at hsr
    obtain ⟨e, c', z, k, hrun, rfl⟩ := searchResult_ok hsr.2
    obtain ⟨rfl, rfl⟩ := fixedCurvatureE_snd hrun
    rw [fixedCurvatureE_at (N' := fun e c => G c e 0) (fun e => by
      obtain ⟨F, h1, h2, -⟩ := hAc e defaultMesh
      rw [oracleN, h1]
      simp only [Response.N, h2])] at hrun
    have heg := fixedCurvature_grain _ h0 hrun
    obtain ⟨F, hF1, hF2, hF3⟩ := hAc e defaultMesh
    rw [CalcM.bind_ok (s' := ⟨some (D.map (rotGroup (-th))), lim⟩) (a := .forces F) (by rw [call_some, hF1])] at h
    obtain ⟨s2, tail, ht, h⟩ := CalcM.bind_eq_ok h
    have hih := ih _ _ _ heg (fun c hc => hA c (by simp [hc])) ht
    simp only [CalcM.pure_def, Prod.mk.injEq, Except.ok.injEq] at h
    obtain ⟨-, rfl⟩ := h
    have hchi : rot2 th (c', 0) = (c' * Real.cos th, c' * Real.sin th) := by
      simp only [rot2, rotPt, Prod.mk.injEq]; constructor <;> ring
    simp only [List.map_cons, List.zip_cons_cons]
    refine List.Forall₂.cons ⟨hchi, ?_, ?_⟩ hih
    · simp only [Response.M, Matrix.cons_val]
      rw [show rot2 th (F 1, F 2) = rotPt th (F 1, F 2) from rfl, hF3]
    · exact (fixedCurvature_bracket _ n c' e0 e c' 0 k hrun).imp id (Or.imp id fun h => h h0)

/-- The diagram for given curvatures, whatever the integrator answers. -/
theorem gives_diagram {E : Engine} {base : ℝ → Except PyErr (List Group)} (hE : E.Lawful base)
    (hm : base defaultMesh = base E.meshSize) {D : List Group} (hD : base E.meshSize = .ok D) {G : ℝ → ℝ → Fin 3 → ℝ} {th : ℝ}
    (lu : Matrix (Fin 3) (Fin 3) ℝ → (Fin 3 → ℝ) → (Fin 3 → ℝ)) (chis : List ℝ) (hA : ∀ c ∈ chis, E.Gives D th c (G c))
    (n c : ℝ) (a b : ℕ) (ops : List Op) (pts : List MCPoint) (hops : Undisturbed E lu ops .fresh)
    (hrun : (momentCurvature E th n c a b (some chis) (history E lu ops .fresh)).2 = .ok pts) :
    List.Forall₂ (PointOk G th n) chis ((0 :: pts.map Prod.fst).zip pts) := by
  have hs := canonical_history lu hE hm ops _ .fresh hops
  have h : momentCurvature E th n c a b (some chis) (history E lu ops .fresh) = (_, .ok pts) := Prod.ext rfl hrun
  obtain ⟨s1, _, hc, h⟩ := CalcM.bind_eq_ok h
  obtain ⟨D', L, hD', rfl⟩ := check_ok_state hE hs hc
  rw [hD] at hD'
  cases hD'
  obtain ⟨s2, _, hr, h⟩ := CalcM.bind_eq_ok h
  simp only [rotateData, Option.map_some, Prod.mk.injEq, and_true] at hr
  subst hr
  obtain ⟨s3, g, hg, h⟩ := CalcM.bind_eq_ok h
  simp only [CalcM.pure_def, Prod.mk.injEq, Except.ok.injEq] at hg
  obtain ⟨rfl, rfl⟩ := hg
  obtain ⟨s4, p, hp, h⟩ := CalcM.bind_eq_ok h
  obtain ⟨s5, _, h5, h⟩ := CalcM.bind_eq_ok h
  simp only [CalcM.pure_def, Prod.mk.injEq, Except.ok.injEq] at h
  obtain ⟨-, rfl⟩ := h
  exact gives_loop n _ _ _ _ _ grain_zero hA hp

/-- A diagram with the default curvatures: `a` curvatures that end at the yield curvature `cy`, then, if the ultimate curvature `cu` is
larger, `b` that end there; all negative and falling. -/
structure DefaultCurvatures (chis : List ℝ) (a b : ℕ) (cy cu : ℝ) : Prop where
  falling : chis.Pairwise (fun x y => y < x)
  negative : ∀ x ∈ chis, x < 0
  yield : chis[a - 1]? = some cy
  plastic : |cy| + 1e-8 < |cu| → chis.length = a + b ∧ chis[a + b - 1]? = some cu
  elastic : |cu| ≤ |cy| + 1e-8 → chis.length = a

/-- The diagram with the default curvatures. -/
theorem gives_default {E : Engine} {base : ℝ → Except PyErr (List Group)} (hE : E.Lawful base)
    (hm : base defaultMesh = base E.meshSize) {D : List Group} (hD : base E.meshSize = .ok D) {S : CrossSection} {th : ℝ}
    (lu : Matrix (Fin 3) (Fin 3) ℝ → (Fin 3 → ℝ) → (Fin 3 → ℝ)) (hA : E.Answers D S th)
    {yn yp yn' yp' : ℝ} {st sty : Fin 3 → ℝ} (hbal : E.balanced (-th) false = .ok (yn, yp, st))
    (hbaly : E.balanced (-th) true = .ok (yn', yp', sty)) (hst : st 1 ≤ -1e-13) (hsty : sty 1 ≤ -1e-13)
    (hst2 : st 2 = 0) (hsty2 : sty 2 = 0) (cf : ℝ) (hcf : cf ≠ 0) (a b : ℕ) (ha : 2 ≤ a) (hb : 1 ≤ b) :
    ∃ K : Set ℝ, K.Countable ∧ ∀ n (ops : List Op) (pts : List MCPoint), Undisturbed E lu ops .fresh →
      (momentCurvature E th n cf a b none (history E lu ops .fresh)).2 = .ok pts →
      ∃ cy < 0, ∃ cu < 0, AtPivot yn' yp' sty cy ∧ AtPivot yn yp st cu ∧
        (∀ (ops' : List Op) (r : BendingResult), Undisturbed E lu ops' .fresh →
          (bendingStrength E th n (history E lu ops' .fresh)).2 = .ok r → r.chi = (cu * Real.cos th, cu * Real.sin th)) ∧
        ∃ chis : List ℝ, DefaultCurvatures chis a b cy cu ∧ (∀ c ∈ chis, c ∈ K) ∧
          List.Forall₂ (PointOk (fun c e => S.forces ![e, c * Real.cos th, c * Real.sin th]) th n) chis
            ((0 :: pts.map Prod.fst).zip pts) := by
  have hneg : st 1 < 0 := lt_of_le_of_lt hst (by norm_num)
  have hnegy : sty 1 < 0 := lt_of_le_of_lt hsty (by norm_num)
  set K : Set ℝ := ⋃ q ∈ pivotCurvatures (sty 1) ×ˢ pivotCurvatures (st 1), {x | x ∈ curvatureGrid cf q.1 q.2 a b} with hK
  have hKc : K.Countable :=
    Set.Countable.biUnion ((Set.countable_range _).prod (Set.countable_range _)) fun q _ => (List.finite_toSet _).countable
  refine ⟨K, hKc, ?_⟩
  intro n ops pts hops hrun
  have hs := canonical_history lu hE hm ops _ .fresh hops
  have h : momentCurvature E th n cf a b none (history E lu ops .fresh) = (_, .ok pts) := Prod.ext rfl hrun
  obtain ⟨s1, _, hc, h⟩ := CalcM.bind_eq_ok h
  obtain ⟨D', L, hD', rfl⟩ := check_ok_state hE hs hc
  rw [hD] at hD'
  cases hD'
  obtain ⟨s2, _, hr, h⟩ := CalcM.bind_eq_ok h
  simp only [rotateData, Option.map_some, Prod.mk.injEq, and_true] at hr
  subst hr
  obtain ⟨s3, g, hg, h⟩ := CalcM.bind_eq_ok h
  simp only at hg
  obtain ⟨s6, su, hsu, hg⟩ := CalcM.bind_eq_ok hg
  obtain ⟨rfl, eu, cu, ku, rfl, hu⟩ := rc_pivot hA hbal hneg hsu
  obtain ⟨s7, sy, hsy, hg⟩ := CalcM.bind_eq_ok hg
  obtain ⟨rfl, ey, cy, ky, rfl, hy⟩ := rc_pivot hA hbaly hnegy hsy
  obtain ⟨hcu, hcu0⟩ := pivot_curvature hst hu
  obtain ⟨hcy, hcy0⟩ := pivot_curvature hsty hy
  have hpos : ¬ (![eu, cu, 0] : Fin 3 → ℝ) 1 * (![ey, cy, 0] : Fin 3 → ℝ) 1 < 0 := by
    simp only [Matrix.cons_val]
    exact not_lt.2 (mul_nonneg_of_nonpos_of_nonpos hcu0.le hcy0.le)
  rw [if_neg hpos] at hg
  simp only [CalcM.pure_def, Prod.mk.injEq, Except.ok.injEq, Matrix.cons_val] at hg
  obtain ⟨rfl, rfl⟩ := hg
  obtain ⟨s4, p, hp, h⟩ := CalcM.bind_eq_ok h
  obtain ⟨s5, _, h5, h⟩ := CalcM.bind_eq_ok h
  simp only [CalcM.pure_def, Prod.mk.injEq, Except.ok.injEq] at h
  obtain ⟨-, rfl⟩ := h
  have hgn := grid_neg (b := b) hcf hcy0 hcu0 (by omega : 1 ≤ a)
  have hloop := gives_loop (G := fun c e => S.forces ![e, c * Real.cos th, c * Real.sin th]) n _ _ _ _ _ grain_zero
    (fun c hc => hA c (hgn c hc)) hp
  refine ⟨cy, hcy0, cu, hcu0, pivot_at hsty2 hy, pivot_at hst2 hu, ?_, _, ?_,
    (fun c hc => Set.mem_biUnion (show (cy, cu) ∈ pivotCurvatures (sty 1) ×ˢ pivotCurvatures (st 1) from ⟨hcy, hcu⟩) hc), hloop⟩
  · intro ops' r hops' hrun'
    have hcan := canonical_history lu hE hm ops' _ .fresh hops'
    obtain ⟨e, c, k, hpiv, -, hchi, -⟩ := bending_spec hE hD hA (n := n) hcan hbal hneg
      (Prod.ext rfl hrun' : bendingStrength E th n (history E lu ops' .fresh) = (_, .ok r))
    rw [hu] at hpiv
    simp only [Option.some.injEq, Prod.mk.injEq, Except.ok.injEq] at hpiv
    rw [hchi, ← hpiv.1.2.1]
  · have hdir : ∀ l : List ℝ, RunsTowards cy l → l.Pairwise fun x y => y < x := by
      intro l hl
      refine hl.imp fun {x y} hxy => ?_
      by_contra hcon
      push Not at hcon
      linarith [mul_nonpos_of_nonpos_of_nonneg hcy0.le (sub_nonneg.2 hcon)]
    refine ⟨?_, hgn, ?_, ?_, ?_⟩
    · rcases lt_or_ge (|cy| + 1e-8) |cu| with hpl | hpl
      · exact hdir _ (C39_plastic_partial cf cy cu a b ha hb hcy0.ne (mul_nonneg_of_nonpos_of_nonpos hcu0.le hcy0.le) hpl).2.2.2.2.1
      · exact hdir _ (C39_elastic_partial cf cy cu a b ha hcy0.ne hpl).2.2.2
    · rcases lt_or_ge (|cy| + 1e-8) |cu| with hpl | hpl
      · exact (C39_plastic_partial cf cy cu a b ha hb hcy0.ne (mul_nonneg_of_nonpos_of_nonpos hcu0.le hcy0.le) hpl).2.2.1
      · exact (C39_elastic_partial cf cy cu a b ha hcy0.ne hpl).2.2.1
    · intro hpl
      have := C39_plastic_partial cf cy cu a b ha hb hcy0.ne (mul_nonneg_of_nonpos_of_nonpos hcu0.le hcy0.le) hpl
      exact ⟨this.1, this.2.2.2.1⟩
    · intro hpl
      exact (C39_elastic_partial cf cy cu a b ha hcy0.ne hpl).1

/-! ### Broken sections -/

/-- A law gives no stress at the strain `s`, which is not zero, nor farther from zero. -/
def Spent (f : ℝ → ℝ) (s : ℝ) : Prop := (0 < s ∧ ∀ t, s ≤ t → f t = 0) ∨ (s < 0 ∧ ∀ t, t ≤ s → f t = 0)

/-- Every bar is broken and the surfaces carry no stress anywhere. -/
def Spec.CrossSection.Broken (S : CrossSection) (e : Fin 3 → ℝ) : Prop :=
  (∀ r ∈ S.rods, Spent r.fibre.resp (planeStrain e r.fibre.y r.fibre.z)) ∧
  ∀ p ∈ S.plates, ∀ q ∈ p.region, p.response (planeStrain e q.1 q.2) = 0

/-- A concrete that is never in tension and gives no stress beyond crushing. -/
structure Crushes (f : ℝ → ℝ) : Prop where
  compression : ∀ s, f s ≤ 0
  beyond : ∀ s < 0, f s = 0 → ∀ t ≤ s, f t = 0

theorem axial_eq (S : CrossSection) (e : Fin 3 → ℝ) : S.forces e 0 =
    (S.plates.map fun p => ∫ q in p.region, p.response (planeStrain e q.1 q.2)).sum +
      (S.rods.map fun r => r.fibre.A * r.fibre.resp (planeStrain e r.fibre.y r.fibre.z)).sum := by
  simp only [CrossSection.forces, Pi.add_apply, list_sum_apply, resultants, List.map_map, Function.comp_def, regionResultants]
  congr 1
  · congr 1
    refine List.map_congr_left fun p _ => ?_
    simp [lever]
  · congr 1
    refine List.map_congr_left fun r _ => ?_
    simp [lever]

/-- Beyond a broken state, on one side or on the other, the section stays broken or at least takes no tension. Asked: strains in the
bars differ by no more than `2 u` and those in the concrete by no more than `u` from that in some bar, where the bars, strained to `u`
or `-u`, still carry stress. -/
theorem broken_side {S : CrossSection} (hS : ∀ p ∈ S.plates, Crushes p.response) {e1 e2 u : ℝ}
    (hu : ∀ r ∈ S.rods, r.fibre.resp u ≠ 0 ∧ r.fibre.resp (-u) ≠ 0)
    (hspan : ∀ r ∈ S.rods, ∀ r' ∈ S.rods, |planeStrain ![0, e1, e2] r.fibre.y r.fibre.z -
      planeStrain ![0, e1, e2] r'.fibre.y r'.fibre.z| ≤ 2 * u)
    (hcover : ∀ p ∈ S.plates, ∀ q ∈ p.region, ∃ r ∈ S.rods, |planeStrain ![0, e1, e2] q.1 q.2 -
      planeStrain ![0, e1, e2] r.fibre.y r.fibre.z| ≤ u)
    {x : ℝ} (hx : S.Broken ![x, e1, e2]) :
    (∀ b, x ≤ b → S.forces ![b, e1, e2] 0 ≤ 0) ∨ ∀ a ≤ x, S.forces ![a, e1, e2] 0 = 0 := by
  have hps : ∀ e y z, planeStrain ![e, e1, e2] y z = e + planeStrain ![0, e1, e2] y z := by
    intro e y z; simp only [planeStrain, Matrix.cons_val]; ring
  by_cases ht : ∀ r ∈ S.rods, 0 < planeStrain ![x, e1, e2] r.fibre.y r.fibre.z
  · left
    intro b hb
    rw [axial_eq]
    have h1 : (S.plates.map fun p => ∫ q in p.region, p.response (planeStrain ![b, e1, e2] q.1 q.2)).sum ≤ 0 := by
      have := List.sum_le_sum (l := S.plates) (g := fun _ => (0:ℝ))
        (f := fun p => ∫ q in p.region, p.response (planeStrain ![b, e1, e2] q.1 q.2))
        fun p hp => integral_nonpos fun q => (hS p hp).compression _
      simpa using this
    have h2 : (S.rods.map fun r => r.fibre.A * r.fibre.resp (planeStrain ![b, e1, e2] r.fibre.y r.fibre.z)).sum = 0 := by
      refine List.sum_eq_zero ?_
      simp only [List.forall_mem_map]
      intro r hr
      have hs := ht r hr
      rcases hx.1 r hr with ⟨-, h⟩ | ⟨h, -⟩
      · rw [h _ (by rw [hps, hps b]; linarith), mul_zero]
      · linarith
    linarith
  · right
    push Not at ht
    obtain ⟨r0, hr0, h0⟩ := ht
    have hr0s : planeStrain ![x, e1, e2] r0.fibre.y r0.fibre.z < -u := by
      rcases hx.1 r0 hr0 with ⟨h, -⟩ | ⟨-, h⟩
      · linarith
      · by_contra hc
        push Not at hc
        exact (hu r0 hr0).2 (h _ hc)
    have hall : ∀ r ∈ S.rods, planeStrain ![x, e1, e2] r.fibre.y r.fibre.z < -u ∧
        ∀ t ≤ planeStrain ![x, e1, e2] r.fibre.y r.fibre.z, r.fibre.resp t = 0 := by
      intro r hr
      rcases hx.1 r hr with ⟨-, h⟩ | ⟨-, h⟩
      · exfalso
        have h1 : u < planeStrain ![x, e1, e2] r.fibre.y r.fibre.z := by
          by_contra hc
          push Not at hc
          exact (hu r hr).1 (h _ hc)
        have h2 := abs_le.1 (hspan r hr r0 hr0)
        rw [hps] at hr0s h1
        linarith
      · refine ⟨?_, h⟩
        by_contra hc
        push Not at hc
        exact (hu r hr).2 (h _ hc)
    intro a ha
    rw [axial_eq]
    have h1 : (S.plates.map fun p => ∫ q in p.region, p.response (planeStrain ![a, e1, e2] q.1 q.2)).sum = 0 := by
      refine List.sum_eq_zero ?_
      simp only [List.forall_mem_map]
      intro p hp
      refine setIntegral_eq_zero_of_forall_eq_zero fun q hq => ?_
      obtain ⟨r, hr, hqr⟩ := hcover p hp q hq
      have h1 := (hall r hr).1
      have h2 := abs_le.1 hqr
      rw [hps] at h1
      refine (hS p hp).beyond _ ?_ (hx.2 p hp q hq) _ ?_
      · rw [hps]; linarith
      · rw [hps, hps x]; linarith
    have h2 : (S.rods.map fun r => r.fibre.A * r.fibre.resp (planeStrain ![a, e1, e2] r.fibre.y r.fibre.z)).sum = 0 := by
      refine List.sum_eq_zero ?_
      simp only [List.forall_mem_map]
      intro r hr
      rw [(hall r hr).2 _ (by rw [hps, hps x]; linarith), mul_zero]
    linarith

/-- The search does not meet the force in a broken state. -/
theorem not_met_broken {N : ℝ → ℝ} {n e0 x : ℝ} (h : MetBetween N n e0 x) (h0 : N x = 0)
    (hx : (∀ b, x ≤ b → N b ≤ 0) ∨ ∀ a ≤ x, N a = 0) : False := by
  obtain ⟨h1, -, h2, b, h3, h4, h5⟩ := h
  have hn : n = 0 := by rw [← h2, h0]
  subst hn
  simp only [sub_zero] at *
  rcases mul_neg_iff.1 h3 with ⟨a1, a2⟩ | ⟨a1, a2⟩
  · rw [Set.uIcc_of_ge (by linarith)] at h5
    have h6 : N b < 0 := by by_contra hc; push Not at hc; linarith [mul_nonneg a1.le hc]
    rcases hx with h | h
    · linarith [h _ h5.2]
    · linarith [h _ h5.1]
  · rw [Set.uIcc_of_le (by linarith)] at h5
    have h6 : 0 < N b := by by_contra hc; push Not at hc; linarith [mul_nonneg_of_nonpos_of_nonpos a1.le hc]
    rcases hx with h | h
    · linarith [h _ h5.2]
    · linarith [h _ h5.1]

/-- The strains made of larger strains are larger, if the limits are apart. -/
theorem snap_monotone {lim : ℝ × ℝ} (h : lim.1 + (1e-6 + 1e-5 * |lim.1|) < lim.2 - (1e-6 + 1e-5 * |lim.2|)) :
    Monotone (snap lim) := by
  intro x y hxy
  have t1 : 0 ≤ 1e-6 + 1e-5 * |lim.1| := by positivity
  have t2 : 0 ≤ 1e-6 + 1e-5 * |lim.2| := by positivity
  by_cases a1 : isclose x lim.2 <;> by_cases a2 : isclose x lim.1 <;> by_cases a3 : isclose y lim.2 <;>
    by_cases a4 : isclose y lim.1 <;> simp only [snap, a1, a2, a3, a4, if_true, if_false] <;>
    simp only [isclose] at a1 a2 a3 a4 <;>
    generalize 1e-6 + 1e-5 * |lim.1| = t at * <;> generalize 1e-6 + 1e-5 * |lim.2| = t' at * <;>
    (try simp only [not_le] at a1) <;> (try simp only [not_le] at a2) <;> (try simp only [not_le] at a3) <;>
    (try simp only [not_le] at a4) <;> simp only [abs_le, lt_abs] at a1 a2 a3 a4 <;>
    first | linarith | (rcases a1 with a1 | a1 <;> linarith) | (rcases a2 with a2 | a2 <;> linarith) |
      (rcases a3 with a3 | a3 <;> linarith) | (rcases a4 with a4 | a4 <;> linarith) |
      (rcases a1 with a1 | a1 <;> rcases a3 with a3 | a3 <;> linarith)

/-! ### Surfaces and bars -/

/-- The strain the integrator works with: under curvature the given one, otherwise the one the law makes of it. -/
noncomputable def heldStrain (lim : ℝ × ℝ) (c e : ℝ) : ℝ := open Classical in if c = 0 then snap lim e else e

/-- It is the given one, or, for zero curvature, a limit strain within numpy's tolerance. -/
theorem heldStrain_cases (lim : ℝ × ℝ) (c e : ℝ) : heldStrain lim c e = e ∨
    (c = 0 ∧ (heldStrain lim c e = lim.1 ∨ heldStrain lim c e = lim.2) ∧
      |e - heldStrain lim c e| ≤ 1e-6 + 1e-5 * |heldStrain lim c e|) := by
  unfold heldStrain
  split_ifs with h
  · rcases snap_cases lim e with ⟨h1, -⟩ | ⟨h1, h2, -⟩ | ⟨h1, h2⟩
    · exact Or.inl h1
    · rw [h1]; exact Or.inr ⟨h, Or.inl rfl, h2⟩
    · rw [h1]; exact Or.inr ⟨h, Or.inr rfl, h2⟩
  · exact Or.inl rfl

/-- What is asked of a surface at the curvatures `chis`: exact integration under curvature, and under uniform strains the law of a
limited strain. -/
structure Solid.Bends (split : Polygon → ℝ → ℝ → ShapelyResult) (th : ℝ) (lim : ℝ × ℝ) (chis : List ℝ) (s : Solid) : Prop where
  measurable : MeasurableSet s.spec.region
  bent : ∀ c ∈ chis, c ≠ 0 → ∀ e, (s.spec.turn (-th)).Good split .stress ![e, c, 0]
  snaps : ∀ e, s.spec.surf.marin e 0 = s.spec.surf.marin (snap lim e) 0
  uniform : ∀ e, snap lim e = e → (s.spec.turn (-th)).Good split .stress ![e, 0, 0]

/-- The Marin integrator for one plane. -/
theorem marin_answers_plane (split : Polygon → ℝ → ℝ → ShapelyResult) (solids : List Solid)
    (bars : List Bar) (ms th chi e m : ℝ) (hid : SameIds (bars.map Bar.law)) (hd : EqualSizes (groupBars bars))
    (hg : ∀ s ∈ solids, MeasurableSet s.spec.region ∧ (s.spec.turn (-th)).Good split .stress ![e, chi, 0]) :
    ∃ F, (sectionEngine split solids bars ms).integ (-th) ![e, chi, 0] .stress (some ((groupBars bars).map (rotGroup (-th)))) m =
      .ok (.forces F, (groupBars bars).map (rotGroup (-th))) ∧
    F 0 = (crossSection solids bars).forces ![e, chi * Real.cos th, chi * Real.sin th] 0 ∧
    rotPt th (F 1, F 2) = ((crossSection solids bars).forces ![e, chi * Real.cos th, chi * Real.sin th] 1,
      (crossSection solids bars).forces ![e, chi * Real.cos th, chi * Real.sin th] 2) := by
  have hds : EqualSizes ((groupBars bars).map (rotGroup (-th))) := by
    intro x hx y hy
    simp only [List.mem_map] at hx hy
    obtain ⟨g, hg, rfl⟩ := hx
    obtain ⟨g', hg', rfl⟩ := hy
    simpa [rotGroup] using hd g hg g' hg'
  have h := C50_forces_partial split (solids.map fun s => s.spec.turn (-th)) (bars.map (Bar.rotate (-th)))
    ((groupBars bars).map (rotGroup (-th))) hds ![e, chi, 0] (by
      intro s hs
      obtain ⟨s', hs', rfl⟩ := List.mem_map.1 hs
      exact (hg s' hs').2)
  refine ⟨(solids.map fun s => regionResultants (rotPt (-th) '' s.spec.region) s.spec.response ![e, chi, 0]).sum +
    resultants (fibres Law.stress ((groupBars bars).map (rotGroup (-th)))) ![e, chi, 0], ?_, ?_⟩
  · simp only [List.map_map, Function.comp_def] at h
    simp only [sectionEngine, marinEngine, List.map_map, Function.comp_def]
    exact h
  · have hv : rotPt th (chi, 0) = (chi * Real.cos th, chi * Real.sin th) := by
      simp only [rotPt, Prod.mk.injEq]; constructor <;> ring
    have h1 := sum_rot solids th (fun s => regionResultants (rotPt (-th) '' s.spec.region) s.spec.response ![e, chi, 0])
      (fun s => regionResultants s.spec.region s.spec.response ![e, chi * Real.cos th, chi * Real.sin th]) (by
        intro s hs
        have := regionResultants_rot (hg s hs).1 s.spec.response th e chi 0 (turn_integrable (hg s hs).1 (hg s hs).2)
        rw [hv] at this
        exact this)
    have h2 := resultants_rot (fibres Law.stress (groupBars bars)) th e chi 0
    rw [← fibres_rot, hv] at h2
    rw [resultants_perm (C18_grouping Law.stress bars hid) ![e, chi * Real.cos th, chi * Real.sin th]] at h2
    simp only [CrossSection.forces, crossSection, List.map_map, Function.comp_def, Pi.add_apply]
    simp only [rotPt, Prod.mk.injEq] at h1 h2 ⊢
    obtain ⟨a0, a1, a2⟩ := h1
    obtain ⟨b0, b1, b2⟩ := h2
    refine ⟨by rw [a0, b0], ?_, ?_⟩
    · rw [← a1, ← b1]; ring
    · rw [← a2, ← b2]; ring

/-- The first surface decides about a uniform strain. -/
theorem integ_snap (split : Polygon → ℝ → ℝ → ShapelyResult) (s : Solid) (solids : List Solid) (bars : List Bar) (ms th m : ℝ)
    {e e' : ℝ} (h : s.spec.surf.marin e 0 = s.spec.surf.marin e' 0) (d : Option (List Group)) :
    (sectionEngine split (s :: solids) bars ms).integ (-th) ![e, 0, 0] .stress d m =
      (sectionEngine split (s :: solids) bars ms).integ (-th) ![e', 0, 0] .stress d m := by
  have hsurf : ∀ (g : Surf), g.marin e 0 = g.marin e' 0 → ∀ gs, processSurfaces split .stress 0 e (g :: gs) =
      processSurfaces split .stress 0 e' (g :: gs) := by
    intro g hg gs
    simp only [processSurfaces, processSurface, Surf.coefficients, hg]
  simp only [sectionEngine, marinEngine, marinIntegrate, marinPrepare, List.map_cons, Matrix.cons_val]
  norm_num
  rw [hsurf ⟨(s.spec.surf.polygon.rotate (-th)).rotate (-atan2 0 0), s.spec.surf.marin, s.spec.surf.marinT⟩ h]

/-- The Marin integrator for surfaces and bars, all curvatures. -/
theorem bends_gives (split : Polygon → ℝ → ℝ → ShapelyResult) {solids : List Solid} {bars : List Bar} (ms : ℝ) {th : ℝ} {lim : ℝ × ℝ}
    {chis : List ℝ} (hid : SameIds (bars.map Bar.law)) (hd : EqualSizes (groupBars bars)) (hne : solids ≠ [])
    (hlim : ¬ isclose lim.1 lim.2) (hs : ∀ s ∈ solids, s.Bends split th lim chis) {c : ℝ} (hc : c ∈ chis) :
    (sectionEngine split solids bars ms).Gives (groupBars bars) th c
      (fun e => (crossSection solids bars).forces ![heldStrain lim c e, c * Real.cos th, c * Real.sin th]) := by
  intro e m
  by_cases h0 : c = 0
  · subst h0
    have hh : heldStrain lim 0 e = snap lim e := if_pos rfl
    simp only [hh]
    obtain ⟨s, rest, rfl⟩ := List.exists_cons_of_ne_nil hne
    rw [integ_snap split s rest bars ms th m ((hs s (by simp)).snaps e)]
    exact marin_answers_plane split _ bars ms th 0 _ m hid hd fun s' hs' =>
      ⟨(hs s' hs').measurable, (hs s' hs').uniform _ (snap_idem hlim e)⟩
  · have hh : heldStrain lim c e = e := if_neg h0
    simp only [hh]
    exact marin_answers_plane split _ bars ms th c e m hid hd fun s' hs' => ⟨(hs s' hs').measurable, (hs s' hs').bent c hc h0 e⟩

/-! ### Laws -/

/-- A law that answers a uniform strain with one constant. -/
theorem good_uniform {split : Polygon → ℝ → ℝ → ShapelyResult} {p : Polygon} {R : Set (ℝ × ℝ)} (henc : Encloses p.ext p.ints R)
    {M MT : ℝ → ℝ → MarinOut × ℝ} {f : ℝ → ℝ} {e : ℝ}
    (h : ∀ y, (M e 0).1.ranges = none ∧ ∃ c, (M e 0).1.coeffs = [c] ∧ evalPoly c y = f e) (h2 : (M e 0).2 = e) (a : ℝ) :
    (SurfSpec.turn a ⟨Surf.ofMarin p M MT, R, f⟩).Good split .stress ![e, 0, 0] := by
  have hgrad : gradient ![e, 0, 0] = 0 := by simp [gradient]
  have hr := (h 0).1
  refine ⟨encloses_rot a henc, ?_, ?_⟩
  · rintro ⟨m, rs, hm, hrs⟩
    exfalso
    have : m = (M e 0).1 := by
      rw [hgrad] at hm
      simp only [SurfSpec.turn, Surf.ofMarin, Surf.coefficients, Matrix.cons_val, Except.ok.injEq] at hm
      exact hm.symm
    rw [this, hr] at hrs
    cases hrs
  · rw [hgrad]
    refine ⟨h2, (M e 0).1, rfl, Or.inl ⟨hr, ?_⟩⟩
    obtain ⟨c, hc, -⟩ := (h 0).2
    refine ⟨c, hc, fun y _ => ?_⟩
    obtain ⟨c', hc', h⟩ := (h y).2
    rw [hc] at hc'
    cases hc'
    simp only [Matrix.cons_val, zero_mul, add_zero]
    exact h

/-- Positive curvatures, and negative ones. -/
theorem good_curved {split : Polygon → ℝ → ℝ → ShapelyResult} {p : Polygon} {R : Set (ℝ × ℝ)} (henc : Encloses p.ext p.ints R) {th c : ℝ}
    (hc : c ≠ 0) (hdown : SplitsExactly split ((p.rotate (-th)).rotate (-Real.pi)) (rotPt (-Real.pi) '' (rotPt (-th) '' R)))
    (hup : 0 < c → SplitsExactly split (p.rotate (-th)) (rotPt (-th) '' R)) {M MT : ℝ → ℝ → MarinOut × ℝ} {f : ℝ → ℝ} (e : ℝ)
    (hpieces : ∀ e0 e1 : ℝ, e1 ≠ 0 → ∃ rs, (M e0 e1).1.ranges = some rs ∧ PiecesMatch f e0 e1 (fun _ => True) rs (M e0 e1).1.coeffs)
    (h2 : ∀ e0 e1 : ℝ, e1 ≠ 0 → (M e0 e1).2 = e0) (h2' : ∀ e0 e1 : ℝ, e1 ≠ 0 → (MT e0 e1).2 = e0) :
    (SurfSpec.turn (-th) ⟨Surf.ofMarin p M MT, R, f⟩).Good split .stress ![e, c, 0] := by
  have hg : (![e, c, 0] : Fin 3 → ℝ) 1 ≠ 0 ∨ (![e, c, 0] : Fin 3 → ℝ) 2 ≠ 0 := Or.inl hc
  have hp := gradient_pos hg
  obtain ⟨rs, hrs, hm⟩ := hpieces ((![e, c, 0] : Fin 3 → ℝ) 0) (gradient ![e, c, 0]) hp.ne'
  have hz : rotPt 0 = id := funext rotPt_zero
  refine (good_of_pieces split ![e, c, 0] hg (p.rotate (-th)) (rotPt (-th) '' R) (encloses_rot (-th) henc) ?_ M MT f _
    (fun _ _ => trivial) h2 h2').1 ⟨rs, hrs, piecesMatch_interior hm⟩
  rcases lt_or_gt_of_ne hc with h | h
  · rw [neutralAngle_neg h]; exact hdown
  · rw [neutralAngle_up (by simpa using h) rfl, polygon_rotate_zero, hz, Set.image_id]; exact hup h

end SC
