import Verif.Props.Strength
import Verif.Props.MarinSurfaces
import Verif.Props.Cracked
import Verif.Props.Calculator
import Verif.Spec.Strength

/-! # C66: the bending strength of a section, end to end -/

set_option autoImplicit false

namespace SC

open Spec MeasureTheory

/-! ### Rotated sections -/

theorem regionResultants_rot {R : Set (ℝ × ℝ)} (hR : MeasurableSet R) (f : ℝ → ℝ) (th e c z : ℝ)
    (hi : ∀ i, IntegrableOn (fun x => f (planeStrain ![e, (rotPt th (c, z)).1, (rotPt th (c, z)).2] x.1 x.2) *
      lever x.1 x.2 i) R) :
    regionResultants (rotPt (-th) '' R) f ![e, c, z] 0 =
      regionResultants R f ![e, (rotPt th (c, z)).1, (rotPt th (c, z)).2] 0 ∧
    rotPt th (regionResultants (rotPt (-th) '' R) f ![e, c, z] 1,
        regionResultants (rotPt (-th) '' R) f ![e, c, z] 2) =
      (regionResultants R f ![e, (rotPt th (c, z)).1, (rotPt th (c, z)).2] 1,
        regionResultants R f ![e, (rotPt th (c, z)).1, (rotPt th (c, z)).2] 2) := by
  set v : Fin 3 → ℝ := ![e, (rotPt th (c, z)).1, (rotPt th (c, z)).2] with hv
  have hst : ∀ x : ℝ × ℝ, planeStrain ![e, c, z] (rotPt (-th) x).1 (rotPt (-th) x).2 = planeStrain v x.1 x.2 :=
    fun x => planeStrain_rot th e c z x.1 x.2
  have i1 := hi 1
  have i2 := hi 2
  have hsq := Real.sin_sq_add_cos_sq th
  have e1 : regionResultants (rotPt (-th) '' R) f ![e, c, z] 1 =
      Real.cos th * regionResultants R f v 1 + Real.sin th * regionResultants R f v 2 := by
    simp only [regionResultants]
    rw [integral_rot _ hR, ← integral_const_mul, ← integral_const_mul, ← integral_add (i1.const_mul _) (i2.const_mul _)]
    congr 1
    funext x
    rw [hst]
    simp only [lever, rotPt, Matrix.cons_val, Real.cos_neg, Real.sin_neg]
    ring
  have e2 : regionResultants (rotPt (-th) '' R) f ![e, c, z] 2 =
      -Real.sin th * regionResultants R f v 1 + Real.cos th * regionResultants R f v 2 := by
    simp only [regionResultants]
    rw [integral_rot _ hR, ← integral_const_mul, ← integral_const_mul, ← integral_add (i1.const_mul _) (i2.const_mul _)]
    congr 1
    funext x
    rw [hst]
    simp only [lever, rotPt, Matrix.cons_val, Real.cos_neg, Real.sin_neg]
    ring
  constructor
  · simp only [regionResultants]
    rw [integral_rot _ hR]
    congr 1
    funext x
    rw [hst]
    simp [lever]
  · rw [e1, e2]
    simp only [rotPt, Prod.mk.injEq]
    constructor
    · linear_combination regionResultants R f v 1 * hsq
    · linear_combination regionResultants R f v 2 * hsq

/-! ### What the strength calculation needs of an integrator -/

/-- For every plane with neutral axis inclined by `th` and curvature `chi` the integrator, applied to the section turned by `-th`,
answers with the forces of the section `S` in turned axes. -/
def Engine.AnswersAt (E : Engine) (D : List Group) (S : CrossSection) (th chi : ℝ) : Prop :=
  ∀ e m, ∃ F, E.integ (-th) ![e, chi, 0] .stress (some (D.map (rotGroup (-th)))) m =
      .ok (.forces F, D.map (rotGroup (-th))) ∧
    F 0 = S.forces ![e, chi * Real.cos th, chi * Real.sin th] 0 ∧
    rotPt th (F 1, F 2) = (S.forces ![e, chi * Real.cos th, chi * Real.sin th] 1,
      S.forces ![e, chi * Real.cos th, chi * Real.sin th] 2)

/-- The planes of the pivot search: negative curvatures. -/
def Engine.Answers (E : Engine) (D : List Group) (S : CrossSection) (th : ℝ) : Prop :=
  ∀ chi < 0, E.AnswersAt D S th chi

/-- The surface turned about the origin. -/
noncomputable def SurfSpec.turn (a : ℝ) (s : SurfSpec) : SurfSpec :=
  ⟨{ s.surf with polygon := s.surf.polygon.rotate a }, rotPt a '' s.region, s.response⟩

theorem good_integrable {split : Polygon → ℝ → ℝ → ShapelyResult} {ig : IntegrateArg} {e : Fin 3 → ℝ} {s : SurfSpec}
    (h : s.Good split ig e) (i : Fin 3) :
    IntegrableOn (fun x => s.response (planeStrain e x.1 x.2) * lever x.1 x.2 i) s.region := by
  obtain ⟨items, -, -, h3⟩ := processSurface_good split ig e s h
  set a := neutralAngle e
  have i00 := (h3 0 0).1
  have i01 := (h3 0 1).1
  have i10 := (h3 1 0).1
  simp only [pow_zero, pow_one, one_mul, mul_one] at i00 i01 i10
  have hsq := Real.sin_sq_add_cos_sq a
  fin_cases i
  · simpa [lever] using i00
  · refine Integrable.congr ((i01.const_mul (Real.cos a)).sub (i10.const_mul (Real.sin a)))
      (Filter.Eventually.of_forall fun x => ?_)
    simp only [lever, rotPt, Matrix.cons_val, Fin.mk_one, Pi.sub_apply]
    linear_combination (s.response (planeStrain e x.1 x.2) * x.2) * hsq
  · refine Integrable.congr ((i01.const_mul (-Real.sin a)).sub (i10.const_mul (Real.cos a)))
      (Filter.Eventually.of_forall fun x => ?_)
    simp only [lever, rotPt, Matrix.cons_val, Fin.reduceFinMk, Pi.sub_apply]
    linear_combination (-s.response (planeStrain e x.1 x.2) * x.1) * hsq

theorem integrableOn_rot (a : ℝ) {R : Set (ℝ × ℝ)} (hR : MeasurableSet R) (f : ℝ × ℝ → ℝ) :
    IntegrableOn f (rotPt a '' R) ↔ IntegrableOn (fun x => f (rotPt a x)) R := by
  have : Measure.IsAddHaarMeasure (volume : Measure (ℝ × ℝ)) := Measure.prod.instIsAddHaarMeasure _ _
  have hd : ∀ x ∈ R, HasFDerivWithinAt (rotPt a) (rotLin a) R x := by
    intro x _
    have : rotPt a = rotLin a := by funext x; rw [rotLin_apply]
    rw [this]
    exact (rotLin a).hasFDerivWithinAt
  rw [integrableOn_image_iff_integrableOn_abs_det_fderiv_smul volume hR hd ((rotPt_injective a).injOn)]
  simp [rotLin_det]

theorem turn_integrable {split : Polygon → ℝ → ℝ → ShapelyResult} {th e c : ℝ} {s : SurfSpec} (hR : MeasurableSet s.region)
    (h : (s.turn (-th)).Good split .stress ![e, c, 0]) (i : Fin 3) :
    IntegrableOn (fun x => s.response (planeStrain ![e, (rotPt th (c, 0)).1, (rotPt th (c, 0)).2] x.1 x.2) *
      lever x.1 x.2 i) s.region := by
  have hst : ∀ x : ℝ × ℝ, planeStrain ![e, c, 0] (rotPt (-th) x).1 (rotPt (-th) x).2 =
      planeStrain ![e, (rotPt th (c, 0)).1, (rotPt th (c, 0)).2] x.1 x.2 :=
    fun x => planeStrain_rot th e c 0 x.1 x.2
  have key : ∀ i, IntegrableOn (fun x => s.response (planeStrain ![e, (rotPt th (c, 0)).1, (rotPt th (c, 0)).2] x.1 x.2) *
      lever (rotPt (-th) x).1 (rotPt (-th) x).2 i) s.region := by
    intro i
    have := good_integrable h i
    simp only [SurfSpec.turn] at this
    rw [integrableOn_rot _ hR] at this
    simpa only [hst] using this
  have hsq := Real.sin_sq_add_cos_sq th
  have k0 := key 0
  have k1 := key 1
  have k2 := key 2
  fin_cases i
  · simpa [lever] using k0
  · refine Integrable.congr ((k1.const_mul (Real.cos th)).sub (k2.const_mul (Real.sin th)))
      (Filter.Eventually.of_forall fun x => ?_)
    simp only [lever, rotPt, Matrix.cons_val, Fin.mk_one, Pi.sub_apply, Real.cos_neg, Real.sin_neg]
    linear_combination (s.response (planeStrain ![e, Real.cos th * c - Real.sin th * 0, Real.sin th * c + Real.cos th * 0]
      x.1 x.2) * x.2) * hsq
  · refine Integrable.congr ((k1.const_mul (Real.sin th)).add (k2.const_mul (Real.cos th)))
      (Filter.Eventually.of_forall fun x => ?_)
    simp only [lever, rotPt, Matrix.cons_val, Fin.reduceFinMk, Pi.add_apply, Real.cos_neg, Real.sin_neg]
    linear_combination (-s.response (planeStrain ![e, Real.cos th * c - Real.sin th * 0, Real.sin th * c + Real.cos th * 0]
      x.1 x.2) * x.1) * hsq

theorem resultants_perm {fs gs : List Fibre} (h : fs.Perm gs) (e : Fin 3 → ℝ) : resultants fs e = resultants gs e := by
  funext i
  exact (h.map _).sum_eq

/-- A surface of a section: what the integrator reads, the `concrete` flag, the limit strains; and the region and the response
it stands for. -/
structure Solid where
  spec : SurfSpec
  concrete : Bool
  ult : Bool → ℝ × ℝ

/-- The section of the specification. -/
noncomputable def crossSection (solids : List Solid) (bars : List Bar) : CrossSection where
  plates := solids.map fun s => ⟨s.spec.region, s.spec.surf.polygon.ext, s.spec.response, (s.ult false).1, (s.ult false).2⟩
  rods := bars.map fun b => ⟨b.fibre Law.stress, (b.law.law.ult false).1, (b.law.law.ult false).2⟩

/-- What `get_balanced_failure_strain` reads from a surface of the section turned by `a` (sections/_generic.py:329, 357: `bounds`
of the polygon; geometry/_geometry.py:447-450 `concrete`). -/
noncomputable def Solid.part (a : ℝ) (s : Solid) : Part :=
  ⟨true, s.concrete, (s.spec.surf.polygon.rotate a).bounds.2.1, (s.spec.surf.polygon.rotate a).bounds.2.2.2, s.ult⟩

/-- A section of surfaces and bars with the Marin integrator; `reinforced_concrete` as geometry/_geometry.py:784-793. -/
noncomputable def sectionEngine (split : Polygon → ℝ → ℝ → ShapelyResult) (solids : List Solid) (bars : List Bar) (ms : ℝ) :
    Engine :=
  marinEngine split (solids.map fun s => s.spec.surf) (fun a => solids.map (Solid.part a)) bars (solids.any Solid.concrete) ms

theorem sum_rot {α : Type} (secs : List α) (th : ℝ) (F G : α → Fin 3 → ℝ)
    (h : ∀ s ∈ secs, F s 0 = G s 0 ∧ rotPt th (F s 1, F s 2) = (G s 1, G s 2)) :
    (secs.map F).sum 0 = (secs.map G).sum 0 ∧
      rotPt th ((secs.map F).sum 1, (secs.map F).sum 2) = ((secs.map G).sum 1, (secs.map G).sum 2) := by
  induction secs with
  | nil => simp [rotPt]
  | cons s l ih =>
    obtain ⟨h1, h2⟩ := h s (by simp)
    obtain ⟨h3, h4⟩ := ih fun s hs => h s (by simp [hs])
    simp only [List.map_cons, List.sum_cons, Pi.add_apply]
    simp only [rotPt, Prod.mk.injEq] at h2 h4 ⊢
    refine ⟨by rw [h1, h3], ?_, ?_⟩
    · rw [← h2.1, ← h4.1]; ring
    · rw [← h2.2, ← h4.2]; ring

/-- The Marin integrator answers with the exact forces (C50), in turned axes. -/
theorem marin_answers_at (split : Polygon → ℝ → ℝ → ShapelyResult) (solids : List Solid)
    (bars : List Bar) (ms th chi : ℝ) (hid : SameIds (bars.map Bar.law)) (hd : EqualSizes (groupBars bars))
    (hg : ∀ s ∈ solids, MeasurableSet s.spec.region ∧ ∀ e, (s.spec.turn (-th)).Good split .stress ![e, chi, 0]) :
    (sectionEngine split solids bars ms).AnswersAt (groupBars bars) (crossSection solids bars) th chi := by
  intro e m
  have hds : EqualSizes ((groupBars bars).map (rotGroup (-th))) := by
    intro x hx y hy
    simp only [List.mem_map] at hx hy
    obtain ⟨g, hg, rfl⟩ := hx
    obtain ⟨g', hg', rfl⟩ := hy
    simpa [rotGroup] using hd g hg g' hg'
  have h := C50_forces_partial split (solids.map fun s => s.spec.turn (-th)) (bars.map (Bar.rotate (-th)))
    ((groupBars bars).map (rotGroup (-th))) hds ![e, chi, 0] (by
      intro s hs
      obtain ⟨s', hs', rfl⟩ := List.mem_map.1 hs
      exact (hg s' hs').2 e)
  refine ⟨(solids.map fun s => regionResultants (rotPt (-th) '' s.spec.region) s.spec.response ![e, chi, 0]).sum +
    resultants (fibres Law.stress ((groupBars bars).map (rotGroup (-th)))) ![e, chi, 0], ?_, ?_⟩
  · simp only [List.map_map, Function.comp_def] at h
    simp only [sectionEngine, marinEngine, List.map_map, Function.comp_def]
    exact h
  · have hv : rotPt th (chi, 0) = (chi * Real.cos th, chi * Real.sin th) := by
      simp only [rotPt, Prod.mk.injEq]; constructor <;> ring
    have h1 := sum_rot solids th (fun s => regionResultants (rotPt (-th) '' s.spec.region) s.spec.response ![e, chi, 0])
      (fun s => regionResultants s.spec.region s.spec.response ![e, chi * Real.cos th, chi * Real.sin th]) (by
        intro s hs
        have := regionResultants_rot (hg s hs).1 s.spec.response th e chi 0 (turn_integrable (hg s hs).1 ((hg s hs).2 e))
        rw [hv] at this
        exact this)
    have h2 := resultants_rot (fibres Law.stress (groupBars bars)) th e chi 0
    rw [← fibres_rot, hv] at h2
    rw [resultants_perm (C18_grouping Law.stress bars hid) ![e, chi * Real.cos th, chi * Real.sin th]] at h2
    simp only [CrossSection.forces, crossSection, List.map_map, Function.comp_def, SurfSpec.turn, Pi.add_apply]
    simp only [rotPt, Prod.mk.injEq] at h1 h2 ⊢
    obtain ⟨a0, a1, a2⟩ := h1
    obtain ⟨b0, b1, b2⟩ := h2
    refine ⟨by rw [a0, b0], ?_, ?_⟩
    · rw [← a1, ← b1]; ring
    · rw [← a2, ← b2]; ring

/-- All negative curvatures. -/
theorem marin_answers (split : Polygon → ℝ → ℝ → ShapelyResult) (solids : List Solid)
    (bars : List Bar) (ms th : ℝ) (hid : SameIds (bars.map Bar.law)) (hd : EqualSizes (groupBars bars))
    (hg : ∀ s ∈ solids, MeasurableSet s.spec.region ∧ ∀ e chi, chi < 0 → (s.spec.turn (-th)).Good split .stress ![e, chi, 0]) :
    (sectionEngine split solids bars ms).Answers (groupBars bars) (crossSection solids bars) th :=
  fun chi hchi => marin_answers_at split solids bars ms th chi hid hd fun s hs => ⟨(hg s hs).1, fun e => (hg s hs).2 e chi hchi⟩

/-! ### The search -/

theorem bisectionE_congr {f g : ℝ → Except PyErr ℝ} (h : ∀ x, x < 0 → f x = g x) {a b : ℝ} (ha : a < 0) (hb : b < 0)
    (da db : ℝ) : bisectionE f a da b db = bisectionE g a da b db := by
  unfold bisectionE
  rw [pyWhile_congr (body' := bisBodyE g) (fun s => s.a < 0 ∧ s.b < 0) ?_ ?_ ⟨ha, hb⟩]
  · rintro s s' ⟨h1, h2⟩ _ hs
    have hm : (s.a + s.b) / 2 < 0 := by linarith
    simp only [bisBodyE] at hs
    cases hf : f ((s.a + s.b) / 2) with
    | error e => rw [hf] at hs; cases hs
    | ok v =>
      rw [hf] at hs
      simp only at hs
      split_ifs at hs <;> cases hs
      · exact ⟨h1, hm⟩
      · exact ⟨hm, h2⟩
  · rintro s ⟨h1, h2⟩ _
    simp only [bisBodyE]
    rw [h _ (by linarith)]

theorem fixedPivotFromE_congr {N : ℝ → ℝ → Except PyErr ℝ} {N' : ℝ → ℝ → ℝ} (h : ∀ e c, c < 0 → N e c = .ok (N' e c))
    {st : Fin 3 → ℝ} (hs : st 1 < 0) (n yn yp : ℝ) :
    fixedPivotFromE N n yn yp st = fixedPivotFrom N' n yn yp st := by
  rw [← fixedPivotFromE_pure]
  unfold fixedPivotFromE
  rw [h _ _ hs]
  simp only
  split_ifs
  · rfl
  all_goals
    have hr : ∀ e c, c < 0 → residual N n e c = residual (fun e c => .ok (N' e c)) n e c := by
      intro e c hc
      unfold residual
      rw [h _ _ hc]
    rw [hr _ _ (by norm_num)]
    simp only [residual_pure]
    rw [bisectionE_congr (g := fun chi => residual (fun e c => .ok (N' e c)) n _ chi) (fun x hx => hr _ _ hx) hs (by norm_num)]
    rfl

/-- What a strength calculation that returned has done. -/
theorem bending_spec {E : Engine} {base : ℝ → Except PyErr (List Group)} (hE : E.Lawful base) {D : List Group}
    (hD : base E.meshSize = .ok D) {S : CrossSection} {th : ℝ} (hA : E.Answers D S th)
    {n : ℝ} {s s' : CalcState} (hs : Canonical E base s) {b : BendingResult} {yn yp : ℝ} {st : Fin 3 → ℝ}
    (hbal : E.balanced (-th) false = .ok (yn, yp, st)) (hsteep : st 1 < 0)
    (h : bendingStrength E th n s = (s', .ok b)) :
    ∃ e c k, fixedPivotFrom (fun e c => S.forces ![e, c * Real.cos th, c * Real.sin th] 0) n yn yp st =
        some (.ok (e, c, 0), k) ∧
      b.eps_a = e ∧ b.chi = (c * Real.cos th, c * Real.sin th) ∧
      (c < 0 → S.forces ![b.eps_a, b.chi.1, b.chi.2] = ![b.n, b.m.1, b.m.2]) := by
  obtain ⟨s1, _, hc, h⟩ := CalcM.bind_eq_ok h
  obtain ⟨D', L, hD', rfl⟩ := check_ok_state hE hs hc
  rw [hD] at hD'
  cases hD'
  obtain ⟨s2, _, hr, h⟩ := CalcM.bind_eq_ok h
  simp only [rotateData, Option.map_some, Prod.mk.injEq, and_true] at hr
  subst hr
  obtain ⟨s3, v, hp, h⟩ := CalcM.bind_eq_ok h
  have hs3 := frozen_pivot (E := E) (-th) n false (D.map (rotGroup (-th))) (some L)
  rw [hp] at hs3
  simp only at hs3
  subst hs3
  obtain ⟨s6, bal, hb, hp⟩ := CalcM.bind_eq_ok hp
  simp only [liftE, Prod.mk.injEq] at hb
  obtain ⟨rfl, hb⟩ := hb
  rw [hbal] at hb
  cases hb
  obtain ⟨s7, r7, hb7, hp⟩ := CalcM.bind_eq_ok hp
  have hs7 : s7 = ⟨some (D.map (rotGroup (-th))), some L⟩ := by
    rw [call_some] at hb7
    exact (Prod.mk.inj hb7).1.symm
  subst hs7
  simp only [withData, Prod.mk.injEq] at hp
  obtain ⟨e, c, z, k, hrun, rfl⟩ := searchResult_ok hp.2
  have hz := fixedPivotFromE_zero hrun
  subst hz
  rw [fixedPivotFromE_congr (N' := fun e c => S.forces ![e, c * Real.cos th, c * Real.sin th] 0) ?_ hsteep] at hrun
  · refine ⟨e, c, k, hrun, ?_⟩
    obtain ⟨s8, r, hcall, h⟩ := CalcM.bind_eq_ok h
    obtain ⟨s9, _, hr9, h⟩ := CalcM.bind_eq_ok h
    simp only [CalcM.pure_def, Prod.mk.injEq, Except.ok.injEq] at h
    obtain ⟨-, rfl⟩ := h
    refine ⟨rfl, ?_, ?_⟩
    · simp only [rot2, rotPt, Matrix.cons_val, Prod.mk.injEq]
      constructor <;> ring
    · intro hc0
      obtain ⟨F, h1, h2, h3⟩ := hA c hc0 e defaultMesh
      rw [call_some, h1] at hcall
      simp only [Prod.mk.injEq, Except.ok.injEq] at hcall
      obtain ⟨-, rfl⟩ := hcall
      have hchi : rot2 th (![e, c, 0] 1, ![e, c, 0] 2) = (c * Real.cos th, c * Real.sin th) := by
        simp only [rot2, rotPt, Matrix.cons_val, Prod.mk.injEq]
        constructor <;> ring
      rw [hchi]
      simp only [Response.N, Response.M, rot2, h3, Matrix.cons_val]
      funext i
      fin_cases i
      · exact h2.symm
      · rfl
      · rfl
  · intro e c hc
    obtain ⟨F, h1, h2, -⟩ := hA c hc e defaultMesh
    rw [oracleN, h1]
    simp only [Response.N, h2]

/-! ### Heights and limits -/

theorem rotPt_height (th : ℝ) (p : ℝ × ℝ) : (rotPt (-th) p).2 = height th p := by
  simp only [rotPt, height, Real.cos_neg, Real.sin_neg]; ring

theorem turned_plane (th e c : ℝ) (p : ℝ × ℝ) :
    planeStrain ![e, c * Real.cos th, c * Real.sin th] p.1 p.2 = e + c * height th p := by
  simp only [planeStrain, height, Matrix.cons_val]; ring

/-- The parts read by the balanced failure search. -/
noncomputable def sectionParts (solids : List Solid) (bars : List Bar) (a : ℝ) : List Part :=
  solids.map (Solid.part a) ++ (bars.map (Bar.rotate a)).map Bar.part

theorem low_mem {p : Polygon} (h : p.ext ≠ []) : ∃ v ∈ p.ext, v.2 = p.bounds.2.1 := by
  have := (listMin_spec (p.ext.map Prod.snd) (by simpa using h)).1
  obtain ⟨v, hv, e⟩ := List.mem_map.1 this
  exact ⟨v, hv, e⟩

theorem high_mem {p : Polygon} (h : p.ext ≠ []) : ∃ v ∈ p.ext, v.2 = p.bounds.2.2.2 := by
  have := (listMax_spec (p.ext.map Prod.snd) (by simpa using h)).1
  obtain ⟨v, hv, e⟩ := List.mem_map.1 this
  exact ⟨v, hv, e⟩

/-- A part has corners at its lower and at its upper edge. -/
theorem part_corner {solids : List Solid} {bars : List Bar} {th : ℝ}
    (hne : ∀ s ∈ solids, s.spec.surf.polygon.ext ≠ []) {g : Part} (hg : g ∈ sectionParts solids bars (-th)) :
    (∃ c ∈ (crossSection solids bars).corners, height th c.1 = g.yLow ∧ c.2 = g.ult false) ∧
    (∃ c ∈ (crossSection solids bars).corners, height th c.1 = g.yHigh ∧ c.2 = g.ult false) := by
  simp only [sectionParts, List.mem_append, List.mem_map] at hg
  rcases hg with ⟨s, hs, rfl⟩ | ⟨b', ⟨b, hb, rfl⟩, rfl⟩
  · have hn : (s.spec.surf.polygon.rotate (-th)).ext ≠ [] := by simpa [Polygon.rotate] using hne s hs
    have key : ∀ v ∈ (s.spec.surf.polygon.rotate (-th)).ext,
        ∃ c ∈ (crossSection solids bars).corners, height th c.1 = v.2 ∧ c.2 = s.ult false := by
      intro v hv
      obtain ⟨w, hw, rfl⟩ := List.mem_map.1 hv
      refine ⟨(w, s.ult false), ?_, (rotPt_height th w).symm, rfl⟩
      simp only [CrossSection.corners, crossSection, List.mem_append, List.mem_flatMap, List.mem_map]
      exact Or.inl ⟨_, ⟨s, hs, rfl⟩, w, hw, rfl⟩
    obtain ⟨v, hv, e⟩ := low_mem hn
    obtain ⟨v', hv', e'⟩ := high_mem hn
    obtain ⟨c, hc, h1, h2⟩ := key v hv
    obtain ⟨c', hc', h1', h2'⟩ := key v' hv'
    exact ⟨⟨c, hc, h1.trans e, h2⟩, ⟨c', hc', h1'.trans e', h2'⟩⟩
  · have hm : (((b.x, b.y), b.law.law.ult false) : (ℝ × ℝ) × ℝ × ℝ) ∈ (crossSection solids bars).corners := by
      simp only [CrossSection.corners, crossSection, List.mem_append, List.mem_map]
      exact Or.inr ⟨_, ⟨b, hb, rfl⟩, rfl⟩
    have hh : height th (b.x, b.y) = (Bar.part (Bar.rotate (-th) b)).yLow := by
      simp only [Bar.part, Bar.rotate, rotPt_height]
    exact ⟨⟨_, hm, hh, rfl⟩, ⟨_, hm, hh, rfl⟩⟩

/-- Every corner belongs to a part that spans its height. -/
theorem corner_part {solids : List Solid} {bars : List Bar} {th : ℝ}
    (hne : ∀ s ∈ solids, s.spec.surf.polygon.ext ≠ []) {c : (ℝ × ℝ) × ℝ × ℝ}
    (hc : c ∈ (crossSection solids bars).corners) :
    ∃ g ∈ sectionParts solids bars (-th), g.ult false = c.2 ∧ g.yLow ≤ height th c.1 ∧ height th c.1 ≤ g.yHigh := by
  simp only [CrossSection.corners, crossSection, List.mem_append, List.mem_flatMap, List.mem_map] at hc
  rcases hc with ⟨_, ⟨s, hs, rfl⟩, w, hw, rfl⟩ | ⟨_, ⟨b, hb, rfl⟩, rfl⟩
  · have hn : (s.spec.surf.polygon.rotate (-th)).ext ≠ [] := by simpa [Polygon.rotate] using hne s hs
    have hb := bounds_spec hn (v := rotPt (-th) w) (List.mem_map_of_mem hw)
    rw [rotPt_height] at hb
    exact ⟨s.part (-th), by simp only [sectionParts, List.mem_append, List.mem_map]; exact Or.inl ⟨s, hs, rfl⟩, rfl,
      hb.2.2.1, hb.2.2.2⟩
  · refine ⟨(Bar.rotate (-th) b).part, ?_, rfl, ?_, ?_⟩
    · simp only [sectionParts, List.mem_append, List.mem_map]
      exact Or.inr ⟨_, ⟨b, hb, rfl⟩, rfl⟩
    all_goals
      simp only [Bar.part, Bar.rotate, rotPt_height, Bar.fibre]
      exact le_rfl

theorem compressionLimit_ultimate (rc : Bool) (g : Part) : compressionLimit false rc g = (g.ult false).1 := by
  simp [compressionLimit]

/-- The strain of a plane is between the strains at two corners, in the hull. -/
theorem plane_hull {P : Set (ℝ × ℝ)} {e : Fin 3 → ℝ} {lo hi : ℝ}
    (h : ∀ v ∈ P, lo ≤ planeStrain e v.1 v.2 ∧ planeStrain e v.1 v.2 ≤ hi) :
    ∀ x ∈ convexHull ℝ P, lo ≤ planeStrain e x.1 x.2 ∧ planeStrain e x.1 x.2 ≤ hi := by
  have hconv : Convex ℝ {x : ℝ × ℝ | lo ≤ planeStrain e x.1 x.2 ∧ planeStrain e x.1 x.2 ≤ hi} := by
    intro x hx y hy a b ha hb hab
    simp only [Set.mem_ofPred_eq] at hx hy ⊢
    have : planeStrain e (a • x + b • y).1 (a • x + b • y).2 = a * planeStrain e x.1 x.2 + b * planeStrain e y.1 y.2 := by
      simp only [planeStrain, Prod.fst_add, Prod.snd_add, Prod.smul_fst, Prod.smul_snd, smul_eq_mul]
      linear_combination (e 0) * (1 - hab)
    rw [this]
    have hb' : b = 1 - a := by linarith
    subst hb'
    constructor <;> nlinarith
  exact convexHull_min (fun v hv => h v hv) hconv

/-- The balanced plane is steeper than the flattest plane of the search. -/
theorem steep_balanced {solids : List Solid} {bars : List Bar} {th : ℝ} {rc : Bool}
    (hne : ∀ s ∈ solids, s.spec.surf.polygon.ext ≠ [])
    (hlim : ∀ c ∈ (crossSection solids bars).corners, c.2.1 ≤ 0 ∧ 0 ≤ c.2.2)
    (hflat : ∀ c ∈ (crossSection solids bars).corners, ∀ d ∈ (crossSection solids bars).corners,
      1e-13 * (height th d.1 - height th c.1) ≤ c.2.2 - d.2.1) {yn yp : ℝ} {st : Fin 3 → ℝ}
    (hb : balancedFailure (sectionParts solids bars (-th)) rc false = .ok (yn, yp, st)) : st 1 ≤ -1e-13 := by
  have hln : ∀ g ∈ sectionParts solids bars (-th), compressionLimit false rc g ≤ 0 := by
    intro g hg'
    obtain ⟨c, hc, -, h2⟩ := (part_corner hne hg').1
    rw [compressionLimit_ultimate, ← h2]
    exact (hlim c hc).1
  have hlp : ∀ g ∈ sectionParts solids bars (-th), 0 ≤ tensionLimit false g := by
    intro g hg'
    obtain ⟨c, hc, -, h2⟩ := (part_corner hne hg').1
    rw [tensionLimit, ← h2]
    exact (hlim c hc).2
  obtain ⟨⟨g, hgm, o, hom, hyp, hyn, hlt, htp, htn⟩, hadm, hst1, hst2⟩ := C22_balanced _ _ _ hln hlp _ _ _ hb
  have hpl : ∀ x y, planeStrain st x y = st 0 + st 1 * y := by intro x y; simp [planeStrain, hst2]
  obtain ⟨c, hc, h1, h2⟩ := (part_corner hne hgm).1
  obtain ⟨d, hd', h3, h4⟩ := (part_corner hne hom).2
  have := hflat c hc d hd'
  rw [h1, h3, hyp, hyn, h2, h4] at this
  have t1 := htp 0
  have t2 := htn 0
  rw [hpl, tensionLimit] at t1
  rw [hpl, compressionLimit_ultimate] at t2
  rw [← t1, ← t2] at this
  have : (1e-13 + st 1) * (yn - yp) ≤ 0 := by linarith
  by_contra hcon
  push Not at hcon
  have := mul_pos (show 0 < 1e-13 + st 1 by linarith) (sub_pos.2 hlt)
  linarith

/-- The strength calculation with any integrator that answers with the forces of `S`, on a section with the limit strains of
`crossSection solids bars`. -/
theorem strength_generic {E : Engine} {base : ℝ → Except PyErr (List Group)} (hE : E.Lawful base) {D : List Group}
    (hD : base E.meshSize = .ok D) {S : CrossSection} {solids : List Solid} {bars : List Bar} {th : ℝ} {rc : Bool}
    (hA : E.Answers D S th) (hEb : E.balanced (-th) false = balancedFailure (sectionParts solids bars (-th)) rc false)
    (hne : ∀ s ∈ solids, s.spec.surf.polygon.ext ≠ [])
    (hlim : ∀ c ∈ (crossSection solids bars).corners, c.2.1 ≤ 0 ∧ 0 ≤ c.2.2)
    (hflat : ∀ c ∈ (crossSection solids bars).corners, ∀ d ∈ (crossSection solids bars).corners,
      1e-13 * (height th d.1 - height th c.1) ≤ c.2.2 - d.2.1)
    {yn yp : ℝ} {st : Fin 3 → ℝ} (hbal : E.balanced (-th) false = .ok (yn, yp, st)) :
    ∃ C : Set ℝ, C.Countable ∧ ∀ (n : ℝ) (s : CalcState) (b : BendingResult), Canonical E base s →
      (bendingStrength E th n s).2 = .ok b →
      (∃ c < 0, b.chi = (c * Real.cos th, c * Real.sin th)) ∧
      S.forces ![b.eps_a, b.chi.1, b.chi.2] = ![b.n, b.m.1, b.m.2] ∧
      (crossSection solids bars).AtLimit ![b.eps_a, b.chi.1, b.chi.2] ∧
      ((∀ c ∈ (crossSection solids bars).corners, planeStrain st 0 yp ≤ c.2.2 ∧ c.2.1 ≤ planeStrain st 0 yn) →
        (crossSection solids bars).Admissible ![b.eps_a, b.chi.1, b.chi.2]) ∧
      (n ∉ C →
        S.forces (planeThrough th yn (planeStrain st 0 yn) (-1e-13)) 0 < n →
        n < S.forces (planeThrough th yp (planeStrain st 0 yp) (-1e-13)) 0 → |b.n - n| ≤ 1e-2) := by
  have hb : balancedFailure (sectionParts solids bars (-th)) rc false = .ok (yn, yp, st) := hEb.symm.trans hbal
  have hln : ∀ g ∈ sectionParts solids bars (-th), compressionLimit false rc g ≤ 0 := by
    intro g hg'
    obtain ⟨c, hc, -, h2⟩ := (part_corner hne hg').1
    rw [compressionLimit_ultimate, ← h2]
    exact (hlim c hc).1
  have hlp : ∀ g ∈ sectionParts solids bars (-th), 0 ≤ tensionLimit false g := by
    intro g hg'
    obtain ⟨c, hc, -, h2⟩ := (part_corner hne hg').1
    rw [tensionLimit, ← h2]
    exact (hlim c hc).2
  obtain ⟨⟨g, hgm, o, hom, hyp, hyn, hlt, htp, htn⟩, hadm, hst1, hst2⟩ := C22_balanced _ _ _ hln hlp _ _ _ hb
  have hpl : ∀ x y, planeStrain st x y = st 0 + st 1 * y := by intro x y; simp [planeStrain, hst2]
  have hsteep : st 1 ≤ -1e-13 := steep_balanced hne hlim hflat hb
  have hneg : st 1 < 0 := by linarith [show (0:ℝ) < 1e-13 by norm_num]
  set N : ℝ → ℝ → ℝ := fun e c => S.forces ![e, c * Real.cos th, c * Real.sin th] 0 with hN
  refine ⟨{x | ∃ y, (y = yp ∨ y = yn) ∧ ∃ p k : ℕ, x =
    N (st 0 + st 1 * y - (st 1 + (p / 2 ^ k : ℝ) * (-1e-13 - st 1)) * y) (st 1 + (p / 2 ^ k : ℝ) * (-1e-13 - st 1))}, ?_, ?_⟩
  · have : ∀ y, (Set.range fun q : ℕ × ℕ => N (st 0 + st 1 * y - (st 1 + (q.1 / 2 ^ q.2 : ℝ) * (-1e-13 - st 1)) * y)
      (st 1 + (q.1 / 2 ^ q.2 : ℝ) * (-1e-13 - st 1))).Countable := fun y => Set.countable_range _
    refine ((this yp).union (this yn)).mono ?_
    rintro x ⟨y, rfl | rfl, p, k, rfl⟩
    · exact Or.inl ⟨(p, k), rfl⟩
    · exact Or.inr ⟨(p, k), rfl⟩
  · intro n s b hcan hrun
    obtain ⟨e, c, k, hpiv, h1, h2, h3⟩ := bending_spec (s' := (bendingStrength E th n s).1) hE hD hA
      (n := n) (b := b) hcan hbal hneg (Prod.ext rfl hrun)
    obtain ⟨-, hcase⟩ := fixedPivotFrom_spec N n yn yp st e c 0 k hpiv
    have hc0 : c < 0 := by
      rcases hcase with ⟨-, rfl, -⟩ | ⟨y, -, -, ⟨t, ht, rfl⟩, -⟩
      · exact hneg
      · have := ht.mem_Icc
        have h4 : t * (-1e-13 - st 1) ≤ -1e-13 - st 1 := by nlinarith [this.2]
        linarith [show (0:ℝ) < 1e-13 by norm_num]
    have hfp : fixedPivot N (sectionParts solids bars (-th)) rc false n =
        some (.ok (e, c, 0), k) := by
      unfold fixedPivot
      rw [hb]
      exact hpiv
    have hplane : ∀ p : ℝ × ℝ, planeStrain ![b.eps_a, b.chi.1, b.chi.2] p.1 p.2 = e + c * height th p := by
      intro p
      rw [h1, h2, turned_plane]
    have hsec : ∀ x y, planeStrain ![e, c, 0] x y = e + c * y := by intro x y; simp [planeStrain]
    have hforces := h3 hc0
    refine ⟨⟨c, hc0, h2⟩, hforces, ?_, ?_, ?_⟩
    · rcases (C24_pivot N _ _ false n hln hlp e c 0 k hfp).2 with ⟨g', hg', h⟩ | ⟨o', ho', h⟩
      · obtain ⟨d, hd', h4, h5⟩ := (part_corner hne hg').1
        refine ⟨d, hd', Or.inr ?_⟩
        have := h 0
        rw [hsec, tensionLimit, ← h5] at this
        rw [hplane, h4]
        exact this
      · obtain ⟨d, hd', h4, h5⟩ := (part_corner hne ho').2
        refine ⟨d, hd', Or.inl ?_⟩
        have := h 0
        rw [hsec, compressionLimit_ultimate, ← h5] at this
        rw [hplane, h4]
        exact this
    · intro hweak
      have hw : ∀ g ∈ sectionParts solids bars (-th), ∀ (_ y : ℝ), g.yLow ≤ y → y ≤ g.yHigh →
          (g.ult false).1 ≤ e + c * y ∧ e + c * y ≤ (g.ult false).2 := by
        have := C51_admissible_partial N _ _ false n hln hlp yn yp st hb hsteep (by
            intro g' hg'
            obtain ⟨d, hd', -, h5⟩ := (part_corner hne hg').1
            have := (hweak d hd').1
            rw [tensionLimit, ← h5]
            exact this) (by
            intro g' hg'
            obtain ⟨d, hd', -, h5⟩ := (part_corner hne hg').1
            have := (hweak d hd').2
            rw [compressionLimit_ultimate, ← h5]
            exact this) e c 0 k hfp
        intro g' hg' x y hl hh
        have := this g' hg' x y hl hh
        rwa [compressionLimit_ultimate, tensionLimit, hsec] at this
      have hcor : ∀ d ∈ (crossSection solids bars).corners, d.2.1 ≤ e + c * height th d.1 ∧ e + c * height th d.1 ≤ d.2.2 := by
        intro d hd'
        obtain ⟨g', hg', h4, h5, h6⟩ := corner_part (th := th) hne hd'
        have := hw g' hg' 0 _ h5 h6
        rwa [h4] at this
      refine ⟨fun p hp => plane_hull fun v hv => ?_, fun r hr => ?_⟩
      · have := hcor (v, p.lo, p.hi) (by
          simp only [CrossSection.corners, List.mem_append, List.mem_flatMap, List.mem_map]
          exact Or.inl ⟨p, hp, v, hv, rfl⟩)
        rw [hplane]
        exact this
      · have := hcor ((r.fibre.y, r.fibre.z), r.lo, r.hi) (by
          simp only [CrossSection.corners, List.mem_append, List.mem_map]
          exact Or.inr ⟨r, hr, rfl⟩)
        have h6 := hplane (r.fibre.y, r.fibre.z)
        simp only at h6
        rw [h6]
        exact this
    · intro hnC hlow hhigh
      have hbn : b.n = N e c := by
        have := congrFun hforces 0
        rw [h1, h2] at this
        exact this.symm
      rw [hbn]
      have hend : ∀ y, S.forces (planeThrough th y (planeStrain st 0 y) (-1e-13)) 0 =
          N (st 0 + st 1 * y - (-1e-13) * y) (-1e-13) := by
        intro y
        rw [hpl]
        rfl
      rw [hend] at hlow hhigh
      rcases hcase with ⟨-, -, h⟩ | ⟨y, hy, -, -, h⟩
      · exact h
      · refine h ?_ ?_
        · have hne' : N (st 0) (st 1) ≠ n := by
            intro heq
            apply hnC
            refine ⟨yp, Or.inl rfl, 0, 0, ?_⟩
            rw [← heq]
            simp
          split_ifs at hy with hl <;> subst hy
          · exact mul_neg_of_neg_of_pos (by linarith) (by linarith)
          · have : n < N (st 0) (st 1) := lt_of_le_of_ne (not_lt.1 hl) (Ne.symm hne')
            exact mul_neg_of_pos_of_neg (by linarith) (by linarith)
        · rintro t ⟨p, k', -, rfl⟩ heq
          apply hnC
          refine ⟨y, ?_, p, k', heq.symm⟩
          split_ifs at hy
          · exact Or.inl hy
          · exact Or.inr hy

/-- **C66** (partial; see the hypotheses of the last two clauses, false without them by C51_violated and C24_violated). -/
theorem C66_strength_partial (split : Polygon → ℝ → ℝ → ShapelyResult) (solids : List Solid) (bars : List Bar) (ms th : ℝ)
    (lu : Matrix (Fin 3) (Fin 3) ℝ → (Fin 3 → ℝ) → (Fin 3 → ℝ))
    (hid : SameIds (bars.map Bar.law)) (hd : EqualSizes (groupBars bars))
    (hg : ∀ s ∈ solids, MeasurableSet s.spec.region ∧ ∀ e chi, chi < 0 → (s.spec.turn (-th)).Good split .stress ![e, chi, 0])
    (hlim : ∀ c ∈ (crossSection solids bars).corners, c.2.1 ≤ 0 ∧ 0 ≤ c.2.2)
    (hflat : ∀ c ∈ (crossSection solids bars).corners, ∀ d ∈ (crossSection solids bars).corners,
      1e-13 * (height th d.1 - height th c.1) ≤ c.2.2 - d.2.1)
    {yn yp : ℝ} {st : Fin 3 → ℝ} (hbal : (sectionEngine split solids bars ms).balanced (-th) false = .ok (yn, yp, st)) :
    ∃ C : Set ℝ, C.Countable ∧ ∀ (n : ℝ) (ops : List Op) (b : BendingResult),
      Undisturbed (sectionEngine split solids bars ms) lu ops .fresh →
      (bendingStrength (sectionEngine split solids bars ms) th n
        (history (sectionEngine split solids bars ms) lu ops .fresh)).2 = .ok b →
      (∃ c < 0, b.chi = (c * Real.cos th, c * Real.sin th)) ∧
      (crossSection solids bars).forces ![b.eps_a, b.chi.1, b.chi.2] = ![b.n, b.m.1, b.m.2] ∧
      (crossSection solids bars).AtLimit ![b.eps_a, b.chi.1, b.chi.2] ∧
      ((∀ c ∈ (crossSection solids bars).corners, planeStrain st 0 yp ≤ c.2.2 ∧ c.2.1 ≤ planeStrain st 0 yn) →
        (crossSection solids bars).Admissible ![b.eps_a, b.chi.1, b.chi.2]) ∧
      (n ∉ C →
        (crossSection solids bars).forces (planeThrough th yn (planeStrain st 0 yn) (-1e-13)) 0 < n →
        n < (crossSection solids bars).forces (planeThrough th yp (planeStrain st 0 yp) (-1e-13)) 0 → |b.n - n| ≤ 1e-2) := by
  have hne : ∀ s ∈ solids, s.spec.surf.polygon.ext ≠ [] := by
    intro s hs h
    have := ((hg s hs).2 0 (-1) (by norm_num)).encloses.ext_proper.2
    simp only [SurfSpec.turn, Polygon.rotate, h] at this
    apply this
    simp [signedMoment, Spec.edges]
  have hE : (sectionEngine split solids bars ms).Lawful fun _ => .ok (groupBars bars) := marinEngine_lawful _ _ _ _ _ _
  obtain ⟨C, hC, h⟩ := strength_generic hE rfl (marin_answers split solids bars ms th hid hd hg) (solids := solids) (bars := bars)
    (rc := solids.any Solid.concrete) rfl hne hlim hflat hbal
  exact ⟨C, hC, fun n ops b hops hrun => h n _ b (canonical_history lu hE rfl ops _ .fresh hops) hrun⟩

end SC
