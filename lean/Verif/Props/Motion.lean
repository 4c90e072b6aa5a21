import Verif.Spec.Motion
import Verif.Props.RCReturns
import Verif.Lemmas.RegionTranslate
import Verif.Lemmas.Plates

/-! # C72: a moved section has the moved strength -/

set_option autoImplicit false

namespace SC

open Spec MeasureTheory

theorem point_eq (m : Motion) (x : ℝ × ℝ) : m.point x = translatePt m.shift.1 m.shift.2 (rotPt m.angle (m.sign * x.1, x.2)) := by
  simp only [Motion.point, translatePt, rotPt, Prod.mk.injEq]

theorem integral_point (m : Motion) {R : Set (ℝ × ℝ)} (hR : MeasurableSet R) (f : ℝ × ℝ → ℝ) :
    ∫ x in m.point '' R, f x = ∫ x in R, f (m.point x) := by
  set s : ℤˣ := if m.mirrored then -1 else 1 with hs
  have hss : ((s : ℤ) : ℝ) = m.sign := by
    rw [hs]; unfold Motion.sign; split_ifs <;> simp
  have hf : ∀ x : ℝ × ℝ, signedMap s 1 0 0 x = (m.sign * x.1, x.2) := by
    intro x
    simp [signedMap, hss]
  have himg : m.point '' R = translatePt m.shift.1 m.shift.2 '' (rotPt m.angle '' (signedMap s 1 0 0 '' R)) := by
    rw [Set.image_image, Set.image_image]
    exact Set.image_congr fun x _ => by rw [hf, point_eq]
  have hm : MeasurableSet (signedMap s 1 0 0 '' R) := (emb_signed s 1 0 0).measurableSet_image.2 hR
  rw [himg, integral_translate, integral_rot _ hm, integral_signed]
  congr 1
  funext x
  rw [hf, point_eq]

/-- Stress resultants of a moved region. -/
theorem regionResultants_moved (m : Motion) {R : Set (ℝ × ℝ)} (hR : MeasurableSet R) (f : ℝ → ℝ) (e : Fin 3 → ℝ)
    (hi : ∀ i, IntegrableOn (fun x => f (planeStrain e x.1 x.2) * lever x.1 x.2 i) R) :
    regionResultants (m.point '' R) f (m.plane e) = m.forces (regionResultants R f e) := by
  have h0 := hi 0
  have h1 := hi 1
  have h2 := hi 2
  funext i
  simp only [regionResultants]
  rw [integral_point m hR]
  simp only [m.plane_strain]
  have key : ∀ a b c : ℝ, ∫ x in R, f (planeStrain e x.1 x.2) * (a * lever x.1 x.2 0 + b * lever x.1 x.2 1 + c * lever x.1 x.2 2) =
      a * regionResultants R f e 0 + b * regionResultants R f e 1 + c * regionResultants R f e 2 := by
    intro a b c
    simp only [regionResultants]
    rw [← integral_const_mul, ← integral_const_mul, ← integral_const_mul]
    have g0 := h0.const_mul a
    have g1 := h1.const_mul b
    have g2 := h2.const_mul c
    have g01 : IntegrableOn (fun x : ℝ × ℝ => a * (f (planeStrain e x.1 x.2) * lever x.1 x.2 0) +
      b * (f (planeStrain e x.1 x.2) * lever x.1 x.2 1)) R := g0.add g1
    rw [← integral_add g0 g1, ← integral_add g01 g2]
    congr 1
    funext x
    ring
  fin_cases i
  · have := key 1 0 0
    simp only [one_mul, zero_mul, add_zero] at this
    simp only [Motion.forces, Matrix.cons_val, Fin.zero_eta]
    exact this
  · have := key m.shift.2 (Real.cos m.angle) (-Real.sin m.angle * m.sign)
    simp only [Motion.forces, Motion.turn, Matrix.cons_val, Fin.mk_one]
    refine Eq.trans ?_ (this.trans ?_)
    · congr 1
      funext x
      simp only [lever, Motion.point, Matrix.cons_val]
      ring
    · simp only [regionResultants]; ring
  · have := key (-m.shift.1) (Real.sin m.angle) (Real.cos m.angle * m.sign)
    simp only [Motion.forces, Motion.turn, Matrix.cons_val, Fin.reduceFinMk]
    refine Eq.trans ?_ (this.trans ?_)
    · congr 1
      funext x
      simp only [lever, Motion.point, Matrix.cons_val]
      ring
    · simp only [regionResultants]; ring

theorem forces_add (m : Motion) (F G : Fin 3 → ℝ) : m.forces (F + G) = m.forces F + m.forces G := by
  funext i
  fin_cases i <;> simp [Motion.forces, Motion.turn] <;> ring

theorem forces_zero (m : Motion) : m.forces 0 = 0 := by
  funext i
  fin_cases i <;> simp [Motion.forces, Motion.turn]

theorem forces_sum {α : Type} (m : Motion) (l : List α) (F : α → Fin 3 → ℝ) :
    (l.map fun a => m.forces (F a)).sum = m.forces (l.map F).sum := by
  induction l with
  | nil => simp [forces_zero]
  | cons a l ih => simp only [List.map_cons, List.sum_cons, ih, forces_add]

theorem resultants_cons (f : Fibre) (fs : List Fibre) (e : Fin 3 → ℝ) :
    resultants (f :: fs) e = resultants [f] e + resultants fs e := by
  funext i
  simp [resultants]

theorem resultants_moved (m : Motion) (fs : List Fibre) (e : Fin 3 → ℝ) :
    resultants (fs.map fun f => { f with y := (m.point (f.y, f.z)).1, z := (m.point (f.y, f.z)).2 }) (m.plane e) =
      m.forces (resultants fs e) := by
  induction fs with
  | nil =>
    have : ∀ e, resultants [] e = 0 := by intro e; funext i; simp [resultants]
    rw [List.map_nil, this, this, forces_zero]
  | cons f fs ih =>
    rw [List.map_cons, resultants_cons, resultants_cons f, forces_add, ih]
    congr 1
    have := m.plane_strain e (f.y, f.z)
    simp only at this
    have hl : ∀ (c : ℝ) (i : Fin 3), c * lever (m.point (f.y, f.z)).1 (m.point (f.y, f.z)).2 i =
        m.forces (fun i => c * lever f.y f.z i) i := by
      intro c i
      fin_cases i <;> simp [lever, Motion.forces, Motion.turn, Motion.point] <;> ring
    funext i
    simp only [resultants, List.map_cons, List.map_nil, List.sum_cons, List.sum_nil, this, add_zero, hl]
    congr 1
    funext j
    simp only [resultants, List.map_cons, List.map_nil, List.sum_cons, List.sum_nil, add_zero]

/-- The moved section carries the moved forces. -/
theorem moved_forces (m : Motion) (S : CrossSection) (e : Fin 3 → ℝ) (hm : ∀ p ∈ S.plates, MeasurableSet p.region)
    (hi : ∀ p ∈ S.plates, ∀ i, IntegrableOn (fun x => p.response (planeStrain e x.1 x.2) * lever x.1 x.2 i) p.region) :
    (S.moved m).forces (m.plane e) = m.forces (S.forces e) := by
  simp only [CrossSection.forces, CrossSection.moved, List.map_map, Function.comp_def, forces_add]
  congr 1
  · rw [← forces_sum]
    congr 1
    exact List.map_congr_left fun p hp => regionResultants_moved m (hm p hp) _ e (hi p hp)
  · have := resultants_moved m (S.rods.map Rod.fibre) e
    rw [← this, List.map_map]
    rfl

/-! ### Moved geometries -/

/-- A surface after `rotate`, `translate` and mirroring (geometry/_geometry.py:529-583: polygon moved, material kept; C35). -/
noncomputable def Solid.moved (m : Motion) (s : Solid) : Solid :=
  ⟨⟨{ s.spec.surf with polygon := ⟨s.spec.surf.polygon.ext.map m.point, s.spec.surf.polygon.ints.map (List.map m.point)⟩ },
    m.point '' s.spec.region, s.spec.response⟩, s.concrete, s.ult⟩

/-- A moved bar (geometry/_geometry.py:254-307). -/
noncomputable def Bar.moved (m : Motion) (b : Bar) : Bar := { b with x := (m.point (b.x, b.y)).1, y := (m.point (b.x, b.y)).2 }

theorem crossSection_moved (m : Motion) (solids : List Solid) (bars : List Bar) :
    crossSection (solids.map (Solid.moved m)) (bars.map (Bar.moved m)) = (crossSection solids bars).moved m := by
  simp only [crossSection, CrossSection.moved, List.map_map, Function.comp_def]
  rfl

/-- A part at another height. -/
def Part.raise (t : ℝ) (g : Part) : Part := { g with yLow := g.yLow + t, yHigh := g.yHigh + t }

theorem listMin_add (l : List ℝ) (h : l ≠ []) (t : ℝ) : listMin (l.map (· + t)) = listMin l + t := by
  obtain ⟨h1, h2⟩ := listMin_spec l h
  refine listMin_unique (List.mem_map.2 ⟨_, h1, rfl⟩) fun x hx => ?_
  obtain ⟨y, hy, rfl⟩ := List.mem_map.1 hx
  have := h2 y hy
  linarith

theorem listMax_add (l : List ℝ) (h : l ≠ []) (t : ℝ) : listMax (l.map (· + t)) = listMax l + t := by
  obtain ⟨h1, h2⟩ := listMax_spec l h
  refine listMax_unique (List.mem_map.2 ⟨_, h1, rfl⟩) fun x hx => ?_
  obtain ⟨y, hy, rfl⟩ := List.mem_map.1 hx
  have := h2 y hy
  linarith

/-- The parts of the moved section, seen along the moved axis, are those of the section at other heights. -/
theorem sectionParts_moved (m : Motion) (solids : List Solid) (bars : List Bar) (th : ℝ)
    (hne : ∀ s ∈ solids, s.spec.surf.polygon.ext ≠ []) :
    sectionParts (solids.map (Solid.moved m)) (bars.map (Bar.moved m)) (-m.inclination th) =
      (sectionParts solids bars (-th)).map (Part.raise (height (m.inclination th) m.shift)) := by
  simp only [sectionParts, List.map_append, List.map_map]
  congr 1
  · refine List.map_congr_left fun s hs => ?_
    have hy : (((s.moved m).spec.surf.polygon.rotate (-m.inclination th)).ext.map Prod.snd) =
        ((s.spec.surf.polygon.rotate (-th)).ext.map Prod.snd).map (· + height (m.inclination th) m.shift) := by
      simp only [Solid.moved, Polygon.rotate, List.map_map]
      refine List.map_congr_left fun v _ => ?_
      simp only [Function.comp_apply, rotPt_height, m.height_point]
    have hn : ((s.spec.surf.polygon.rotate (-th)).ext.map Prod.snd) ≠ [] := by simpa [Polygon.rotate] using hne s hs
    simp only [Function.comp_apply, Solid.part, Part.raise, Polygon.bounds, hy, listMin_add _ hn, listMax_add _ hn]
    rfl
  · refine List.map_congr_left fun b _ => ?_
    simp only [Function.comp_apply, Bar.part, Bar.rotate, Bar.moved, Part.raise, rotPt_height, Prod.mk.eta, m.height_point]

theorem balStep_raise (t : ℝ) (yielding rc : Bool) (s s' : BalState) (pr : Part × Part) (h1 : s'.chiMin = s.chiMin)
    (h2 : s'.best = s.best.map fun b => (b.1 + s.chiMin * t, b.2.1 + t, b.2.2 + t)) :
    (balStep yielding rc s' (pr.1.raise t, pr.2.raise t)).chiMin = (balStep yielding rc s pr).chiMin ∧
    (balStep yielding rc s' (pr.1.raise t, pr.2.raise t)).best =
      (balStep yielding rc s pr).best.map fun b => (b.1 + (balStep yielding rc s pr).chiMin * t, b.2.1 + t, b.2.2 + t) := by
  have e1 : (pr.1.raise t).posLimit yielding = pr.1.posLimit yielding := rfl
  have e2 : (pr.2.raise t).negLimit yielding rc = pr.2.negLimit yielding rc := rfl
  have e3 : (pr.1.raise t).yLow = pr.1.yLow + t := rfl
  have e4 : (pr.2.raise t).yHigh = pr.2.yHigh + t := rfl
  have e5 : pr.1.yLow + t - (pr.2.yHigh + t) = pr.1.yLow - pr.2.yHigh := by ring
  have e6 : (pr.1.yLow + t ≥ pr.2.yHigh + t) ↔ pr.1.yLow ≥ pr.2.yHigh := by
    constructor <;> intro h <;> simp only [ge_iff_le] at h ⊢ <;> linarith
  simp only [balStep, e1, e2, e3, e4, e5, e6, h1]
  split_ifs
  · exact ⟨h1, h2⟩
  · refine ⟨rfl, ?_⟩
    simp only [Option.map_some, Option.some.injEq, Prod.mk.injEq, and_true]
    ring
  · exact ⟨h1, h2⟩

theorem balancedFailure_raise (t : ℝ) (parts : List Part) (rc yielding : Bool) :
    balancedFailure (parts.map (Part.raise t)) rc yielding =
      (balancedFailure parts rc yielding).map fun r => (r.1 + t, r.2.1 + t, ![r.2.2 0 - r.2.2 1 * t, r.2.2 1, 0]) := by
  have hp : ((parts.map (Part.raise t)).flatMap fun g => (parts.map (Part.raise t)).map fun o => (g, o)) =
      (parts.flatMap fun g => parts.map fun o => (g, o)).map fun pr => (pr.1.raise t, pr.2.raise t) := by
    simp only [List.flatMap_map, List.map_flatMap, List.map_map]
    rfl
  have hfold : ∀ (l : List (Part × Part)) (s s' : BalState), s'.chiMin = s.chiMin →
      s'.best = s.best.map (fun b => (b.1 + s.chiMin * t, b.2.1 + t, b.2.2 + t)) →
      ((l.map fun pr => (pr.1.raise t, pr.2.raise t)).foldl (balStep yielding rc) s').chiMin =
        (l.foldl (balStep yielding rc) s).chiMin ∧
      ((l.map fun pr => (pr.1.raise t, pr.2.raise t)).foldl (balStep yielding rc) s').best =
        (l.foldl (balStep yielding rc) s).best.map fun b =>
          (b.1 + (l.foldl (balStep yielding rc) s).chiMin * t, b.2.1 + t, b.2.2 + t) := by
    intro l
    induction l with
    | nil => intro s s' h1 h2; exact ⟨h1, h2⟩
    | cons pr l ih =>
      intro s s' h1 h2
      obtain ⟨g1, g2⟩ := balStep_raise t yielding rc s s' pr h1 h2
      exact ih _ _ g1 g2
  obtain ⟨h1, h2⟩ := hfold (parts.flatMap fun g => parts.map fun o => (g, o)) ⟨1e10, none⟩ ⟨1e10, none⟩ rfl rfl
  unfold balancedFailure
  simp only [hp, h1, h2]
  rcases hb : ((parts.flatMap fun g => parts.map fun o => (g, o)).foldl (balStep yielding rc) ⟨1e10, none⟩).best with _ | ⟨a, b, c⟩
  · rfl
  · simp only [Option.map_some, Except.map, Matrix.cons_val, Except.ok.injEq, Prod.mk.injEq, true_and]
    congr 1
    ring

/-! ### The search in the moved section -/

theorem fixedPivotFrom_congr {N N' : ℝ → ℝ → ℝ} (h : ∀ e c, c < 0 → N e c = N' e c) {st : Fin 3 → ℝ} (hs : st 1 < 0) (n yn yp : ℝ) :
    fixedPivotFrom N n yn yp st = fixedPivotFrom N' n yn yp st := by
  rw [← fixedPivotFromE_congr (N := fun e c => .ok (N' e c)) (N' := N) (fun e c hc => by rw [h e c hc]) hs,
    fixedPivotFromE_pure]

theorem fixedPivotFrom_raise (N : ℝ → ℝ → ℝ) (n yn yp t : ℝ) (st : Fin 3 → ℝ) :
    fixedPivotFrom N n (yn + t) (yp + t) ![st 0 - st 1 * t, st 1, 0] =
      (fixedPivotFrom (fun e c => N (e - c * t) c) n yn yp st).map fun r =>
        (r.1.map fun v => (v.1 - v.2.1 * t, v.2.1, v.2.2), r.2) := by
  have e1 : ∀ y, st 0 - st 1 * t + st 1 * (y + t) = st 0 + st 1 * y := by intro y; ring
  have e2 : ∀ a chi y : ℝ, a - chi * (y + t) = a - chi * y - chi * t := by intros; ring
  unfold fixedPivotFrom
  simp only [Matrix.cons_val, e1]
  by_cases h1 : |N (st 0 - st 1 * t) (st 1) - n| ≤ 1e-2
  · simp only [if_pos h1]
    rfl
  · simp only [if_neg h1]
    by_cases h2 : N (st 0 - st 1 * t) (st 1) < n
    all_goals
      simp only [h2, if_true, if_false, Option.map_map, Function.comp_def, e2]
      congr 1
      funext r
      rcases r with ⟨_ | _, _⟩ <;> simp [Except.map, e2]

/-- A strength result of the moved section. -/
noncomputable def BendingResult.moved (m : Motion) (b : BendingResult) : BendingResult :=
  ⟨b.n, (m.plane ![b.eps_a, b.chi.1, b.chi.2] 1, m.plane ![b.eps_a, b.chi.1, b.chi.2] 2), m.plane ![b.eps_a, b.chi.1, b.chi.2] 0,
    (m.forces ![b.n, b.m.1, b.m.2] 1, m.forces ![b.n, b.m.1, b.m.2] 2)⟩

/-- A moved group of fibres of one law. -/
noncomputable def Group.moved (m : Motion) (g : Group) : Group :=
  ⟨g.pts.map fun p => ((m.point (p.1, p.2.1)).1, (m.point (p.1, p.2.1)).2, p.2.2), g.law⟩

theorem insertBar_moved (m : Motion) (d : List Group) (b : Bar) :
    insertBar (d.map (Group.moved m)) (b.moved m) = (insertBar d b).map (Group.moved m) := by
  induction d with
  | nil => simp [insertBar, Group.moved, Bar.moved]
  | cons g d ih =>
    simp only [List.map_cons, insertBar]
    have : (Group.moved m g).law.id = g.law.id := rfl
    rw [this]
    have : (b.moved m).law.id = b.law.id := rfl
    rw [this]
    split_ifs with h
    · simp [Group.moved, Bar.moved]
    · simp [ih]

theorem groupBars_moved (m : Motion) (bars : List Bar) :
    groupBars (bars.map (Bar.moved m)) = (groupBars bars).map (Group.moved m) := by
  unfold groupBars
  suffices H : ∀ d : List Group, (bars.map (Bar.moved m)).foldl insertBar (d.map (Group.moved m)) =
      (bars.foldl insertBar d).map (Group.moved m) from H []
  induction bars with
  | nil => intro d; rfl
  | cons b bars ih =>
    intro d
    simp only [List.map_cons, List.foldl_cons, insertBar_moved, ih]

theorem equalSizes_moved (m : Motion) {bars : List Bar} (h : EqualSizes (groupBars bars)) :
    EqualSizes (groupBars (bars.map (Bar.moved m))) := by
  rw [groupBars_moved]
  intro a ha b hb
  obtain ⟨a, ha', rfl⟩ := List.mem_map.1 ha
  obtain ⟨b, hb', rfl⟩ := List.mem_map.1 hb
  simpa [Group.moved] using h a ha' b hb'

theorem plane_axis (m : Motion) (e c th : ℝ) : m.plane ![e, c * Real.cos th, c * Real.sin th] =
    ![e - c * height (m.inclination th) m.shift, c * Real.cos (m.inclination th), c * Real.sin (m.inclination th)] := by
  simp only [Motion.plane, Matrix.cons_val, m.turn_axis, height]
  congr 1
  ring

/-- The axial load check depends on the section and the load only. -/
theorem check_any {E : Engine} {base : ℝ → Except PyErr (List Group)} (hE : E.Lawful base) {n : ℝ} {s s' : CalcState}
    (hs : Canonical E base s) (hs' : Canonical E base s') (h : (checkAxialLoad E n s').2 = .ok ()) :
    (checkAxialLoad E n s).2 = .ok () := by
  have h1 := (limits_canonical hE hs).1
  have h2 := (limits_canonical hE hs').1
  simp only [checkAxialLoad, CalcM.bind_def] at h ⊢
  rcases hl : limits E s with ⟨t, r⟩
  rcases hl' : limits E s' with ⟨t', r'⟩
  rw [hl] at h1
  rw [hl'] at h2 h
  simp only at h1 h2
  rw [← h2] at h1
  subst h1
  cases r with
  | error er => simp at h
  | ok l =>
    simp only at h ⊢
    split_ifs at h ⊢ with hc
    · simp [liftE] at h
    · simp [CalcM.pure_def]

theorem search_range {N : ℝ → ℝ → ℝ} {n yn yp : ℝ} {st : Fin 3 → ℝ} (hsteep : st 1 ≤ -1e-13) {e c : ℝ} {k : ℕ}
    (h : fixedPivotFrom N n yn yp st = some (.ok (e, c, 0), k)) : c < 0 := by
  have hpos : (0:ℝ) < 1e-13 := by norm_num
  obtain ⟨-, hcase⟩ := fixedPivotFrom_spec _ n yn yp st e c 0 k h
  rcases hcase with ⟨-, rfl, -⟩ | ⟨y, -, -, ⟨t, ht, rfl⟩, -⟩
  · linarith
  · obtain ⟨t0, t1⟩ := ht.mem_Icc
    have h2 : t * (-1e-13 - st 1) ≤ 1 * (-1e-13 - st 1) := mul_le_mul_of_nonneg_right t1 (by linarith)
    linarith

/-- Two calculators whose sections correspond under a rigid motion give corresponding results. -/
theorem bending_transport (m : Motion) {th n : ℝ} {E E' : Engine} {base base' : ℝ → Except PyErr (List Group)}
    (hE : E.Lawful base) (hE' : E'.Lawful base') {D D' : List Group} (hD : base E.meshSize = .ok D) (hD' : base' E'.meshSize = .ok D')
    {S S' : CrossSection} (hA : E.Answers D S th) (hA' : E'.Answers D' S' (m.inclination th))
    {yn yp : ℝ} {st : Fin 3 → ℝ} (hb : E.balanced (-th) false = .ok (yn, yp, st))
    (hb' : E'.balanced (-m.inclination th) false = .ok (yn + height (m.inclination th) m.shift, yp + height (m.inclination th) m.shift,
      ![st 0 - st 1 * height (m.inclination th) m.shift, st 1, 0]))
    (hst2 : st 2 = 0) (hsteep : st 1 ≤ -1e-13)
    (hF : ∀ e c, c < 0 → S'.forces (m.plane ![e, c * Real.cos th, c * Real.sin th]) =
      m.forces (S.forces ![e, c * Real.cos th, c * Real.sin th]))
    {s s' : CalcState} (hs : Canonical E base s) (hs' : Canonical E' base' s')
    (hc : (checkAxialLoad E n s).2 = .ok ()) (hc' : (checkAxialLoad E' n s').2 = .ok ()) :
    (∀ b, (bendingStrength E th n s).2 = .ok b → (bendingStrength E' (m.inclination th) n s').2 = .ok (b.moved m)) ∧
    ∀ b', (bendingStrength E' (m.inclination th) n s').2 = .ok b' →
      ∃ b, (bendingStrength E th n s).2 = .ok b ∧ b' = b.moved m := by
  have hpos : (0:ℝ) < 1e-13 := by norm_num
  set t := height (m.inclination th) m.shift with ht
  have hneg : st 1 < 0 := by linarith
  have hrun : fixedPivotFrom (fun e c => S'.forces ![e, c * Real.cos (m.inclination th), c * Real.sin (m.inclination th)] 0) n
      (yn + t) (yp + t) ![st 0 - st 1 * t, st 1, 0] =
      (fixedPivotFrom (fun e c => S.forces ![e, c * Real.cos th, c * Real.sin th] 0) n yn yp st).map fun r =>
        (r.1.map fun v => (v.1 - v.2.1 * t, v.2.1, v.2.2), r.2) := by
    rw [fixedPivotFrom_raise]
    congr 1
    refine fixedPivotFrom_congr (fun e c hc => ?_) hneg n yn yp
    have := congrFun (hF e c hc) 0
    rw [plane_axis] at this
    simpa [Motion.forces] using this
  -- the result of the moved section, once the search of the section is known
  have key : ∀ (b : BendingResult) (e c : ℝ) (k : ℕ), fixedPivotFrom (fun e c => S.forces ![e, c * Real.cos th, c * Real.sin th] 0) n yn yp st =
        some (.ok (e, c, 0), k) → b.eps_a = e → b.chi = (c * Real.cos th, c * Real.sin th) →
      S.forces ![b.eps_a, b.chi.1, b.chi.2] = ![b.n, b.m.1, b.m.2] →
      ∀ b', (bendingStrength E' (m.inclination th) n s').2 = .ok b' → b' = b.moved m := by
    intro b e c k h1 h2 h3 h4 b' hb2
    obtain ⟨e', c', k', g1, g2, g3, g4⟩ := bending_spec hE' hD' hA' hs' hb' hneg (Prod.ext rfl hb2)
    rw [hrun, h1] at g1
    simp only [Option.map_some, Except.map, Option.some.injEq, Prod.mk.injEq, Except.ok.injEq, and_true] at g1
    obtain ⟨⟨rfl, rfl⟩, -⟩ := g1
    have hcneg := search_range hsteep h1
    have hpl : m.plane ![b.eps_a, b.chi.1, b.chi.2] = ![b'.eps_a, b'.chi.1, b'.chi.2] := by
      rw [h2, h3, plane_axis, g2, g3]
    have hfo := g4 hcneg
    rw [← hpl, h2, h3] at hfo
    rw [hF e c hcneg] at hfo
    rw [h2, h3] at h4
    rw [h4] at hfo
    have q0 := congrFun hfo 0
    have q1 := congrFun hfo 1
    have q2 := congrFun hfo 2
    obtain ⟨n', chi', eps', mm'⟩ := b'
    have p0 := congrFun hpl 0
    have p1 := congrFun hpl 1
    have p2 := congrFun hpl 2
    simp only [Matrix.cons_val] at q0 q1 q2 p0 p1 p2
    simp only [BendingResult.moved, BendingResult.mk.injEq, p0, p1, p2, q1, q2, Prod.mk.eta, and_true]
    rw [← q0]
    simp [Motion.forces]
  refine ⟨fun b hb1 => ?_, fun b' hb1 => ?_⟩
  · obtain ⟨e, c, k, h1, h2, h3, h4⟩ := bending_spec hE hD hA hs hb hneg (Prod.ext rfl hb1)
    have hcneg := search_range hsteep h1
    obtain ⟨b', hb2⟩ := bending_returns hE' hD' hA' hs' hb' hneg rfl hc' hcneg
      (e := e - c * t) (k := k) (by rw [hrun, h1]; rfl)
    rw [hb2, key b e c k h1 h2 h3 (h4 hcneg) b' hb2]
  · obtain ⟨e', c', k', g1, -⟩ := bending_spec hE' hD' hA' hs' hb' hneg (Prod.ext rfl hb1)
    rw [hrun] at g1
    rcases h1 : fixedPivotFrom (fun e c => S.forces ![e, c * Real.cos th, c * Real.sin th] 0) n yn yp st with _ | ⟨r, k⟩
    · rw [h1] at g1; simp at g1
    rw [h1] at g1
    simp only [Option.map_some, Option.some.injEq, Prod.mk.injEq] at g1
    obtain ⟨g1, -⟩ := g1
    rcases r with _ | ⟨e, c, z⟩
    · simp [Except.map] at g1
    simp only [Except.map, Except.ok.injEq, Prod.mk.injEq] at g1
    obtain ⟨-, -, rfl⟩ := g1
    obtain ⟨b, hb2⟩ := bending_returns hE hD hA hs hb hneg hst2 hc (search_range hsteep h1) h1
    obtain ⟨e2, c2, k2, h1', h2, h3, h4⟩ := bending_spec hE hD hA hs hb hneg (Prod.ext rfl hb2)
    exact ⟨b, hb2, key b e2 c2 k2 h1' h2 h3 (h4 (search_range hsteep h1')) b' hb1⟩

/-- Without a balanced failure state no strength is returned. -/
theorem bending_balanced {E : Engine} {th n : ℝ} {s : CalcState}
    {b : BendingResult} (h : (bendingStrength E th n s).2 = .ok b) :
    ∃ yn yp st, E.balanced (-th) false = .ok (yn, yp, st) := by
  obtain ⟨s1, _, hc, h⟩ := CalcM.bind_eq_ok (Prod.ext rfl h : bendingStrength E th n s = (_, .ok b))
  obtain ⟨s2, _, hr, h⟩ := CalcM.bind_eq_ok h
  obtain ⟨s3, v, hp, h⟩ := CalcM.bind_eq_ok h
  obtain ⟨s6, ⟨yn, yp, st⟩, hb, hp⟩ := CalcM.bind_eq_ok hp
  simp only [liftE, Prod.mk.injEq] at hb
  exact ⟨yn, yp, st, hb.2⟩

/-- **C72**: moving a section (turning, shifting, mirroring) moves its strength.  If both the section and the moved section accept the
axial force, `calculate_bending_strength` of the moved section about the moved axis returns exactly the moved result of the section,
and nothing else. -/
theorem C72_strength (split : Polygon → ℝ → ℝ → ShapelyResult) (solids : List Solid) (bars : List Bar) (ms th n : ℝ) (m : Motion)
    (lu lu' : Matrix (Fin 3) (Fin 3) ℝ → (Fin 3 → ℝ) → (Fin 3 → ℝ)) (ops ops' : List Op)
    (hid : SameIds (bars.map Bar.law)) (hd : EqualSizes (groupBars bars))
    (hg : ∀ s ∈ solids, MeasurableSet s.spec.region ∧ ∀ e chi, chi < 0 → (s.spec.turn (-th)).Good split .stress ![e, chi, 0])
    (hg' : ∀ s ∈ solids.map (Solid.moved m), MeasurableSet s.spec.region ∧
      ∀ e chi, chi < 0 → (s.spec.turn (-m.inclination th)).Good split .stress ![e, chi, 0])
    (hlim : ∀ c ∈ (crossSection solids bars).corners, c.2.1 ≤ 0 ∧ 0 ≤ c.2.2)
    (hflat : ∀ c ∈ (crossSection solids bars).corners, ∀ d ∈ (crossSection solids bars).corners,
      1e-13 * (height th d.1 - height th c.1) ≤ c.2.2 - d.2.1)
    (hops : Undisturbed (sectionEngine split solids bars ms) lu ops .fresh)
    (hops' : Undisturbed (sectionEngine split (solids.map (Solid.moved m)) (bars.map (Bar.moved m)) ms) lu' ops' .fresh)
    (hc : (checkAxialLoad (sectionEngine split solids bars ms) n .fresh).2 = .ok ())
    (hc' : (checkAxialLoad (sectionEngine split (solids.map (Solid.moved m)) (bars.map (Bar.moved m)) ms) n .fresh).2 = .ok ()) :
    (∀ b, (bendingStrength (sectionEngine split solids bars ms) th n
        (history (sectionEngine split solids bars ms) lu ops .fresh)).2 = .ok b →
      (bendingStrength (sectionEngine split (solids.map (Solid.moved m)) (bars.map (Bar.moved m)) ms) (m.inclination th) n
        (history (sectionEngine split (solids.map (Solid.moved m)) (bars.map (Bar.moved m)) ms) lu' ops' .fresh)).2 =
          .ok (b.moved m)) ∧
    ∀ b', (bendingStrength (sectionEngine split (solids.map (Solid.moved m)) (bars.map (Bar.moved m)) ms) (m.inclination th) n
        (history (sectionEngine split (solids.map (Solid.moved m)) (bars.map (Bar.moved m)) ms) lu' ops' .fresh)).2 = .ok b' →
      ∃ b, (bendingStrength (sectionEngine split solids bars ms) th n
        (history (sectionEngine split solids bars ms) lu ops .fresh)).2 = .ok b ∧ b' = b.moved m := by
  have hne : ∀ s ∈ solids, s.spec.surf.polygon.ext ≠ [] := by
    intro s hs h
    have := ((hg s hs).2 0 (-1) (by norm_num)).encloses.ext_proper.2
    simp only [SurfSpec.turn, Polygon.rotate, h] at this
    apply this
    simp [signedMoment, Spec.edges]
  set E := sectionEngine split solids bars ms with hEdef
  set E' := sectionEngine split (solids.map (Solid.moved m)) (bars.map (Bar.moved m)) ms with hEdef'
  have hE : E.Lawful fun _ => .ok (groupBars bars) := marinEngine_lawful _ _ _ _ _ _
  have hE' : E'.Lawful fun _ => .ok (groupBars (bars.map (Bar.moved m))) := marinEngine_lawful _ _ _ _ _ _
  have hs := canonical_history lu hE rfl ops _ .fresh hops
  have hs' := canonical_history lu' hE' rfl ops' _ .fresh hops'
  have hA : E.Answers (groupBars bars) (crossSection solids bars) th := marin_answers split solids bars ms th hid hd hg
  have hid' : SameIds ((bars.map (Bar.moved m)).map Bar.law) := by
    rw [List.map_map]; exact hid
  have hA' := marin_answers split (solids.map (Solid.moved m)) (bars.map (Bar.moved m)) ms (m.inclination th) hid'
    (equalSizes_moved m hd) hg'
  rw [← hEdef', crossSection_moved] at hA'
  have hany : (solids.map (Solid.moved m)).any Solid.concrete = solids.any Solid.concrete := by
    rw [List.any_map]; rfl
  have hbal : ∀ yn yp st, E.balanced (-th) false = .ok (yn, yp, st) → st 2 = 0 ∧ st 1 ≤ -1e-13 := by
    intro yn yp st h
    have h : balancedFailure (sectionParts solids bars (-th)) (solids.any Solid.concrete) false = .ok (yn, yp, st) := h
    refine ⟨?_, steep_balanced hne hlim hflat h⟩
    refine (C22_balanced _ _ _ ?_ ?_ _ _ _ h).2.2.2
    · intro g hg'
      obtain ⟨c, hc, -, h2⟩ := (part_corner hne hg').1
      rw [compressionLimit_ultimate, ← h2]
      exact (hlim c hc).1
    · intro g hg'
      obtain ⟨c, hc, -, h2⟩ := (part_corner hne hg').1
      rw [tensionLimit, ← h2]
      exact (hlim c hc).2
  have hraise : E'.balanced (-m.inclination th) false = (E.balanced (-th) false).map fun r =>
      (r.1 + height (m.inclination th) m.shift, r.2.1 + height (m.inclination th) m.shift,
        ![r.2.2 0 - r.2.2 1 * height (m.inclination th) m.shift, r.2.2 1, 0]) := by
    change balancedFailure (sectionParts (solids.map (Solid.moved m)) (bars.map (Bar.moved m)) (-m.inclination th))
      ((solids.map (Solid.moved m)).any Solid.concrete) false = _
    rw [hany, sectionParts_moved m solids bars th hne, balancedFailure_raise]
    rfl
  have hF : ∀ e c, c < 0 → ((crossSection solids bars).moved m).forces (m.plane ![e, c * Real.cos th, c * Real.sin th]) =
      m.forces ((crossSection solids bars).forces ![e, c * Real.cos th, c * Real.sin th]) := by
    intro e c hc
    refine moved_forces m _ _ ?_ ?_
    · intro p hp
      obtain ⟨q, hq, rfl⟩ := List.mem_map.1 hp
      exact (hg q hq).1
    · intro p hp i
      obtain ⟨q, hq, rfl⟩ := List.mem_map.1 hp
      have := turn_integrable (hg q hq).1 ((hg q hq).2 e c hc) i
      simpa [rotPt, mul_comm] using this
  have go := fun yn yp st h => bending_transport m (n := n) hE hE' rfl rfl hA hA' h
    (by rw [hraise, h]; rfl) (hbal yn yp st h).1 (hbal yn yp st h).2 hF hs hs' (check_any hE hs .fresh hc) (check_any hE' hs' .fresh hc')
  refine ⟨fun b hb => ?_, fun b' hb => ?_⟩
  · obtain ⟨yn, yp, st, h⟩ := bending_balanced hb
    exact (go yn yp st h).1 b hb
  · obtain ⟨yn, yp, st, h⟩ := bending_balanced hb
    rw [hraise] at h
    rcases h0 : E.balanced (-th) false with er | ⟨yn0, yp0, st0⟩
    · rw [h0] at h; simp [Except.map] at h
    · exact (go yn0 yp0 st0 h0).2 b' hb

end SC
