import Verif.Lemmas.Calculator
import Verif.Props.Equilibrium

/-! # C27, C28: the state of a section calculator -/

set_option autoImplicit false

namespace SC

open Spec

section
variable {E : Engine} {base : ℝ → Except PyErr (List Group)}
  (lu : Matrix (Fin 3) (Fin 3) ℝ → (Fin 3 → ℝ) → (Fin 3 → ℝ))

theorem clean_integrateAll (hE : E.Lawful base) (m : ℝ) (hm : base m = base E.meshSize) :
    ∀ l, Clean E base (integrateAll E m l)
  | [] => Clean.pure _
  | _ :: l => (clean_call hE _ _ _ hm).bind fun _ => (clean_integrateAll hE m hm l).bind fun _ =>
      Clean.pure _

theorem cleanOk_bending (hE : E.Lawful base) (th n : ℝ) :
    CleanOk E base (bendingStrength E th n) := by
  have hf : Frozen (do
      let strain ← pivotM E (-th) n false
      let r ← call E (-th) strain .stress defaultMesh false
      pure (strain, r) : CalcM ((Fin 3 → ℝ) × Response)) :=
    (frozen_pivot _ _ _).bind fun _ => (frozen_call _ _ _ _ _).bind fun _ => Frozen.pure _
  have := check_then hE n (rotateData (-th) >>= fun _ => (do
      let strain ← pivotM E (-th) n false
      let r ← call E (-th) strain .stress defaultMesh false
      pure (strain, r) : CalcM ((Fin 3 → ℝ) × Response)) >>= fun a => rotateData th >>= fun _ => pure a)
    (fun D L _ _ a ha => sandwich th _ hf D (some L) a ha)
  have h2 := this.bind (f := fun p => pure (⟨p.2.N, rot2 th (p.1 1, p.1 2), p.1 0, rot2 th p.2.M⟩ :
    BendingResult)) fun _ => (Clean.pure _).ok
  have heq : bendingStrength E th n = ((checkAxialLoad E n >>= fun _ => rotateData (-th) >>= fun _ => (do
      let strain ← pivotM E (-th) n false
      let r ← call E (-th) strain .stress defaultMesh false
      pure (strain, r) : CalcM ((Fin 3 → ℝ) × Response)) >>= fun a => rotateData th >>= fun _ => pure a)
      >>= fun p => pure (⟨p.2.N, rot2 th (p.1 1, p.1 2), p.1 0, rot2 th p.2.M⟩ : BendingResult)) := by
    simp [bendingStrength]
  rw [heq]
  exact h2

/-- The default grid, computed between the two rotations. -/
theorem cleanOk_momentCurvature (hE : E.Lawful base) (th n c : ℝ) (a b : ℕ)
    (chi : Option (List ℝ)) : CleanOk E base (momentCurvature E th n c a b chi) := by
  let grid : CalcM (List ℝ) := match chi with
    | some l => pure l
    | none => do
      let su ← pivotM E (-th) n false
      let sy ← pivotM E (-th) n true
      if su 1 * sy 1 < 0 then liftE (.error .valueError)
      else pure (curvatureGrid c (sy 1) (su 1) a b)
  have hg : Frozen grid := by
    cases chi with
    | some l => exact Frozen.pure _
    | none =>
      refine (frozen_pivot _ _ _).bind fun su => (frozen_pivot _ _ _).bind fun sy => ?_
      split_ifs
      · exact Frozen.lift _
      · exact Frozen.pure _
  have hf : Frozen (grid >>= fun g => mcLoop E th n 0 g) := hg.bind fun _ => frozen_mcLoop _ _ _ _
  have := check_then hE n (rotateData (-th) >>= fun _ => (grid >>= fun g => mcLoop E th n 0 g) >>=
      fun a => rotateData th >>= fun _ => pure a)
    (fun D L _ _ a ha => sandwich th _ hf D (some L) a ha)
  have heq : momentCurvature E th n c a b chi = (checkAxialLoad E n >>= fun _ =>
      rotateData (-th) >>= fun _ => (grid >>= fun g => mcLoop E th n 0 g) >>=
      fun a => rotateData th >>= fun _ => pure a) := by
    simp only [momentCurvature, bind_assoc]
    rfl
  rw [heq]
  exact this

theorem cleanOk_mm (hE : E.Lawful base) (n : ℝ) : ∀ l, CleanOk E base (mmDomain E n l)
  | [] => (Clean.pure _).ok
  | th :: l => (cleanOk_bending hE th n).bind fun _ => (cleanOk_mm hE n l).bind fun _ =>
      (Clean.pure _).ok

theorem clean_pivot (hE : E.Lawful base) (n : ℝ) (y : Bool) : Clean E base (pivotM E 0 n y) :=
  (Clean.lift _).bind fun b => clean_call_then hE _ _ _ rfl _

theorem clean_curvature (hE : E.Lawful base) (hm : base defaultMesh = base E.meshSize)
    (n c e : ℝ) : Clean E base (curvatureM E 0 n c e) :=
  clean_call_then hE _ _ _ hm _

theorem clean_strainProfile (hE : E.Lawful base) (hm : base defaultMesh = base E.meshSize)
    (loads : Fin 3 → ℝ) (i : Bool) (mx : ℤ) (tol : ℝ) :
    Clean E base (strainProfileM E lu loads i mx tol) :=
  clean_call_then hE _ _ _ hm _

/-- The methods that rotate the cached data. -/
def Op.rotates : Op → Bool
  | .bending .. | .momentCurvature .. | .mm .. => true
  | _ => false

theorem clean_op (hE : E.Lawful base) (hm : base defaultMesh = base E.meshSize) (op : Op)
    (hr : op.rotates = false) : Clean E base (op.run E lu) := by
  cases op with
  | limitAxialLoad => exact (clean_limitAxialLoad hE).bind fun _ => Clean.pure _
  | limits => exact (clean_limits hE).bind fun _ => Clean.pure _
  | integrate e w => exact (clean_call hE _ _ _ rfl).bind fun _ => Clean.pure _
  | nm p =>
    exact ((Clean.lift _).bind fun _ => clean_integrateAll hE _ rfl _).bind fun _ => Clean.pure _
  | nmm p =>
    exact ((Clean.lift _).bind fun _ => clean_integrateAll hE _ hm _).bind fun _ => Clean.pure _
  | strainProfile l i m t => exact (clean_strainProfile lu hE hm l i m t).bind fun _ => Clean.pure _
  | fixedPivot n y => exact (clean_pivot hE n y).bind fun _ => Clean.pure _
  | fixedCurvature n c e => exact (clean_curvature hE hm n c e).bind fun _ => Clean.pure _
  | bending th n => cases hr
  | momentCurvature th n c a b chi => cases hr
  | mm n l => cases hr

theorem cleanOk_op (hE : E.Lawful base) (hm : base defaultMesh = base E.meshSize) (op : Op) :
    CleanOk E base (op.run E lu) := by
  by_cases hr : op.rotates = false
  · exact (clean_op lu hE hm op hr).ok
  · cases op with
    | bending th n => exact (cleanOk_bending hE th n).bind fun _ => (Clean.pure _).ok
    | momentCurvature th n c a b chi =>
      exact (cleanOk_momentCurvature hE th n c a b chi).bind fun _ => (Clean.pure _).ok
    | mm n l => exact (cleanOk_mm hE n l).bind fun _ => (Clean.pure _).ok
    | _ => exact absurd rfl hr

/-- Every call of the history that rotates the cached data returned (did not raise). -/
def Undisturbed (E : Engine) (lu : Matrix (Fin 3) (Fin 3) ℝ → (Fin 3 → ℝ) → (Fin 3 → ℝ)) :
    List Op → CalcState → Prop
  | [], _ => True
  | op :: ops, s => (op.rotates = true → ∃ a, (op.run E lu s).2 = .ok a) ∧
      Undisturbed E lu ops (op.run E lu s).1

theorem canonical_history (hE : E.Lawful base) (hm : base defaultMesh = base E.meshSize)
    (ops : List Op) : ∀ s, Canonical E base s → Undisturbed E lu ops s →
      Canonical E base (history E lu ops s) := by
  induction ops with
  | nil => intro s hs _; exact hs
  | cons op ops ih =>
    rintro s hs ⟨h1, h2⟩
    refine ih _ ?_ h2
    by_cases hr : op.rotates = false
    · exact (clean_op lu hE hm op hr s hs).2
    · obtain ⟨a, ha⟩ := h1 (by simpa using hr)
      exact (cleanOk_op lu hE hm op s hs).2 a ha

/-- **C27** (partial: histories in which no rotating call raised, and `mesh_size` equal to the
default or irrelevant).  After any sequence of public calls, the next call gives the same result
or exception as on a new calculator. -/
theorem C27_history_partial (hE : E.Lawful base) (hm : base defaultMesh = base E.meshSize)
    (ops : List Op) (hops : Undisturbed E lu ops .fresh) (op : Op) :
    (op.run E lu (history E lu ops .fresh)).2 = (op.run E lu .fresh).2 :=
  (cleanOk_op lu hE hm op _ (canonical_history lu hE hm ops _ .fresh hops)).1

/-- The restriction on histories is only about calls that raise *after* the axial load was
accepted: a rotating call rejected by the axial load check leaves a usable calculator. -/
theorem C27_rejected_load (hE : E.Lawful base) (n : ℝ) (s : CalcState) (hs : Canonical E base s)
    (hrej : ∃ e, (checkAxialLoad E n s).2 = .error e) (th : ℝ) :
    Canonical E base (bendingStrength E th n s).1 := by
  obtain ⟨e, he⟩ := hrej
  rcases hc : checkAxialLoad E n s with ⟨s', r⟩
  rw [hc] at he
  simp only at he
  subst he
  rw [bendingStrength, CalcM.bind_error hc]
  have h1 := (clean_limits hE s hs).2
  have h2 : s' = (limits E s).1 := by
    simp only [checkAxialLoad, CalcM.bind_def] at hc
    rcases hl : limits E s with ⟨s'', r⟩
    rw [hl] at hc
    cases r with
    | error e => simp only [Prod.mk.injEq] at hc; exact hc.1.symm
    | ok l =>
      simp only at hc
      split_ifs at hc
      · simp only [liftE, Prod.mk.injEq] at hc; exact hc.1.symm
      · simp [CalcM.pure_def] at hc
  rw [h2]
  exact h1

end

/-! ### Both integrators -/

/-- **C27** for a section with the Marin integrator: any `mesh_size`. -/
theorem C27_marin_partial (split : Polygon → ℝ → ℝ → ShapelyResult) (surfs : List Surf)
    (surfParts : ℝ → List Part) (bars : List Bar) (rc : Bool) (ms : ℝ)
    (lu : Matrix (Fin 3) (Fin 3) ℝ → (Fin 3 → ℝ) → (Fin 3 → ℝ)) (ops : List Op)
    (hops : Undisturbed (marinEngine split surfs surfParts bars rc ms) lu ops .fresh) (op : Op) :
    (op.run (marinEngine split surfs surfParts bars rc ms) lu
        (history (marinEngine split surfs surfParts bars rc ms) lu ops .fresh)).2 =
      (op.run (marinEngine split surfs surfParts bars rc ms) lu .fresh).2 :=
  C27_history_partial lu (marinEngine_lawful split surfs surfParts bars rc ms) rfl ops hops op

/-- **C27** for a section with the fiber integrator and the default `mesh_size`, or one at which
the mesher gives the same triangulation. -/
theorem C27_fiber_partial (surfs : ℝ → List MeshSurf) (surfParts : ℝ → List Part) (bars : List Bar)
    (rc : Bool) (ms : ℝ) (hms : triangulate (surfs 0) bars defaultMesh = triangulate (surfs 0) bars ms)
    (lu : Matrix (Fin 3) (Fin 3) ℝ → (Fin 3 → ℝ) → (Fin 3 → ℝ)) (ops : List Op)
    (hops : Undisturbed (fiberEngine surfs surfParts bars rc ms) lu ops .fresh) (op : Op) :
    (op.run (fiberEngine surfs surfParts bars rc ms) lu
        (history (fiberEngine surfs surfParts bars rc ms) lu ops .fresh)).2 =
      (op.run (fiberEngine surfs surfParts bars rc ms) lu .fresh).2 :=
  C27_history_partial lu (fiberEngine_lawful surfs surfParts bars rc ms) hms ops hops op

/-! ### C28 -/

section
variable {E : Engine}

/-- Once the limits are cached they stay. -/
def KeepsLim {α : Type} (m : CalcM α) : Prop := ∀ s L, s.lim = some L → (m s).1.lim = some L

theorem KeepsLim.pure {α : Type} (a : α) : KeepsLim (Pure.pure a : CalcM α) := fun _ _ h => h
theorem KeepsLim.lift {α : Type} (r : Except PyErr α) : KeepsLim (liftE r) := fun _ _ h => h
theorem KeepsLim.data {α : Type} (g : Option (List Group) → Except PyErr α) :
    KeepsLim (withData g) := fun _ _ h => h
theorem KeepsLim.rotate (a : ℝ) : KeepsLim (rotateData a) := fun _ _ h => h

theorem KeepsLim.bind {α β : Type} {m : CalcM α} {f : α → CalcM β} (hm : KeepsLim m)
    (hf : ∀ a, KeepsLim (f a)) : KeepsLim (m >>= f) := by
  intro s L h
  rw [CalcM.bind_def]
  have h1 := hm s L h
  rcases hms : m s with ⟨s', r⟩
  rw [hms] at h1
  cases r with
  | error e => exact h1
  | ok a => exact hf a s' L h1

theorem KeepsLim.call (a : ℝ) (e : Fin 3 → ℝ) (w : IntegrateArg) (m : ℝ) (c : Bool) :
    KeepsLim (SC.call E a e w m c) := by
  intro s L h
  simp only [SC.call]
  cases E.integ a e w s.data m with
  | error x => exact h
  | ok x =>
    simp only
    split_ifs <;> exact h

theorem keepsLim_limitAxialLoad : KeepsLim (limitAxialLoad E) := by
  intro s L h
  simp only [limitAxialLoad]
  cases E.balanced 0 false with
  | error x => exact h
  | ok x =>
    simp only
    cases E.integ 0 ![x.2.2 0 + x.2.2 1 * x.1, 0, 0] .stress s.data E.meshSize with
    | error y => exact h
    | ok y =>
      simp only
      cases E.integ 0 ![x.2.2 0 + x.2.2 1 * x.2.1, 0, 0] .stress (some y.2) defaultMesh with
      | error z => exact h
      | ok z => simp only; split_ifs <;> exact h

theorem keepsLim_limits : KeepsLim (limits E) := by
  intro s L h
  simp [limits, h]

theorem keepsLim_check (n : ℝ) : KeepsLim (checkAxialLoad E n) := by
  refine keepsLim_limits.bind fun l => ?_
  split_ifs
  · exact KeepsLim.lift _
  · exact KeepsLim.pure _

theorem keepsLim_pivot (a n : ℝ) (y : Bool) : KeepsLim (pivotM E a n y) :=
  (KeepsLim.lift _).bind fun _ => (KeepsLim.call _ _ _ _ _).bind fun _ => KeepsLim.data _

theorem keepsLim_curvature (a n c e : ℝ) : KeepsLim (curvatureM E a n c e) :=
  (KeepsLim.call _ _ _ _ _).bind fun _ => KeepsLim.data _

theorem keepsLim_bending (th n : ℝ) : KeepsLim (bendingStrength E th n) :=
  (keepsLim_check n).bind fun _ => (KeepsLim.rotate _).bind fun _ => (keepsLim_pivot _ _ _).bind
    fun _ => (KeepsLim.call _ _ _ _ _).bind fun _ => (KeepsLim.rotate _).bind fun _ => KeepsLim.pure _

theorem keepsLim_mcLoop (th n : ℝ) : ∀ (l : List ℝ) (e : ℝ), KeepsLim (mcLoop E th n e l)
  | [], _ => KeepsLim.pure _
  | _ :: l, _ => (keepsLim_curvature _ _ _ _).bind fun _ => (KeepsLim.call _ _ _ _ _).bind fun _ =>
      (keepsLim_mcLoop th n l _).bind fun _ => KeepsLim.pure _

theorem keepsLim_momentCurvature (th n c : ℝ) (a b : ℕ) (chi : Option (List ℝ)) :
    KeepsLim (momentCurvature E th n c a b chi) := by
  refine (keepsLim_check n).bind fun _ => (KeepsLim.rotate _).bind fun _ => KeepsLim.bind ?_
    fun _ => (keepsLim_mcLoop _ _ _ _).bind fun _ => (KeepsLim.rotate _).bind fun _ => KeepsLim.pure _
  cases chi with
  | some l => exact KeepsLim.pure _
  | none =>
    refine (keepsLim_pivot _ _ _).bind fun su => (keepsLim_pivot _ _ _).bind fun sy => ?_
    split_ifs
    · exact KeepsLim.lift _
    · exact KeepsLim.pure _

theorem keepsLim_integrateAll (m : ℝ) : ∀ l, KeepsLim (integrateAll E m l)
  | [] => KeepsLim.pure _
  | _ :: l => (KeepsLim.call _ _ _ _ _).bind fun _ => (keepsLim_integrateAll m l).bind fun _ =>
      KeepsLim.pure _

theorem keepsLim_mm (n : ℝ) : ∀ l, KeepsLim (mmDomain E n l)
  | [] => KeepsLim.pure _
  | th :: l => (keepsLim_bending th n).bind fun _ => (keepsLim_mm n l).bind fun _ => KeepsLim.pure _

theorem keepsLim_op (lu : Matrix (Fin 3) (Fin 3) ℝ → (Fin 3 → ℝ) → (Fin 3 → ℝ)) (op : Op) :
    KeepsLim (op.run E lu) := by
  cases op with
  | limitAxialLoad => exact keepsLim_limitAxialLoad.bind fun _ => KeepsLim.pure _
  | limits => exact keepsLim_limits.bind fun _ => KeepsLim.pure _
  | integrate e w => exact (KeepsLim.call _ _ _ _ _).bind fun _ => KeepsLim.pure _
  | bending th n => exact (keepsLim_bending th n).bind fun _ => KeepsLim.pure _
  | momentCurvature th n c a b chi =>
    exact (keepsLim_momentCurvature th n c a b chi).bind fun _ => KeepsLim.pure _
  | nm p => exact ((KeepsLim.lift _).bind fun _ => keepsLim_integrateAll _ _).bind fun _ => KeepsLim.pure _
  | nmm p => exact ((KeepsLim.lift _).bind fun _ => keepsLim_integrateAll _ _).bind fun _ => KeepsLim.pure _
  | mm n l => exact (keepsLim_mm n l).bind fun _ => KeepsLim.pure _
  | strainProfile l i m t =>
    exact ((KeepsLim.call _ _ _ _ _).bind fun _ => KeepsLim.data _).bind fun _ => KeepsLim.pure _
  | fixedPivot n y => exact (keepsLim_pivot _ _ _).bind fun _ => KeepsLim.pure _
  | fixedCurvature n c e => exact (keepsLim_curvature _ _ _ _).bind fun _ => KeepsLim.pure _

/-- **C28** (constancy). Once `n_min`, `n_max` have been computed, every later reading gives the
same pair, after any sequence of calls, also ones that raised, for every integrator. -/
theorem C28_limits_constant (lu : Matrix (Fin 3) (Fin 3) ℝ → (Fin 3 → ℝ) → (Fin 3 → ℝ))
    (s s1 : CalcState) (L : ℝ × ℝ) (h : limits E s = (s1, .ok L)) (ops : List Op) :
    (limits E (history E lu ops s1)).2 = .ok L := by
  have h1 : s1.lim = some L := by
    simp only [limits] at h
    cases hl : s.lim with
    | some l =>
      simp only [hl, Prod.mk.injEq, Except.ok.injEq] at h
      rw [← h.1, ← h.2, hl]
    | none =>
      rcases hm : limitAxialLoad E s with ⟨s', r⟩
      simp only [hl, hm] at h
      cases r with
      | error e => simp at h
      | ok l =>
        simp only [Prod.mk.injEq, Except.ok.injEq] at h
        rw [← h.1, ← h.2]
  have h2 : ∀ (ops : List Op) (s : CalcState), s.lim = some L → (history E lu ops s).lim = some L := by
    intro ops
    induction ops with
    | nil => intro s hs; exact hs
    | cons op ops ih => intro s hs; exact ih _ (keepsLim_op lu op s L hs)
  simp [limits, h2 ops s1 h1]

/-- **C28** (gate). Outside the limits both strength calculations raise `ValueError`, and the only
effect on the calculator is that of reading the limits (in particular no data is rotated). -/
theorem C28_gate_rejects (s s1 : CalcState) (L : ℝ × ℝ) (h : limits E s = (s1, .ok L)) (n : ℝ)
    (hn : n < L.1 ∨ L.2 < n) (th c : ℝ) (a b : ℕ) (chi : Option (List ℝ)) :
    bendingStrength E th n s = (s1, .error .valueError) ∧
    momentCurvature E th n c a b chi s = (s1, .error .valueError) := by
  have hc : checkAxialLoad E n s = (s1, .error .valueError) := by
    rw [checkAxialLoad, CalcM.bind_ok h, if_pos hn]
    rfl
  exact ⟨by rw [bendingStrength, CalcM.bind_error hc], by rw [momentCurvature.eq_def, CalcM.bind_error hc]⟩

/-- **C28** (gate). Within the limits the check passes. -/
theorem C28_gate_accepts (s s1 : CalcState) (L : ℝ × ℝ) (h : limits E s = (s1, .ok L)) (n : ℝ)
    (hn : L.1 ≤ n ∧ n ≤ L.2) : checkAxialLoad E n s = (s1, .ok ()) := by
  rw [checkAxialLoad, CalcM.bind_ok h, if_neg (by push Not; exact hn)]
  rfl

/-- When the limits themselves cannot be computed, both calculations raise that exception and the
calculator is unchanged. -/
theorem C28_no_limits (s s1 : CalcState) (e : PyErr) (h : limits E s = (s1, .error e)) (n : ℝ)
    (th c : ℝ) (a b : ℕ) (chi : Option (List ℝ)) :
    s1 = s ∧ bendingStrength E th n s = (s, .error e) ∧
    momentCurvature E th n c a b chi s = (s, .error e) := by
  have hs : s1 = s := by
    simp only [limits] at h
    cases hl : s.lim with
    | some l => simp [hl] at h
    | none =>
      rcases hm : limitAxialLoad E s with ⟨s', r⟩
      simp only [hl, hm] at h
      cases r with
      | error e' =>
        simp only [Prod.mk.injEq] at h
        rw [← h.1]
        have := limitAxialLoad_error (E := E) (s := s) (er := e') (by rw [hm])
        rw [hm] at this
        exact this
      | ok l => simp at h
  subst hs
  have hc : checkAxialLoad E n s1 = (s1, .error e) := by
    rw [checkAxialLoad, CalcM.bind_error h]
  exact ⟨rfl, by rw [bendingStrength, CalcM.bind_error hc],
    by rw [momentCurvature.eq_def, CalcM.bind_error hc]⟩

end

/-! ### The full property is violated -/

/-- Elastic bar material, `E = 200000`, ultimate strains `±0.01`. -/
noncomputable def demoLaw : LawObj := ⟨0, (⟨200000, some (-(1 / 100), 1 / 100)⟩ : Elastic).law⟩

/-- Two bars of area 100, one above the other. -/
noncomputable def demoBars : List Bar := [⟨0, 1, 100, demoLaw⟩, ⟨0, -1, 100, demoLaw⟩]

/-- The section with these bars, with the fiber integrator. -/
noncomputable def demoEngine : Engine := fiberEngine (fun _ => []) (fun _ => []) demoBars false 0.01

/-- Its integration data. -/
noncomputable def demoData : List Group := [⟨[(0, 1, 100), (0, -1, 100)], demoLaw⟩]

theorem demo_triangulate (m : ℝ) (h0 : 0 < m) (h1 : m ≤ 1) :
    triangulate [] demoBars m = .ok demoData := by
  rw [triangulate, if_neg (by push Not; exact ⟨h0, h1⟩)]
  simp [demoBars, groupBars, insertBar, demoData]

theorem demo_forces (a : ℝ) (e : Fin 3 → ℝ) (d : List Group) (hd : d ≠ []) (m : ℝ) :
    demoEngine.integ a e .stress (some d) m =
      .ok (.forces (resultants (fibres Law.stress d) e), d) :=
  C18_forces [] (demoBars.map (Bar.rotate a)) d hd e m

theorem demo_balanced : demoEngine.balanced 0 false = .ok (1, -1, ![0, -(1 / 100), 0]) := by
  have h1 : demoLaw.law.ult false = (-(1 / 100), 1 / 100) := rfl
  simp only [demoEngine, fiberEngine, map_rotate_zero]
  simp only [demoBars, List.map_cons, List.map_nil,
    List.nil_append, balancedFailure, List.flatMap_cons, List.flatMap_nil, List.append_nil,
    List.cons_append, List.foldl_cons, List.foldl_nil, balStep, Bar.part, Part.posLimit,
    Part.negLimit, Bool.false_and, Bool.false_or, Bool.not_false, if_true, h1]
  norm_num

theorem demo_limits : ∃ L : ℝ × ℝ, L.1 < 0 ∧ 0 < L.2 ∧
    limits demoEngine .fresh = (⟨some demoData, some L⟩, .ok L) := by
  have hne : demoData ≠ [] := by simp [demoData]
  have hf : ∀ e m, 0 < m → m ≤ 1 → demoEngine.integ 0 e .stress none m =
      .ok (.forces (resultants (fibres Law.stress demoData) e), demoData) := by
    intro e m h0 h1
    have := (fiberEngine_lawful (fun _ => []) (fun _ => []) demoBars false 0.01).first e .stress m
    simp only [demo_triangulate m h0 h1] at this
    exact this.trans (demo_forces 0 e demoData hne m)
  have hN : ∀ x, resultants (fibres Law.stress demoData) ![x, 0, 0] 0 = 40000000 * x := by
    intro x
    have hs : ∀ y, demoLaw.law.stress y = 200000 * y := fun y => rfl
    simp only [resultants, fibres, demoData, List.flatMap_cons, List.flatMap_nil, List.map_cons,
      List.map_nil, List.append_nil, List.sum_cons, List.sum_nil, hs, planeStrain, lever,
      Matrix.cons_val]
    ring
  have hms : demoEngine.meshSize = 0.01 := rfl
  refine ⟨(40000000 * (0 + -(1 / 100) * 1), 40000000 * (0 + -(1 / 100) * -1)), by norm_num,
    by norm_num, ?_⟩
  simp only [limits, CalcState.fresh, limitAxialLoad, demo_balanced, hms]
  rw [hf _ _ (by norm_num) (by norm_num)]
  simp only
  rw [demo_forces 0 _ demoData hne]
  simp only [Response.N, hN, Matrix.cons_val, Option.isNone_none, if_true]

/-- **C27 is violated** by exceptions between the two rotations.  For two bars one above the other,
`calculate_bending_strength(theta=pi/2)` raises (the rotated section is a single layer), and leaves
the cached data rotated: the moment of the plane `[0, 0.001, 0]` is then 0 instead of 40000. -/
theorem C27_exception_violated (lu : Matrix (Fin 3) (Fin 3) ℝ → (Fin 3 → ℝ) → (Fin 3 → ℝ)) :
    (Op.run demoEngine lu (.bending (Real.pi / 2) 0) .fresh).2 = .error .unboundLocal ∧
    (∃ f : Fin 3 → ℝ, (Op.run demoEngine lu (.integrate ![0, 1 / 1000, 0] .stress) .fresh).2 =
      .ok (.response (.forces f)) ∧ f 1 = 40000) ∧
    ∃ f : Fin 3 → ℝ, (Op.run demoEngine lu (.integrate ![0, 1 / 1000, 0] .stress)
      (history demoEngine lu [.bending (Real.pi / 2) 0] .fresh)).2 =
      .ok (.response (.forces f)) ∧ f 1 = 0 := by
  obtain ⟨L, hL1, hL2, hlim⟩ := demo_limits
  have hne : demoData ≠ [] := by simp [demoData]
  have hbal : demoEngine.balanced (-(Real.pi / 2)) false = .error .unboundLocal := by
    apply C22_single_layer_raises _ _ _ 0
    intro g hg
    simp only [demoBars, List.map_cons, List.map_nil, List.nil_append, List.mem_cons,
      List.not_mem_nil, or_false] at hg
    rcases hg with rfl | rfl <;> simp [Bar.part, Bar.rotate, rotPt]
  have hrun : bendingStrength demoEngine (Real.pi / 2) 0 .fresh =
      (⟨some (demoData.map (rotGroup (-(Real.pi / 2)))), some L⟩, .error .unboundLocal) := by
    have hc := C28_gate_accepts .fresh _ L hlim 0 ⟨hL1.le, hL2.le⟩
    rw [bendingStrength, CalcM.bind_ok hc]
    have h0 : rotateData (-(Real.pi / 2)) (⟨some demoData, some L⟩ : CalcState) =
      (⟨some (demoData.map (rotGroup (-(Real.pi / 2)))), some L⟩, .ok ()) := rfl
    rw [CalcM.bind_ok h0]
    apply CalcM.bind_error
    rw [pivotM]
    apply CalcM.bind_error
    rw [liftE, hbal]
  refine ⟨?_, ?_, ?_⟩
  · simp only [Op.run, CalcM.bind_error hrun]
  · refine ⟨resultants (fibres Law.stress demoData) ![0, 1 / 1000, 0], ?_, ?_⟩
    · have hf : demoEngine.integ 0 ![0, 1 / 1000, 0] .stress none demoEngine.meshSize =
          .ok (.forces (resultants (fibres Law.stress demoData) ![0, 1 / 1000, 0]), demoData) := by
        have := (fiberEngine_lawful (fun _ => []) (fun _ => []) demoBars false 0.01).first
          ![0, 1 / 1000, 0] .stress 0.01
        simp only [demo_triangulate 0.01 (by norm_num) (by norm_num)] at this
        exact this.trans (demo_forces 0 _ demoData hne _)
      simp only [Op.run, integrateStrainProfile, CalcM.bind_def, call, CalcState.fresh, hf,
        CalcM.pure_def]
    · have hs : ∀ y, demoLaw.law.stress y = 200000 * y := fun y => rfl
      simp only [resultants, fibres, demoData, List.flatMap_cons, List.flatMap_nil, List.map_cons,
        List.map_nil, List.append_nil, List.sum_cons, List.sum_nil, hs, planeStrain, lever,
        Matrix.cons_val]
      norm_num
  · have hst : history demoEngine lu [.bending (Real.pi / 2) 0] .fresh =
        ⟨some (demoData.map (rotGroup (-(Real.pi / 2)))), some L⟩ := by
      simp only [history, Op.run, CalcM.bind_error hrun]
    refine ⟨resultants (fibres Law.stress (demoData.map (rotGroup (-(Real.pi / 2)))))
      ![0, 1 / 1000, 0], ?_, ?_⟩
    · rw [hst]
      simp only [Op.run, integrateStrainProfile, CalcM.bind_def, call_some,
        demo_forces 0 _ (demoData.map (rotGroup (-(Real.pi / 2)))) (by simp [demoData]),
        CalcM.pure_def]
    · have hs : ∀ y, demoLaw.law.stress y = 200000 * y := fun y => rfl
      simp [resultants, fibres, demoData, hs, planeStrain, lever, rotGroup, rotPt]

/-- A history meeting the hypothesis of `C27_history_partial`: a bending strength that returns,
followed by other calls. -/
example (lu : Matrix (Fin 3) (Fin 3) ℝ → (Fin 3 → ℝ) → (Fin 3 → ℝ)) :
    Undisturbed demoEngine lu [.bending 0 0, .integrate ![0, 1 / 1000, 0] .stress, .limits] .fresh := by
  obtain ⟨L, hL1, hL2, hlim⟩ := demo_limits
  simp only [Undisturbed, Op.rotates, Bool.false_eq_true, false_imp_iff, true_and, and_true,
    true_imp_iff]
  have hc := C28_gate_accepts .fresh _ L hlim 0 ⟨hL1.le, hL2.le⟩
  have hd0 : demoData.map (rotGroup 0) = demoData := by
    have := rotGroups_neg 0 demoData
    rw [neg_zero, List.map_map] at this
    simp [rotGroup, rotPt_zero, demoData]
  have h0 : rotateData 0 (⟨some demoData, some L⟩ : CalcState) =
      (⟨some demoData, some L⟩, .ok ()) := by simp only [rotateData, Option.map_some, hd0]
  have hne : demoData ≠ [] := by simp [demoData]
  have hb : ∀ s, liftE (demoEngine.balanced 0 false) s = (s, .ok (1, -1, ![0, -(1 / 100), 0])) := by
    intro s; rw [liftE, demo_balanced]
  have hcall : ∀ (e : Fin 3 → ℝ) m c, call demoEngine 0 e .stress m c ⟨some demoData, some L⟩ =
      (⟨some demoData, some L⟩, .ok (.forces (resultants (fibres Law.stress demoData) e))) := by
    intro e m c; rw [call_some, demo_forces 0 e demoData hne]
  have hN : resultants (fibres Law.stress demoData) ![0, -(1 / 100), 0] 0 = 0 := by
    have hs : ∀ y, demoLaw.law.stress y = 200000 * y := fun y => rfl
    simp only [resultants, fibres, demoData, List.flatMap_cons, List.flatMap_nil, List.map_cons,
      List.map_nil, List.append_nil, List.sum_cons, List.sum_nil, hs, planeStrain, lever,
      Matrix.cons_val]
    norm_num
  have hor : oracleN demoEngine 0 (some demoData) 0 (-(1 / 100)) = .ok 0 := by
    rw [oracleN, demo_forces 0 _ demoData hne]
    simp only [Response.N, hN]
  have hpiv : pivotM demoEngine 0 0 false ⟨some demoData, some L⟩ =
      (⟨some demoData, some L⟩, .ok ![0, -(1 / 100), 0]) := by
    rw [pivotM, CalcM.bind_ok (hb _), CalcM.bind_ok (hcall _ _ _)]
    simp only [withData, fixedPivotFromE, Matrix.cons_val, hor]
    norm_num [searchResult]
  have hrun : ∃ b, bendingStrength demoEngine 0 0 .fresh = (⟨some demoData, some L⟩, .ok b) := by
    rw [bendingStrength, CalcM.bind_ok hc]
    simp only [neg_zero]
    rw [CalcM.bind_ok h0, CalcM.bind_ok hpiv, CalcM.bind_ok (hcall _ _ _), CalcM.bind_ok h0]
    exact ⟨_, rfl⟩
  obtain ⟨b, hb⟩ := hrun
  simp only [Op.run]
  rw [CalcM.bind_ok hb]
  exact ⟨_, rfl⟩

/-! ### The mesh size that is not passed on -/

/-- Two triangles covering `[0, 1] × [i h, (i + 1) h]`. -/
noncomputable def sqStrip (h : ℝ) (i : ℕ) : List ((ℝ × ℝ) × (ℝ × ℝ) × (ℝ × ℝ)) :=
  [((0, i * h), (1, i * h), (1, (i + 1) * h)), ((0, i * h), (1, (i + 1) * h), (0, (i + 1) * h))]

/-- A mesher for the unit square: strips of two triangles, as many as the maximal area requires. -/
noncomputable def stripMesh (maxArea : ℝ) : List ((ℝ × ℝ) × (ℝ × ℝ) × (ℝ × ℝ)) :=
  (List.range ⌈1 / (2 * maxArea)⌉₊).flatMap (sqStrip (1 / ⌈1 / (2 * maxArea)⌉₊))

/-- Every triangle of this mesh respects the maximal area, as required from the mesher. -/
theorem stripMesh_area (a : ℝ) (ha : 0 < a) : ∀ t ∈ stripMesh a, (triFibre t).2.2 ≤ a := by
  intro t ht
  obtain ⟨i, -, hi⟩ := List.mem_flatMap.1 ht
  have hk : 1 / (2 * a) ≤ (⌈1 / (2 * a)⌉₊ : ℝ) := Nat.le_ceil _
  have hkpos : (0 : ℝ) < ⌈1 / (2 * a)⌉₊ := lt_of_lt_of_le (by positivity) hk
  set k : ℝ := (⌈1 / (2 * a)⌉₊ : ℝ) with hkdef
  have hh : 1 / k * 0.5 ≤ a := by
    rw [div_mul_eq_mul_div, div_le_iff₀ hkpos]
    rw [div_le_iff₀ (by positivity)] at hk
    norm_num
    linarith
  have hpos : 0 < 1 / k := by positivity
  simp only [sqStrip, List.mem_cons, List.not_mem_nil, or_false] at hi
  rcases hi with rfl | rfl
  · simp only [triFibre]
    refine le_trans (le_of_eq ?_) hh
    congr 1
    rw [show (0 * (i * (1 / k)) - i * (1 / k) * 1 + (1 * ((i + 1) * (1 / k)) - i * (1 / k) * 1) +
      (1 * (i * (1 / k)) - (i + 1) * (1 / k) * 0) : ℝ) = 1 / k by ring]
    exact abs_of_pos hpos
  · simp only [triFibre]
    refine le_trans (le_of_eq ?_) hh
    congr 1
    rw [show (0 * ((i + 1) * (1 / k)) - i * (1 / k) * 1 + (1 * ((i + 1) * (1 / k)) -
      (i + 1) * (1 / k) * 0) + (0 * (i * (1 / k)) - (i + 1) * (1 / k) * 0) : ℝ) = 1 / k by ring]
    exact abs_of_pos hpos

/-- A unit square of elastic material (`E = 1`), `mesh_size = 0.5`. -/
noncomputable def squareEngine : Engine :=
  fiberEngine (fun _ => [⟨1, stripMesh, ⟨0, (⟨1, none⟩ : Elastic).law⟩⟩])
    (fun _ => [⟨true, false, 0, 1, fun _ => (-100, 100)⟩]) [] false 0.5

/-- Integration data with `k` strips. -/
noncomputable def squareData (k : ℕ) : List Group :=
  [⟨((List.range k).flatMap (sqStrip (1 / k))).map triFibre, ⟨0, (⟨1, none⟩ : Elastic).law⟩⟩]

theorem square_inertia (k : ℕ) (hk : 0 < k) :
    resultants (fibres Law.stress (squareData k)) ![0, 1, 0] 1 = 1 / 3 - 1 / (18 * (k : ℝ) ^ 2) := by
  have hs : ∀ y, (⟨1, none⟩ : Elastic).law.stress y = 1 * y := fun y => rfl
  have hk' : (0 : ℝ) < k := by exact_mod_cast hk
  have key : ∀ (m : ℕ) (h : ℝ), 0 < h →
      ((((List.range m).flatMap (sqStrip h)).map triFibre).map fun p =>
        p.2.2 * (0 + 1 * p.2.1 - 0 * p.1) * p.2.1).sum = h ^ 3 * ((m : ℝ) ^ 3 / 3 - m / 18) := by
    intro m h hh
    induction m with
    | zero => simp
    | succ m ih =>
      rw [List.range_succ, List.flatMap_append, List.map_append, List.map_append, List.sum_append, ih]
      simp only [sqStrip, List.flatMap_cons, List.flatMap_nil, List.append_nil, List.map_cons,
        List.map_nil, List.sum_cons, List.sum_nil, triFibre]
      rw [show (0 * (m * h) - m * h * 1 + (1 * ((m + 1) * h) - m * h * 1) +
        (1 * (m * h) - (m + 1) * h * 0) : ℝ) = h by ring,
        show (0 * ((m + 1) * h) - m * h * 1 + (1 * ((m + 1) * h) - (m + 1) * h * 0) +
        (0 * (m * h) - (m + 1) * h * 0) : ℝ) = h by ring, abs_of_pos hh]
      push_cast
      ring
  have h1 := key k (1 / k) (by positivity)
  simp only [resultants, fibres, squareData, List.flatMap_cons, List.flatMap_nil, List.append_nil,
    List.map_map, Function.comp_def, hs, planeStrain, lever, Matrix.cons_val] at h1 ⊢
  simp only [one_mul, zero_mul, zero_add, sub_zero] at h1 ⊢
  rw [h1]
  field_simp

/-- **C27 is violated** when `mesh_size` is not the default: the first call
`find_equilibrium_fixed_curvature` (like `calculate_strain_profile` and the N-M-M domain) caches a
triangulation with the default mesh size 0.01, a new calculator would use `mesh_size = 0.5`. -/
theorem C27_mesh_size_violated (lu : Matrix (Fin 3) (Fin 3) ℝ → (Fin 3 → ℝ) → (Fin 3 → ℝ)) :
    (∃ f : Fin 3 → ℝ, (Op.run squareEngine lu (.integrate ![0, 1, 0] .stress) .fresh).2 =
      .ok (.response (.forces f)) ∧ f 1 = 5 / 18) ∧
    ∃ f : Fin 3 → ℝ, (Op.run squareEngine lu (.integrate ![0, 1, 0] .stress)
      (history squareEngine lu [.fixedCurvature 0 0 0] .fresh)).2 =
      .ok (.response (.forces f)) ∧ f 1 = 14999 / 45000 := by
  have hne : ∀ k, squareData k ≠ [] := by simp [squareData]
  have ht : ∀ (m : ℝ) (k : ℕ), 0 < m → m ≤ 1 → ⌈1 / (2 * (1 * m))⌉₊ = k →
      triangulate [⟨1, stripMesh, ⟨0, (⟨1, none⟩ : Elastic).law⟩⟩] [] m = .ok (squareData k) := by
    intro m k h0 h1 hk
    rw [triangulate, if_neg (by push Not; exact ⟨h0, h1⟩)]
    simp [groupBars, squareData, stripMesh, hk, ← hk]
  have hf : ∀ e (m : ℝ) (k : ℕ), 0 < m → m ≤ 1 → ⌈1 / (2 * (1 * m))⌉₊ = k →
      squareEngine.integ 0 e .stress none m =
        .ok (.forces (resultants (fibres Law.stress (squareData k)) e), squareData k) := by
    intro e m k h0 h1 hk
    have := (fiberEngine_lawful (fun _ => [⟨1, stripMesh, ⟨0, (⟨1, none⟩ : Elastic).law⟩⟩])
      (fun _ => [⟨true, false, 0, 1, fun _ => (-100, 100)⟩]) [] false 0.5).first e .stress m
    simp only [ht m k h0 h1 hk] at this
    exact this.trans (C18_forces [] [] _ (hne k) e m)
  have hsome : ∀ a e m k, squareEngine.integ a e .stress (some (squareData k)) m =
        .ok (.forces (resultants (fibres Law.stress (squareData k)) e), squareData k) :=
    fun a e m k => C18_forces [] [] _ (hne k) e m
  have hms : squareEngine.meshSize = 0.5 := rfl
  have hk1 : ⌈(1 : ℝ) / (2 * (1 * 0.5))⌉₊ = 1 := by norm_num
  have hk50 : ⌈(1 : ℝ) / (2 * (1 * defaultMesh))⌉₊ = 50 := by
    rw [show (1 : ℝ) / (2 * (1 * defaultMesh)) = ((50 : ℕ) : ℝ) by norm_num [defaultMesh]]
    exact Nat.ceil_natCast 50
  constructor
  · refine ⟨resultants (fibres Law.stress (squareData 1)) ![0, 1, 0], ?_, ?_⟩
    · simp only [Op.run, integrateStrainProfile, CalcM.bind_def, call, CalcState.fresh, hms,
        hf _ 0.5 1 (by norm_num) (by norm_num) hk1, CalcM.pure_def]
    · rw [square_inertia 1 one_pos]; norm_num
  · have hst : (history squareEngine lu [.fixedCurvature 0 0 0] .fresh).data =
        some (squareData 50) := by
      have hc := hf ![0, 0, 0] defaultMesh 50 (by norm_num [defaultMesh]) (by norm_num [defaultMesh]) hk50
      simp only [history, Op.run, curvatureM, CalcM.bind_def, call, CalcState.fresh, hc,
        Option.isNone_none, Bool.and_self, if_true, withData]
      cases searchResult (fixedCurvatureE (oracleN squareEngine 0 (some (squareData 50))) 0 0 0) <;> rfl
    rcases hh : history squareEngine lu [.fixedCurvature 0 0 0] .fresh with ⟨d, l⟩
    rw [hh] at hst
    simp only at hst
    subst hst
    refine ⟨resultants (fibres Law.stress (squareData 50)) ![0, 1, 0], ?_, ?_⟩
    · simp only [Op.run, integrateStrainProfile, CalcM.bind_def, call_some, hsome, CalcM.pure_def]
    · rw [square_inertia 50 (by norm_num)]; norm_num

end SC
