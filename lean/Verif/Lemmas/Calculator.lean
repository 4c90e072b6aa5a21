import Verif.Model.StrainProfile
import Verif.Lemmas.Rotation
import Verif.Props.MarinBars

/-! # Calculator state: lemmas -/

set_option autoImplicit false

namespace SC

/-! ### Monad facts -/

theorem CalcM.bind_def {α β : Type} (m : CalcM α) (f : α → CalcM β) (s : CalcState) :
    (m >>= f) s = match m s with
      | (s', .error e) => (s', .error e)
      | (s', .ok a) => f a s' := rfl

theorem CalcM.pure_def {α : Type} (a : α) (s : CalcState) : (pure a : CalcM α) s = (s, .ok a) := rfl

theorem CalcM.bind_ok {α β : Type} {m : CalcM α} {f : α → CalcM β} {s s' : CalcState} {a : α}
    (h : m s = (s', .ok a)) : (m >>= f) s = f a s' := by rw [CalcM.bind_def, h]

theorem CalcM.bind_error {α β : Type} {m : CalcM α} {f : α → CalcM β} {s s' : CalcState} {e : PyErr}
    (h : m s = (s', .error e)) : (m >>= f) s = (s', .error e) := by rw [CalcM.bind_def, h]

instance : LawfulMonad CalcM := LawfulMonad.mk' CalcM
  (id_map := by
    intro α m
    funext s
    show (m >>= fun a => pure (id a)) s = m s
    rw [CalcM.bind_def]
    rcases m s with ⟨s', r⟩
    cases r <;> rfl)
  (pure_bind := by intros; rfl)
  (bind_assoc := by
    intro α β γ m f g
    funext s
    simp only [CalcM.bind_def]
    rcases m s with ⟨s', r⟩
    cases r <;> rfl)

/-! ### Integrators hand back the data they were given -/

/-- What the calculator relies on.  `base mesh` is the integration data computed for the section
when none is given. -/
structure Engine.Lawful (E : Engine) (base : ℝ → Except PyErr (List Group)) : Prop where
  first : ∀ e w m, E.integ 0 e w none m =
    match base m with
    | .error er => .error er
    | .ok D => E.integ 0 e w (some D) m
  same : ∀ a e w D m r d, E.integ a e w (some D) m = .ok (r, d) → d = D
  mesh : ∀ a e w D m m', E.integ a e w (some D) m = E.integ a e w (some D) m'

theorem map_rotate_zero (bars : List Bar) : bars.map (Bar.rotate 0) = bars := by
  conv_rhs => rw [← List.map_id bars]
  apply List.map_congr_left
  intro b _
  simp [Bar.rotate, rotPt_zero]

theorem fiberEngine_lawful (surfs : ℝ → List MeshSurf) (surfParts : ℝ → List Part) (bars : List Bar)
    (rc : Bool) (ms : ℝ) :
    (fiberEngine surfs surfParts bars rc ms).Lawful fun m => triangulate (surfs 0) bars m where
  first e w m := by
    simp only [fiberEngine, map_rotate_zero, fiberIntegrate]
    cases triangulate (surfs 0) bars m <;> rfl
  same a e w D m r d h := by
    simp only [fiberEngine, fiberIntegrate] at h
    cases hp : fiberPrepare D e w with
    | error x => simp [hp] at h
    | ok x =>
      cases w <;> simp only [hp, Except.ok.injEq, Prod.mk.injEq, reduceCtorEq] at h
      · exact h.2.symm
      · exact h.2.symm
  mesh a e w D m m' := rfl

theorem marinEngine_lawful (split : Polygon → ℝ → ℝ → ShapelyResult) (surfs : List Surf)
    (surfParts : ℝ → List Part) (bars : List Bar) (rc : Bool) (ms : ℝ) :
    (marinEngine split surfs surfParts bars rc ms).Lawful fun _ => .ok (groupBars bars) where
  first e w m := by
    simp only [marinEngine, map_rotate_zero]
    exact C20_first_call _ _ _ _ _
  same a e w D m r d h := C20_data_unrotated _ _ _ _ _ _ _ _ h
  mesh a e w D m m' := rfl

/-! ### States of a calculator that was not interrupted between two rotations -/

section
variable (E : Engine) (base : ℝ → Except PyErr (List Group))

/-- Limits computed by a new calculator. -/
def freshLimits : Except PyErr (ℝ × ℝ) := (limitAxialLoad E .fresh).2

/-- Nothing cached, or the data of the section, possibly with the limits of the section. -/
def Canonical (s : CalcState) : Prop :=
  s = .fresh ∨ ∃ D, base E.meshSize = .ok D ∧
    (s = ⟨some D, none⟩ ∨ ∃ L, freshLimits E = .ok L ∧ s = ⟨some D, some L⟩)

/-- Same result as a new calculator, and a state that is again canonical. -/
def Clean {α : Type} (m : CalcM α) : Prop :=
  ∀ s, Canonical E base s → (m s).2 = (m .fresh).2 ∧ Canonical E base (m s).1

/-- Same result as a new calculator, and a canonical state if the method returned. -/
def CleanOk {α : Type} (m : CalcM α) : Prop :=
  ∀ s, Canonical E base s → (m s).2 = (m .fresh).2 ∧
    ∀ a, (m s).2 = .ok a → Canonical E base (m s).1

variable {E base}

theorem Canonical.fresh : Canonical E base .fresh := Or.inl rfl

theorem Clean.ok {α : Type} {m : CalcM α} (h : Clean E base m) : CleanOk E base m :=
  fun s hs => ⟨(h s hs).1, fun _ _ => (h s hs).2⟩

theorem Clean.pure {α : Type} (a : α) : Clean E base (Pure.pure a : CalcM α) :=
  fun _ hs => ⟨rfl, hs⟩

theorem Clean.lift {α : Type} (r : Except PyErr α) : Clean E base (liftE r) :=
  fun _ hs => ⟨rfl, hs⟩

theorem Clean.bind {α β : Type} {m : CalcM α} {f : α → CalcM β} (hm : Clean E base m)
    (hf : ∀ a, Clean E base (f a)) : Clean E base (m >>= f) := by
  intro s hs
  obtain ⟨h1, h2⟩ := hm s hs
  obtain ⟨-, h3⟩ := hm .fresh .fresh
  simp only [CalcM.bind_def]
  rcases hms : m s with ⟨s', r⟩
  rcases hmf : m .fresh with ⟨sf, rf⟩
  rw [hms, hmf] at h1
  rw [hms] at h2
  rw [hmf] at h3
  simp only at h1 h2 h3
  subst h1
  cases r with
  | error e => exact ⟨rfl, h2⟩
  | ok a =>
    obtain ⟨g1, g2⟩ := hf a s' h2
    obtain ⟨g3, -⟩ := hf a sf h3
    exact ⟨g1.trans g3.symm, g2⟩

theorem CleanOk.bind {α β : Type} {m : CalcM α} {f : α → CalcM β} (hm : CleanOk E base m)
    (hf : ∀ a, CleanOk E base (f a)) : CleanOk E base (m >>= f) := by
  intro s hs
  obtain ⟨h1, h2⟩ := hm s hs
  obtain ⟨-, h3⟩ := hm .fresh .fresh
  simp only [CalcM.bind_def]
  rcases hms : m s with ⟨s', r⟩
  rcases hmf : m .fresh with ⟨sf, rf⟩
  rw [hms, hmf] at h1
  rw [hms] at h2
  rw [hmf] at h3
  simp only at h1 h2 h3
  subst h1
  cases r with
  | error e => exact ⟨rfl, fun a ha => by cases ha⟩
  | ok a =>
    obtain ⟨g1, g2⟩ := hf a s' (h2 a rfl)
    obtain ⟨g3, -⟩ := hf a sf (h3 a rfl)
    exact ⟨g1.trans g3.symm, g2⟩

/-- An integration with cached data leaves the state alone. -/
theorem call_some (a : ℝ) (e : Fin 3 → ℝ) (w : IntegrateArg) (m : ℝ) (c : Bool) (D : List Group)
    (lim : Option (ℝ × ℝ)) :
    call E a e w m c ⟨some D, lim⟩ = (⟨some D, lim⟩,
      match E.integ a e w (some D) m with
      | .error er => .error er
      | .ok (r, _) => .ok r) := by
  simp only [call]
  cases E.integ a e w (some D) m with
  | error er => rfl
  | ok x => simp

variable (hE : E.Lawful base) (hmesh : base defaultMesh = base E.meshSize)

include hE in
/-- First integration on the unrotated section: same result as with the data of the section, which
is then cached. -/
theorem call_none (e : Fin 3 → ℝ) (w : IntegrateArg) (m : ℝ) (lim : Option (ℝ × ℝ)) (D : List Group)
    (hb : base m = .ok D) :
    (call E 0 e w m true ⟨none, lim⟩).2 = (call E 0 e w m true ⟨some D, lim⟩).2 ∧
      ∀ r, (call E 0 e w m true ⟨none, lim⟩).2 = .ok r →
        (call E 0 e w m true ⟨none, lim⟩).1 = ⟨some D, lim⟩ := by
  rw [call_some]
  simp only [call]
  rw [hE.first, hb]
  simp only
  cases h : E.integ 0 e w (some D) m with
  | error er => simp
  | ok x =>
    obtain ⟨r, d⟩ := x
    have := hE.same _ _ _ _ _ _ _ h
    subst this
    simp

include hE in
theorem call_none_error (e : Fin 3 → ℝ) (w : IntegrateArg) (m : ℝ) (c : Bool) (lim : Option (ℝ × ℝ))
    (er : PyErr) (hb : base m = .error er) :
    call E 0 e w m c ⟨none, lim⟩ = (⟨none, lim⟩, .error er) := by
  simp only [call]
  rw [hE.first, hb]

theorem call_fst_of_error {a : ℝ} {e : Fin 3 → ℝ} {w : IntegrateArg} {m : ℝ} {c : Bool}
    {s : CalcState} {er : PyErr} (h : (call E a e w m c s).2 = .error er) :
    (call E a e w m c s).1 = s := by
  simp only [call] at h ⊢
  cases hi : E.integ a e w s.data m with
  | error x => rfl
  | ok x => simp [hi] at h

/-- On the unrotated section, an integration followed by a computation with the cached data. -/
theorem clean_call_then {α : Type} (hE : E.Lawful base) (e : Fin 3 → ℝ) (w : IntegrateArg) (m : ℝ)
    (hm : base m = base E.meshSize) (g : Response → Option (List Group) → Except PyErr α) :
    Clean E base (call E 0 e w m true >>= fun r => withData (g r)) := by
  intro s hs
  rcases hs with rfl | ⟨D, hD, hs⟩
  · refine ⟨rfl, ?_⟩
    cases hb : base m with
    | error er => rw [CalcM.bind_error (s := CalcState.fresh) (call_none_error hE e w m true none er hb)]; exact .fresh
    | ok D =>
      obtain ⟨-, h2⟩ := call_none hE e w m none D hb
      rcases hc : call E 0 e w m true ⟨none, none⟩ with ⟨s', r⟩
      cases r with
      | error er =>
        rw [CalcM.bind_error (m := call E 0 e w m true) (s := CalcState.fresh) hc]
        have := call_fst_of_error (E := E) (a := 0) (e := e) (w := w) (m := m) (c := true)
          (s := ⟨none, none⟩) (er := er) (by rw [hc])
        rw [hc] at this
        simp only at this
        rw [this]
        exact .fresh
      | ok r =>
        rw [CalcM.bind_ok (m := call E 0 e w m true) (s := CalcState.fresh) hc]
        have := h2 r (by rw [hc])
        rw [hc] at this
        simp only at this
        rw [this]
        exact Or.inr ⟨D, by rw [← hm, hb], Or.inl rfl⟩
  · have hb : base m = .ok D := by rw [hm, hD]
    have key : ∀ lim, Canonical E base ⟨some D, lim⟩ →
        ((call E 0 e w m true >>= fun r => withData (g r)) (⟨some D, lim⟩ : CalcState)).2 =
        ((call E 0 e w m true >>= fun r => withData (g r)) CalcState.fresh).2 ∧
        Canonical E base
          ((call E 0 e w m true >>= fun r => withData (g r)) (⟨some D, lim⟩ : CalcState)).1 := by
      intro lim hcan
      obtain ⟨h1, h2⟩ := call_none hE e w m none D hb
      rw [call_some] at h1
      simp only [CalcM.bind_def, call_some]
      rcases hc : call E 0 e w m true ⟨none, none⟩ with ⟨s', r'⟩
      rw [hc] at h1 h2
      simp only at h1 h2
      have hc' : call E 0 e w m true CalcState.fresh = (s', r') := hc
      rw [hc']
      simp only [withData]
      cases hi : E.integ 0 e w (some D) m with
      | error er =>
        simp only [hi] at h1
        subst h1
        exact ⟨rfl, hcan⟩
      | ok x =>
        simp only [hi] at h1
        subst h1
        have := h2 _ rfl
        subst this
        exact ⟨rfl, hcan⟩
    rcases hs with rfl | ⟨L, hL, rfl⟩
    · exact key none (Or.inr ⟨D, hD, Or.inl rfl⟩)
    · exact key (some L) (Or.inr ⟨D, hD, Or.inr ⟨L, hL, rfl⟩⟩)

theorem clean_call (hE : E.Lawful base) (e : Fin 3 → ℝ) (w : IntegrateArg) (m : ℝ)
    (hm : base m = base E.meshSize) : Clean E base (call E 0 e w m true) := by
  have h := clean_call_then hE e w m hm (fun r _ => (.ok r : Except PyErr Response))
  have : (call E 0 e w m true >>= fun r => withData fun _ => (.ok r : Except PyErr Response))
      = call E 0 e w m true := by
    funext s
    rw [CalcM.bind_def]
    rcases call E 0 e w m true s with ⟨s', r⟩
    cases r <;> rfl
  rw [this] at h
  exact h

/-- With the data of the section cached, the limits are those of a new calculator. -/
theorem limitAxialLoad_some (hE : E.Lawful base) (D : List Group) (hb : base E.meshSize = .ok D)
    (lim : Option (ℝ × ℝ)) :
    limitAxialLoad E ⟨some D, lim⟩ = (⟨some D, lim⟩, freshLimits E) ∧
    ∀ L, freshLimits E = .ok L → limitAxialLoad E .fresh = (⟨some D, none⟩, .ok L) := by
  simp only [freshLimits, limitAxialLoad, CalcState.fresh]
  cases hbal : E.balanced 0 false with
  | error er => simp
  | ok x =>
    obtain ⟨yn, yp, strain⟩ := x
    simp only
    rw [hE.first, hb]
    simp only
    cases h1 : E.integ 0 ![strain 0 + strain 1 * yn, 0, 0] .stress (some D) E.meshSize with
    | error er => simp
    | ok y =>
      obtain ⟨r1, d⟩ := y
      have := hE.same _ _ _ _ _ _ _ h1
      subst this
      simp only
      cases h2 : E.integ 0 ![strain 0 + strain 1 * yp, 0, 0] .stress (some d) defaultMesh with
      | error er => simp
      | ok z => simp

theorem limitAxialLoad_error {s : CalcState} {er : PyErr} (h : (limitAxialLoad E s).2 = .error er) :
    (limitAxialLoad E s).1 = s := by
  simp only [limitAxialLoad] at h ⊢
  cases hbal : E.balanced 0 false with
  | error er => simp
  | ok x =>
    obtain ⟨yn, yp, strain⟩ := x
    simp only [hbal] at h ⊢
    cases h1 : E.integ 0 ![strain 0 + strain 1 * yn, 0, 0] .stress s.data E.meshSize with
    | error er => simp
    | ok y =>
      simp only [h1] at h ⊢
      cases h2 : E.integ 0 ![strain 0 + strain 1 * yp, 0, 0] .stress (some y.2) defaultMesh with
      | error er => simp
      | ok z => simp [h2] at h

/-- The first part: when no data can be computed for the section, the limits raise. -/
theorem freshLimits_ok_base (hE : E.Lawful base) {L : ℝ × ℝ} (h : freshLimits E = .ok L) :
    ∃ D, base E.meshSize = .ok D := by
  cases hb : base E.meshSize with
  | ok D => exact ⟨D, rfl⟩
  | error er =>
    simp only [freshLimits, limitAxialLoad, CalcState.fresh] at h
    cases hbal : E.balanced 0 false with
    | error er => simp [hbal] at h
    | ok x =>
      simp only [hbal] at h
      rw [hE.first, hb] at h
      cases h

theorem clean_limitAxialLoad (hE : E.Lawful base) : Clean E base (limitAxialLoad E) := by
  intro s hs
  rcases hs with rfl | ⟨D, hD, hs⟩
  · refine ⟨rfl, ?_⟩
    cases h : freshLimits E with
    | error er =>
      rw [limitAxialLoad_error (s := .fresh) h]
      exact .fresh
    | ok L =>
      obtain ⟨D, hD⟩ := freshLimits_ok_base hE h
      rw [(limitAxialLoad_some hE D hD none).2 L h]
      exact Or.inr ⟨D, hD, Or.inl rfl⟩
  · rcases hs with rfl | ⟨L, hL, rfl⟩
    · rw [(limitAxialLoad_some hE D hD _).1]
      exact ⟨rfl, Or.inr ⟨D, hD, Or.inl rfl⟩⟩
    · rw [(limitAxialLoad_some hE D hD _).1]
      exact ⟨rfl, Or.inr ⟨D, hD, Or.inr ⟨L, hL, rfl⟩⟩⟩

/-- `n_min`/`n_max` from any canonical state: the limits of a new calculator; when they exist the
state afterwards is the same in all cases. -/
theorem limits_canonical (hE : E.Lawful base) {s : CalcState} (hs : Canonical E base s) :
    (limits E s).2 = freshLimits E ∧
    (∀ L, freshLimits E = .ok L → ∃ D, base E.meshSize = .ok D ∧ (limits E s).1 = ⟨some D, some L⟩) ∧
    (∀ er, freshLimits E = .error er → (limits E s).1 = s) := by
  rcases hs with rfl | ⟨D, hD, hs⟩
  · simp only [limits, CalcState.fresh]
    cases h : freshLimits E with
    | error er =>
      have h' : (limitAxialLoad E ⟨none, none⟩).2 = .error er := h
      have h1 := limitAxialLoad_error h'
      rcases hl : limitAxialLoad E ⟨none, none⟩ with ⟨s', r⟩
      rw [hl] at h' h1
      simp only at h' h1
      subst h' h1
      simp
    | ok L =>
      obtain ⟨D, hD⟩ := freshLimits_ok_base hE h
      have := (limitAxialLoad_some hE D hD none).2 L h
      simp only [CalcState.fresh] at this
      rw [this]
      simp [hD]
  · rcases hs with rfl | ⟨L, hL, rfl⟩
    · simp only [limits, (limitAxialLoad_some hE D hD _).1]
      cases h : freshLimits E with
      | error er => simp
      | ok L => simp [hD]
    · simp [limits, hL, hD]

theorem clean_limits (hE : E.Lawful base) : Clean E base (limits E) := by
  intro s hs
  obtain ⟨h1, h2, h3⟩ := limits_canonical hE hs
  obtain ⟨g1, -, -⟩ := limits_canonical hE (E := E) (base := base) (s := .fresh) .fresh
  refine ⟨h1.trans g1.symm, ?_⟩
  cases h : freshLimits E with
  | error er => rw [h3 er h]; exact hs
  | ok L =>
    obtain ⟨D, hD, hl⟩ := h2 L h
    rw [hl]
    exact Or.inr ⟨D, hD, Or.inr ⟨L, h, rfl⟩⟩

/-- A continuation that runs only after the axial load was accepted. -/
theorem check_then {α : Type} (hE : E.Lawful base) (n : ℝ) (f : CalcM α)
    (hf : ∀ D L, base E.meshSize = .ok D → freshLimits E = .ok L → ∀ a,
      (f ⟨some D, some L⟩).2 = .ok a → (f ⟨some D, some L⟩).1 = ⟨some D, some L⟩) :
    CleanOk E base (checkAxialLoad E n >>= fun _ => f) := by
  intro s hs
  obtain ⟨h1, h2, h3⟩ := limits_canonical hE hs
  obtain ⟨g1, g2, -⟩ := limits_canonical hE (E := E) (base := base) (s := .fresh) .fresh
  have hbind : ∀ s : CalcState, (checkAxialLoad E n >>= fun _ => f) s =
      match limits E s with
      | (s', .error e) => (s', .error e)
      | (s', .ok l) => if n < l.1 ∨ n > l.2 then (s', .error .valueError) else f s' := by
    intro s
    simp only [CalcM.bind_def, checkAxialLoad]
    rcases limits E s with ⟨s', r⟩
    cases r with
    | error e => rfl
    | ok l =>
      simp only
      split_ifs
      · rfl
      · rfl
  rw [hbind, hbind]
  rcases hl : limits E s with ⟨s', r⟩
  rcases hlf : limits E .fresh with ⟨sf, rf⟩
  rw [hl] at h1 h2
  rw [hlf] at g1 g2
  simp only at h1 h2 g1 g2
  subst h1 g1
  cases hL : freshLimits E with
  | error e => exact ⟨rfl, fun a ha => by cases ha⟩
  | ok L =>
    obtain ⟨D, hD, hs'⟩ := h2 L hL
    obtain ⟨D', hD', hsf⟩ := g2 L hL
    rw [hD] at hD'
    cases hD'
    subst hs' hsf
    simp only
    split_ifs with hn
    · exact ⟨trivial, fun a ha => by cases ha⟩
    · refine ⟨trivial, fun a ha => ?_⟩
      rw [hf D L hD hL a ha]
      exact Or.inr ⟨D, hD, Or.inr ⟨L, hL, rfl⟩⟩

/-! ### What happens between two rotations does not change the cached data -/

/-- Leaves a state with cached data unchanged. -/
def Frozen {α : Type} (m : CalcM α) : Prop := ∀ D lim, (m ⟨some D, lim⟩).1 = ⟨some D, lim⟩

theorem Frozen.pure {α : Type} (a : α) : Frozen (Pure.pure a : CalcM α) := fun _ _ => rfl

theorem Frozen.lift {α : Type} (r : Except PyErr α) : Frozen (liftE r) := fun _ _ => rfl

theorem Frozen.bind {α β : Type} {m : CalcM α} {f : α → CalcM β} (hm : Frozen m)
    (hf : ∀ a, Frozen (f a)) : Frozen (m >>= f) := by
  intro D lim
  rw [CalcM.bind_def]
  have h := hm D lim
  rcases hms : m ⟨some D, lim⟩ with ⟨s', r⟩
  rw [hms] at h
  simp only at h
  subst h
  cases r with
  | error e => rfl
  | ok a => exact hf a D lim

theorem frozen_call (a : ℝ) (e : Fin 3 → ℝ) (w : IntegrateArg) (m : ℝ) (c : Bool) :
    Frozen (call E a e w m c) := fun D lim => by rw [call_some]

theorem frozen_pivot (a n : ℝ) (y : Bool) : Frozen (pivotM E a n y) :=
  (Frozen.lift _).bind fun _ => (frozen_call _ _ _ _ _).bind fun _ _ _ => rfl

theorem frozen_curvature (a n c e : ℝ) : Frozen (curvatureM E a n c e) :=
  (frozen_call _ _ _ _ _).bind fun _ _ _ => rfl

theorem frozen_mcLoop (th n : ℝ) : ∀ (l : List ℝ) (e : ℝ), Frozen (mcLoop E th n e l)
  | [], _ => Frozen.pure _
  | _ :: l, _ => (frozen_curvature _ _ _ _).bind fun _ => (frozen_call _ _ _ _ _).bind fun _ =>
      (frozen_mcLoop th n l _).bind fun _ => Frozen.pure _

/-- Work done on the rotated data, between two opposite rotations. -/
theorem sandwich {α : Type} (th : ℝ) (m : CalcM α) (hm : Frozen m) (D : List Group)
    (lim : Option (ℝ × ℝ)) (b : α)
    (h : ((rotateData (-th) >>= fun _ => m >>= fun a => rotateData th >>= fun _ => pure a)
      (⟨some D, lim⟩ : CalcState)).2 = .ok b) :
    ((rotateData (-th) >>= fun _ => m >>= fun a => rotateData th >>= fun _ => pure a)
      (⟨some D, lim⟩ : CalcState)).1 = ⟨some D, lim⟩ := by
  have h0 : rotateData (-th) (⟨some D, lim⟩ : CalcState) =
      (⟨some (D.map (rotGroup (-th))), lim⟩, .ok ()) := rfl
  rw [CalcM.bind_ok h0] at h ⊢
  have h1 := hm (D.map (rotGroup (-th))) lim
  rcases hms : m ⟨some (D.map (rotGroup (-th))), lim⟩ with ⟨s', r⟩
  rw [hms] at h1
  simp only at h1
  subst h1
  cases r with
  | error e => rw [CalcM.bind_error hms] at h; cases h
  | ok a =>
    rw [CalcM.bind_ok hms]
    have := rotGroups_neg (-th) D
    rw [neg_neg] at this
    simp only [CalcM.bind_def, rotateData, Option.map_some, CalcM.pure_def, this]

end

end SC
