import Verif.Props.RCReturns
import Verif.Props.Domain

/-! # C67: the points of the interaction domains are the forces of their strain planes -/

set_option autoImplicit false

namespace SC

open Spec MeasureTheory

/-! ### A list of planes -/

/-- If the integrator answers every plane of the list with `G`, the loop over the planes returns `G` of each, in order. -/
theorem integrateAll_exact {E : Engine} {base : ℝ → Except PyErr (List Group)} (hE : E.Lawful base) {m : ℝ} {D : List Group}
    (hD : base m = .ok D) (G : (Fin 3 → ℝ) → Fin 3 → ℝ) (planes : List (Fin 3 → ℝ))
    (h : ∀ v ∈ planes, E.integ 0 v .stress (some D) m = .ok (.forces (G v), D)) :
    ∀ s : CalcState, s.data = none ∨ s.data = some D →
      (integrateAll E m planes s).2 = .ok (planes.map fun v => .forces (G v)) := by
  induction planes with
  | nil => intro s _; rfl
  | cons v l ih =>
    intro s hs
    have hv := h v (by simp)
    have hcall : call E 0 v .stress m true s = (⟨some D, s.lim⟩, .ok (.forces (G v))) := by
      obtain ⟨d, lim⟩ := s
      simp only at hs
      rcases hs with rfl | rfl
      · simp only [call, hE.first, hD, hv]; rfl
      · simp only [call, hv]; rfl
    have ih' := ih (fun w hw => h w (by simp [hw])) ⟨some D, s.lim⟩ (Or.inr rfl)
    have htail : integrateAll E m l ⟨some D, s.lim⟩ =
        ((integrateAll E m l ⟨some D, s.lim⟩).1, .ok (l.map fun v => .forces (G v))) := Prod.ext rfl ih'
    simp only [integrateAll]
    rw [CalcM.bind_ok hcall, CalcM.bind_ok htail]
    rfl

/-! ### Concrete sections -/

/-- A strain plane the integrator reproduces exactly on a concrete part: the strains of the concrete are not beyond the limit;
a uniform strain is not close to a limit without being equal to it; the polygon is cut exactly parallel to the neutral axis. -/
structure ConcretePart.Sees (split : Polygon → ℝ → ℝ → ShapelyResult) (p : ConcretePart) (v : Fin 3 → ℝ) : Prop where
  within : ∀ x ∈ p.region, -|p.eps_u| ≤ planeStrain v x.1 x.2
  uniform : v 1 = 0 → v 2 = 0 → snap (p.law.ult false) (v 0) = v 0
  splits : v 1 ≠ 0 ∨ v 2 ≠ 0 → SplitsExactly split (p.polygon.rotate (neutralAngle v)) (rotPt (neutralAngle v) '' p.region)

/-- What is assumed of the part itself. -/
structure ConcretePart.Sound (p : ConcretePart) : Prop where
  encloses : Encloses p.polygon.ext p.polygon.ints p.region
  inHull : p.region ⊆ convexHull ℝ {v | v ∈ p.polygon.ext}
  peak : 0 < |p.eps_0|
  plateau : |p.eps_0| + 1e-6 + 1e-5 * |p.eps_u| < |p.eps_u|

theorem concrete_good_plane {split : Polygon → ℝ → ℝ → ShapelyResult} {p : ConcretePart} (h : p.Sound) {v : Fin 3 → ℝ}
    (hv : p.Sees split v) : SurfSpec.Good split .stress v ⟨p.surf, p.region, p.law.stress⟩ := by
  have hu : |p.eps_0| ≤ |p.eps_u| := by
    linarith [h.plateau, abs_nonneg p.eps_u, show (0:ℝ) < 1e-6 by norm_num]
  by_cases hc : v 1 = 0 ∧ v 2 = 0
  · have : v = ![v 0, 0, 0] := by
      funext i
      fin_cases i
      · rfl
      · exact hc.1
      · exact hc.2
    rw [this]
    exact concrete_good_uniform h.encloses h.peak hu (hv.uniform hc.1 hc.2)
  · have hg : v 1 ≠ 0 ∨ v 2 ≠ 0 := by tauto
    have hp := gradient_pos hg
    obtain ⟨rs, hrs, hm⟩ := pr_core_pieces p.fc p.eps_0 p.eps_u (v 0) (gradient v) h.peak hu hp.ne'
    have e2 : ∀ e0 e1, e1 ≠ 0 → (p.law.marin e0 e1).2 = e0 := by
      intro a b hb; simp [ParabolaRectangle.marin, hb]
    have e2' : ∀ e0 e1, e1 ≠ 0 → (p.law.marinT e0 e1).2 = e0 := by
      intro a b hb; simp [ParabolaRectangle.marinT, hb]
    refine (good_of_pieces split v hg p.polygon p.region h.encloses (hv.splits hg) p.law.marin p.law.marinT p.law.stress
      (fun e => -|p.eps_u| ≤ e) hv.within e2 e2').1 ⟨rs, hrs, ?_⟩
    have hi := piecesMatch_interior hm
    have heq : ∀ x, -|p.eps_u| ≤ x → p.law.stress x = p.law.core x := fun x hx => pr_stress_core _ _ _ h.plateau hx
    exact ⟨hi.length, hi.tiling, fun rc hrc y hy a b => by rw [heq _ hy]; exact hi.inside rc hrc y trivial a b,
      fun y hy hout => by rw [heq _ hy]; exact hi.outside y trivial hout⟩

/-- The integrator returns the exact forces of the plane on the section as it stands. -/
theorem concrete_integ (split : Polygon → ℝ → ℝ → ShapelyResult) (parts : List ConcretePart) (bars : List Bar) (ms m : ℝ)
    (hid : SameIds (bars.map Bar.law)) (hd : EqualSizes (groupBars bars)) (hs : ∀ p ∈ parts, p.Sound) {v : Fin 3 → ℝ}
    (hv : ∀ p ∈ parts, p.Sees split v) :
    (sectionEngine split (parts.map ConcretePart.solid) bars ms).integ 0 v .stress (some (groupBars bars)) m =
      .ok (.forces ((concreteSection parts bars).forces v), groupBars bars) := by
  have h := C50_forces_partial split (parts.map fun p => ⟨p.surf, p.region, p.law.stress⟩) (bars.map (Bar.rotate 0))
    (groupBars bars) hd v (by
      intro s hs'
      obtain ⟨p, hp, rfl⟩ := List.mem_map.1 hs'
      exact concrete_good_plane (hs p hp) (hv p hp))
  have hsurf : ((parts.map ConcretePart.solid).map fun s => s.spec.surf).map
      (fun g => ({ g with polygon := g.polygon.rotate 0 } : Surf)) =
      (parts.map fun p => (⟨p.surf, p.region, p.law.stress⟩ : SurfSpec)).map SurfSpec.surf := by
    simp only [List.map_map, Function.comp_def, polygon_rotate_zero]
    rfl
  have hbars : resultants ((concreteSection parts bars).rods.map Rod.fibre) v =
      resultants (fibres Law.stress (groupBars bars)) v := by
    rw [resultants_perm (C18_grouping Law.stress bars hid)]
    simp only [concreteSection, List.map_map, Function.comp_def]
  simp only [sectionEngine, marinEngine, hsurf]
  rw [h]
  simp only [CrossSection.forces, hbars]
  simp only [concreteSection, List.map_map, Function.comp_def]

theorem canonical_data {E : Engine} {base : ℝ → Except PyErr (List Group)} {D : List Group} (hD : base E.meshSize = .ok D)
    {s : CalcState} (h : Canonical E base s) : s.data = none ∨ s.data = some D := by
  rcases h with rfl | ⟨D', hD', rfl | ⟨L, -, rfl⟩⟩
  · exact Or.inl rfl
  · rw [hD] at hD'; cases hD'; exact Or.inr rfl
  · rw [hD] at hD'; cases hD'; exact Or.inr rfl

/-! ### The profiles -/

/-- Profiles stay above the compressive limit everywhere between the lowest ordinate and the governing upper one. -/
theorem profiles_above (bal : Bool → Except PyErr (ℝ × ℝ × (Fin 3 → ℝ))) (minY : ℝ) (rc : Bool)
    (theta : ℝ) (num : Fin 6 → ℤ) (ty : Fin 6 → Spacing) (planes : List (Fin 3 → ℝ)) (labels : List ℕ)
    (h : ultimateProfiles bal minY rc theta num ty = .ok (planes, labels))
    (yn yp yn' yp' eps_n_b eps_p_b eps_n_y eps_p_y : ℝ) (s s' : Fin 3 → ℝ)
    (hb : bal false = .ok (yn, yp, s)) (hy : bal true = .ok (yn', yp', s'))
    (hlt : yp < yn)
    (e1 : eps_n_b = planeStrain s 0 yn) (e2 : eps_p_b = planeStrain s 0 yp)
    (e3 : eps_n_y = planeStrain s' 0 yn') (e4 : eps_p_y = planeStrain s' 0 yp')
    (o1 : eps_n_b ≤ eps_n_y) (o2 : eps_n_y < 0) (o3 : 0 < eps_p_y) (o4 : eps_p_y ≤ eps_p_b)
    (hmin : minY ≤ yp) (zp : ℝ)
    (hzp : zp = minY + eps_n_y / eps_n_b * (yn - minY)) (hz : zp ≠ yp)
    (res : ∀ e ∈ [eps_n_b, eps_p_b, eps_n_y, eps_p_y, eps_n_b * ((yp - minY) / (yn - minY))], Resolved e) :
    ∀ v ∈ planes, (∀ x y, minY ≤ y → y ≤ yn → eps_n_b ≤ planeStrain v (rotPt theta (x, y)).1 (rotPt theta (x, y)).2) ∧
      (v 1 = 0 → v 2 = 0 → v 0 = eps_p_b ∨ v 0 = eps_n_b ∨ v 0 = eps_n_y) := by
  obtain ⟨hin, hfail⟩ := C38_bounds_partial bal minY rc theta num ty planes labels h yn yp yn' yp' eps_n_b eps_p_b eps_n_y
    eps_p_y s s' hb hy hlt e1 e2 e3 e4 o1 o2 o3 o4 hmin zp hzp hz res
  intro v hv
  obtain ⟨f, F, hf, hF, hpl, -⟩ := ultimateProfiles_ok h
  have hline : ∃ a k, ∀ x y, planeStrain v (rotPt theta (x, y)).1 (rotPt theta (x, y)).2 = a + k * y := by
    rw [hpl] at hv
    obtain ⟨p, hp, rfl⟩ := List.mem_map.1 hv
    refine ⟨p.1 - (p.1 - p.2) / (f.y_n - f.y_p) * f.y_n, (p.1 - p.2) / (f.y_n - f.y_p), fun x y => ?_⟩
    have hsq := Real.sin_sq_add_cos_sq theta
    simp only [profilePlane, rot2, planeStrain, rotPt, Matrix.cons_val]
    linear_combination ((p.1 - p.2) / (f.y_n - f.y_p) * y) * hsq
  obtain ⟨a, k, hl⟩ := hline
  have hP := hin v hv 0 yp le_rfl hlt.le
  have hN := hin v hv 0 yn hlt.le le_rfl
  have hfl := hfail v hv 0
  simp only [hl] at hP hN hfl ⊢
  have hnb : eps_n_b < 0 := by linarith
  have hzn : zp ≤ yn := by
    have : eps_n_y / eps_n_b ≤ 1 := by
      rw [div_le_one_of_neg hnb]; exact o1
    rw [hzp]
    nlinarith
  constructor
  · intro _ y hy1 hy2
    rcases le_total yp y with hyp | hyp
    · have := hin v hv 0 y hyp hy2
      rw [hl] at this
      exact this.1
    · rcases hfl with hf1 | hf1 | ⟨-, hf1, hf2⟩
      · -- slope not positive
        have : k ≤ 0 := by
          by_contra hk
          push Not at hk
          nlinarith [hN.2]
        nlinarith
      · have : k ≤ 0 := by
          by_contra hk
          push Not at hk
          nlinarith [hP.1]
        nlinarith
      · rcases le_or_gt k 0 with hk | hk
        · nlinarith
        · -- rising line: the pivot is at the upper ordinate
          have : zp = yn ∨ zp < yn := hzn.eq_or_lt
          rcases this with h' | h'
          · have hzy : eps_n_y = eps_n_b := by
              have h1 : eps_n_y / eps_n_b * (yn - minY) = 1 * (yn - minY) := by linarith
              have h2 := mul_right_cancel₀ (by linarith : yn - minY ≠ 0) h1
              rwa [div_eq_one_iff_eq hnb.ne] at h2
            rw [h'] at hf1
            exfalso
            nlinarith [hP.1]
          · exfalso
            nlinarith
  · intro h1 h2
    have hu : ∀ x y, planeStrain v x y = v 0 := by intro x y; simp [planeStrain, h1, h2]
    have hk := hl 0
    simp only [hu] at hk
    rw [← hk, ← hk, ← hk] at hfl
    rcases hfl with h | h | ⟨-, h, -⟩
    · exact Or.inl h
    · exact Or.inr (Or.inl h)
    · exact Or.inr (Or.inr h)

/-- geometry/_geometry.py:803-825 `CompoundGeometry.calculate_extents` (third value) of the surfaces turned by `a`. -/
noncomputable def sectionMinY (polys : List Polygon) (a : ℝ) : ℝ :=
  polys.foldl (fun m p => min m (p.rotate a).bounds.2.1) 1e16

theorem foldl_bounds_le (l : List Polygon) (a m : ℝ) :
    l.foldl (fun m p => min m (p.rotate a).bounds.2.1) m ≤ m ∧
      ∀ p ∈ l, l.foldl (fun m p => min m (p.rotate a).bounds.2.1) m ≤ (p.rotate a).bounds.2.1 := by
  induction l generalizing m with
  | nil => simp
  | cons q l ih =>
    obtain ⟨h1, h2⟩ := ih (min m (q.rotate a).bounds.2.1)
    simp only [List.foldl_cons]
    refine ⟨h1.trans (min_le_left _ _), fun p hp => ?_⟩
    rcases List.mem_cons.1 hp with rfl | hp
    · exact h1.trans (min_le_right _ _)
    · exact h2 p hp

theorem minY_le (polys : List Polygon) (th : ℝ) {p : Polygon} (hp : p ∈ polys) {v : ℝ × ℝ} (hv : v ∈ p.ext) :
    sectionMinY polys (-th) ≤ height th v := by
  have hne : (p.rotate (-th)).ext ≠ [] := by
    intro h
    simp only [Polygon.rotate, List.map_eq_nil_iff] at h
    rw [h] at hv
    cases hv
  have h1 := (foldl_bounds_le polys (-th) 1e16).2 p hp
  have h2 := (bounds_spec hne (v := rotPt (-th) v) (List.mem_map_of_mem hv)).2.2.1
  rw [rotPt_height] at h2
  exact h1.trans h2

/-- The section seen in direction `theta` is ordinary: the yield strains lie within the limit strains of the balanced failure, the
governing compressed ordinate is not below any concrete, and no concrete fails at a smaller compression than the governing one. -/
structure Ordinary (bal : ℝ → Bool → Except PyErr (ℝ × ℝ × (Fin 3 → ℝ))) (parts : List ConcretePart) (theta : ℝ)
    (yn yp eps_n_b eps_p_b eps_n_y eps_p_y : ℝ) : Prop where
  ultimate : ∃ s, bal (-theta) false = .ok (yn, yp, s) ∧ eps_n_b = planeStrain s 0 yn ∧ eps_p_b = planeStrain s 0 yp
  yielding : ∃ yn' yp' s', bal (-theta) true = .ok (yn', yp', s') ∧ eps_n_y = planeStrain s' 0 yn' ∧ eps_p_y = planeStrain s' 0 yp'
  below : yp < yn
  order : eps_n_b ≤ eps_n_y ∧ eps_n_y < 0 ∧ 0 < eps_p_y ∧ eps_p_y ≤ eps_p_b
  lowest : sectionMinY (parts.map ConcretePart.polygon) (-theta) ≤ yp
  pivot : sectionMinY (parts.map ConcretePart.polygon) (-theta) +
    eps_n_y / eps_n_b * (yn - sectionMinY (parts.map ConcretePart.polygon) (-theta)) ≠ yp
  resolved : ∀ e ∈ [eps_n_b, eps_p_b, eps_n_y, eps_p_y, eps_n_b * ((yp - sectionMinY (parts.map ConcretePart.polygon) (-theta)) /
    (yn - sectionMinY (parts.map ConcretePart.polygon) (-theta)))], Resolved e
  top : ∀ p ∈ parts, ∀ v ∈ p.polygon.ext, height theta v ≤ yn
  governs : ∀ p ∈ parts, -|p.eps_u| ≤ eps_n_b
  notClose : ∀ p ∈ parts, ∀ e ∈ [eps_n_b, eps_p_b, eps_n_y], snap (p.law.ult false) e = e

theorem ordinary_sees {split : Polygon → ℝ → ℝ → ShapelyResult} {bal : ℝ → Bool → Except PyErr (ℝ × ℝ × (Fin 3 → ℝ))}
    {parts : List ConcretePart} {theta yn yp a b c d : ℝ} (h : Ordinary bal parts theta yn yp a b c d)
    (hs : ∀ p ∈ parts, p.Sound) {num : Fin 6 → ℤ} {ty : Fin 6 → Spacing} {rc : Bool} {planes : List (Fin 3 → ℝ)} {labels : List ℕ}
    (hrun : ultimateProfiles (bal (-theta)) (sectionMinY (parts.map ConcretePart.polygon) (-theta)) rc theta num ty =
      .ok (planes, labels))
    (hsplit : ∀ p ∈ parts, ∀ v ∈ planes, v 1 ≠ 0 ∨ v 2 ≠ 0 →
      SplitsExactly split (p.polygon.rotate (neutralAngle v)) (rotPt (neutralAngle v) '' p.region)) :
    ∀ v ∈ planes, ∀ p ∈ parts, p.Sees split v := by
  obtain ⟨s, h1, e1, e2⟩ := h.ultimate
  obtain ⟨yn', yp', s', h2, e3, e4⟩ := h.yielding
  obtain ⟨o1, o2, o3, o4⟩ := h.order
  have key := profiles_above (bal (-theta)) _ rc theta num ty planes labels hrun yn yp yn' yp' a b c d s s' h1 h2 h.below
    e1 e2 e3 e4 o1 o2 o3 o4 h.lowest _ rfl h.pivot h.resolved
  intro v hv p hp
  obtain ⟨k1, k2⟩ := key v hv
  refine ⟨fun x hx => ?_, fun u1 u2 => ?_, hsplit p hp v hv⟩
  · have hc : ∀ w ∈ {w | w ∈ p.polygon.ext}, a ≤ planeStrain v w.1 w.2 ∧
        planeStrain v w.1 w.2 ≤ |v 0| + |v 1| * |w.2| + |v 2| * |w.1| := by
      intro w hw
      constructor
      · have := k1 (rotPt (-theta) w).1 (rotPt (-theta) w).2
          (by rw [rotPt_height]; exact minY_le _ theta (List.mem_map_of_mem hp) hw)
          (by rw [rotPt_height]; exact h.top p hp w hw)
        rwa [Prod.mk.eta, rotPt_add, add_neg_cancel, rotPt_zero] at this
      · simp only [planeStrain]
        rw [← abs_mul, ← abs_mul]
        linarith [le_abs_self (v 0), le_abs_self (v 1 * w.2), neg_abs_le (v 2 * w.1)]
    have hlow : ∀ x ∈ convexHull ℝ {w | w ∈ p.polygon.ext}, a ≤ planeStrain v x.1 x.2 := by
      have hconv : Convex ℝ {x : ℝ × ℝ | a ≤ planeStrain v x.1 x.2} := by
        intro x hx y hy r t hr ht hrt
        simp only [Set.mem_ofPred_eq] at hx hy ⊢
        have : planeStrain v (r • x + t • y).1 (r • x + t • y).2 = r * planeStrain v x.1 x.2 + t * planeStrain v y.1 y.2 := by
          simp only [planeStrain, Prod.fst_add, Prod.snd_add, Prod.smul_fst, Prod.smul_snd, smul_eq_mul]
          linear_combination (v 0) * (1 - hrt)
        rw [this]
        have ht' : t = 1 - r := by linarith
        subst ht'
        nlinarith
      exact convexHull_min (fun w hw => (hc w hw).1) hconv
    exact (h.governs p hp).trans (hlow x ((hs p hp).inHull hx))
  · rcases k2 u1 u2 with e | e | e <;> rw [e] <;> exact h.notClose p hp _ (by simp)

theorem profile_parallel {bal : Bool → Except PyErr (ℝ × ℝ × (Fin 3 → ℝ))} {minY : ℝ} {rc : Bool} {theta : ℝ}
    {num : Fin 6 → ℤ} {ty : Fin 6 → Spacing} {planes : List (Fin 3 → ℝ)} {labels : List ℕ}
    (h : ultimateProfiles bal minY rc theta num ty = .ok (planes, labels)) {v : Fin 3 → ℝ} (hv : v ∈ planes) :
    v 1 * Real.sin theta = v 2 * Real.cos theta := by
  obtain ⟨f, F, -, -, hpl, -⟩ := ultimateProfiles_ok h
  rw [hpl] at hv
  obtain ⟨p, hp, rfl⟩ := List.mem_map.1 hv
  simp only [profilePlane, rot2, rotPt, Matrix.cons_val]
  ring

theorem mem_dropEndsRev {α : Type} {l : List α} {x : α} (h : x ∈ dropEndsRev l) : x ∈ l := by
  simp only [dropEndsRev, List.mem_reverse] at h
  exact List.mem_of_mem_dropLast (List.mem_of_mem_drop h)

/-- **C67** (N-M domain, partial: ordinary sections of parabola-rectangle concrete and bars, Marin integrator). Whatever was
calculated before, `calculate_nm_interaction_domain` returns as soon as its strain profiles exist, one point per profile, in order,
and every point is exactly `(N, My, Mz)` of the section under its profile. -/
theorem C67_nm_partial (split : Polygon → ℝ → ℝ → ShapelyResult) (parts : List ConcretePart) (bars : List Bar)
    (ms theta : ℝ) (lu : Matrix (Fin 3) (Fin 3) ℝ → (Fin 3 → ℝ) → (Fin 3 → ℝ)) (ops : List Op)
    (hops : Undisturbed (sectionEngine split (parts.map ConcretePart.solid) bars ms) lu ops .fresh)
    (hid : SameIds (bars.map Bar.law)) (hd : EqualSizes (groupBars bars)) (hs : ∀ p ∈ parts, p.Sound)
    (rc : Bool) (num : Fin 6 → ℤ) (ty : Fin 6 → Spacing) (complete : Bool) {planes : List (Fin 3 → ℝ)} {labels : List ℕ}
    (hprof : nmProfiles (sectionEngine split (parts.map ConcretePart.solid) bars ms).balanced
      (sectionMinY (parts.map ConcretePart.polygon)) rc theta num ty complete = .ok (planes, labels))
    {yn yp a b c d : ℝ}
    (hord : Ordinary (sectionEngine split (parts.map ConcretePart.solid) bars ms).balanced parts theta yn yp a b c d)
    {yn' yp' a' b' c' d' : ℝ}
    (hord' : complete = true →
      Ordinary (sectionEngine split (parts.map ConcretePart.solid) bars ms).balanced parts (theta + Real.pi) yn' yp' a' b' c' d')
    (hsplit : ∀ p ∈ parts, ∀ v : Fin 3 → ℝ, v 1 * Real.sin theta = v 2 * Real.cos theta → v 1 ≠ 0 ∨ v 2 ≠ 0 →
      SplitsExactly split (p.polygon.rotate (neutralAngle v)) (rotPt (neutralAngle v) '' p.region)) :
    (nmDomain (sectionEngine split (parts.map ConcretePart.solid) bars ms)
      ((nmProfiles (sectionEngine split (parts.map ConcretePart.solid) bars ms).balanced
        (sectionMinY (parts.map ConcretePart.polygon)) rc theta num ty complete).map Prod.fst)
      (history (sectionEngine split (parts.map ConcretePart.solid) bars ms) lu ops .fresh)).2 =
      .ok (planes.map fun v => .forces ((concreteSection parts bars).forces v)) := by
  set E := sectionEngine split (parts.map ConcretePart.solid) bars ms with hEd
  have hE : E.Lawful fun _ => .ok (groupBars bars) := marinEngine_lawful _ _ _ _ _ _
  have hcan := canonical_history lu hE rfl ops _ (Or.inl rfl) hops
  have hsees : ∀ v ∈ planes, ∀ p ∈ parts, p.Sees split v := by
    have hprof' := hprof
    simp only [nmProfiles] at hprof'
    cases h1 : ultimateProfiles (E.balanced (-theta)) (sectionMinY (parts.map ConcretePart.polygon) (-theta)) rc theta num ty with
    | error er => rw [h1] at hprof'; cases hprof'
    | ok r =>
      obtain ⟨q, k⟩ := r
      rw [h1] at hprof'
      simp only at hprof'
      have hq := ordinary_sees hord hs h1 fun p hp v hv hc => hsplit p hp v (profile_parallel h1 hv) hc
      cases complete with
      | false =>
        simp only [Bool.false_eq_true, if_false, Except.ok.injEq, Prod.mk.injEq] at hprof'
        rw [← hprof'.1]; exact hq
      | true =>
        simp only [if_true] at hprof'
        cases h2 : ultimateProfiles (E.balanced (-(theta + Real.pi)))
            (sectionMinY (parts.map ConcretePart.polygon) (-(theta + Real.pi))) rc (theta + Real.pi) num ty with
        | error er => rw [h2] at hprof'; cases hprof'
        | ok r' =>
          obtain ⟨q', k'⟩ := r'
          rw [h2] at hprof'
          simp only [Except.ok.injEq, Prod.mk.injEq] at hprof'
          have hq' := ordinary_sees (hord' rfl) hs h2 fun p hp v hv hc => hsplit p hp v (by
            have := profile_parallel h2 hv
            rw [Real.sin_add_pi, Real.cos_add_pi] at this
            linarith) hc
          rw [← hprof'.1]
          intro v hv
          rcases List.mem_append.1 hv with hv | hv
          · exact hq v hv
          · exact hq' v (mem_dropEndsRev hv)
  have := integrateAll_exact hE (m := E.meshSize) (D := groupBars bars) rfl (concreteSection parts bars).forces planes
    (fun v hv => concrete_integ split parts bars ms _ hid hd hs (hsees v hv)) _ (canonical_data rfl hcan)
  rw [hprof]
  exact this

/-! ### The N-My-Mz domain -/

theorem nmmLoop_chunks {bal : ℝ → Bool → Except PyErr (ℝ × ℝ × (Fin 3 → ℝ))} {minY : ℝ → ℝ} {rc : Bool}
    {num : Fin 6 → ℤ} {ty : Fin 6 → Spacing} {ths : List ℝ} : ∀ {acc : List (Fin 3 → ℝ)} {k k' : Option (List ℕ)}
    {s : List (Fin 3 → ℝ)}, nmmLoop bal minY rc num ty ths acc k = .ok (s, k') →
    ∃ chunks : List (List (Fin 3 → ℝ)), s = acc ++ chunks.flatten ∧
      List.Forall₂ (fun th q => ∃ l, ultimateProfiles (bal (-th)) (minY (-th)) rc th num ty = .ok (q, l)) ths chunks := by
  induction ths with
  | nil =>
    intro acc k k' s h
    simp only [nmmLoop, Except.ok.injEq, Prod.mk.injEq] at h
    exact ⟨[], by simp [h.1], List.Forall₂.nil⟩
  | cons th rest ih =>
    intro acc k k' s h
    simp only [nmmLoop] at h
    cases h1 : ultimateProfiles (bal (-th)) (minY (-th)) rc th num ty with
    | error er => rw [h1] at h; cases h
    | ok r =>
      obtain ⟨q, l⟩ := r
      rw [h1] at h
      obtain ⟨chunks, hs, hf⟩ := ih h
      refine ⟨q :: chunks, ?_, List.Forall₂.cons ⟨l, h1⟩ hf⟩
      rw [hs, List.flatten_cons, List.append_assoc]

/-- **C67** (N-My-Mz domain, partial: as `C67_nm_partial`). The profiles are those of the angles `0 ... 2 pi`, in order, and every
point is exactly `(N, My, Mz)` of the section under its profile. -/
theorem C67_nmm_partial (split : Polygon → ℝ → ℝ → ShapelyResult) (parts : List ConcretePart) (bars : List Bar)
    (ms : ℝ) (lu : Matrix (Fin 3) (Fin 3) ℝ → (Fin 3 → ℝ) → (Fin 3 → ℝ)) (ops : List Op)
    (hops : Undisturbed (sectionEngine split (parts.map ConcretePart.solid) bars ms) lu ops .fresh)
    (hid : SameIds (bars.map Bar.law)) (hd : EqualSizes (groupBars bars)) (hs : ∀ p ∈ parts, p.Sound)
    (rc : Bool) (num : Fin 6 → ℤ) (ty : Fin 6 → Spacing) (numTheta : ℕ) {planes : List (Fin 3 → ℝ)} {labels : List ℕ}
    (hprof : nmmProfiles (sectionEngine split (parts.map ConcretePart.solid) bars ms).balanced
      (sectionMinY (parts.map ConcretePart.polygon)) rc numTheta num ty = .ok (planes, labels))
    (hord : ∀ th ∈ linspace 0 (Real.pi * 2) numTheta true, ∃ yn yp a b c d,
      Ordinary (sectionEngine split (parts.map ConcretePart.solid) bars ms).balanced parts th yn yp a b c d)
    (hsplit : ∀ p ∈ parts, ∀ th ∈ linspace 0 (Real.pi * 2) numTheta true, ∀ v : Fin 3 → ℝ,
      v 1 * Real.sin th = v 2 * Real.cos th → v 1 ≠ 0 ∨ v 2 ≠ 0 →
      SplitsExactly split (p.polygon.rotate (neutralAngle v)) (rotPt (neutralAngle v) '' p.region)) :
    (∃ chunks : List (List (Fin 3 → ℝ)), planes = chunks.flatten ∧
      List.Forall₂ (fun th q => ∃ l, ultimateProfiles
        ((sectionEngine split (parts.map ConcretePart.solid) bars ms).balanced (-th))
        (sectionMinY (parts.map ConcretePart.polygon) (-th)) rc th num ty = .ok (q, l))
        (linspace 0 (Real.pi * 2) numTheta true) chunks) ∧
    (nmmDomain (sectionEngine split (parts.map ConcretePart.solid) bars ms)
      ((nmmProfiles (sectionEngine split (parts.map ConcretePart.solid) bars ms).balanced
        (sectionMinY (parts.map ConcretePart.polygon)) rc numTheta num ty).map Prod.fst)
      (history (sectionEngine split (parts.map ConcretePart.solid) bars ms) lu ops .fresh)).2 =
      .ok (planes.map fun v => .forces ((concreteSection parts bars).forces v)) := by
  set E := sectionEngine split (parts.map ConcretePart.solid) bars ms with hEd
  have hE : E.Lawful fun _ => .ok (groupBars bars) := marinEngine_lawful _ _ _ _ _ _
  have hcan := canonical_history lu hE rfl ops _ (Or.inl rfl) hops
  have hch : ∃ chunks : List (List (Fin 3 → ℝ)), planes = chunks.flatten ∧
      List.Forall₂ (fun th q => ∃ l, ultimateProfiles (E.balanced (-th))
        (sectionMinY (parts.map ConcretePart.polygon) (-th)) rc th num ty = .ok (q, l))
        (linspace 0 (Real.pi * 2) numTheta true) chunks := by
    have h := hprof
    simp only [nmmProfiles] at h
    cases h1 : nmmLoop E.balanced (sectionMinY (parts.map ConcretePart.polygon)) rc num ty
        (linspace 0 (Real.pi * 2) numTheta true) [] none with
    | error er => rw [h1] at h; cases h
    | ok r =>
      obtain ⟨q, k⟩ := r
      rw [h1] at h
      cases k with
      | none => cases h
      | some k =>
        simp only [Except.ok.injEq, Prod.mk.injEq] at h
        obtain ⟨chunks, hq, hf⟩ := nmmLoop_chunks h1
        exact ⟨chunks, by rw [← h.1, hq, List.nil_append], hf⟩
  refine ⟨hch, ?_⟩
  have hsees : ∀ v ∈ planes, ∀ p ∈ parts, p.Sees split v := by
    obtain ⟨chunks, rfl, hf⟩ := hch
    intro v hv
    obtain ⟨q, hq, hvq⟩ := List.mem_flatten.1 hv
    have : ∀ {ths : List ℝ} {cs : List (List (Fin 3 → ℝ))}, List.Forall₂ (fun th q => ∃ l, ultimateProfiles (E.balanced (-th))
        (sectionMinY (parts.map ConcretePart.polygon) (-th)) rc th num ty = .ok (q, l)) ths cs → q ∈ cs →
        ∃ th ∈ ths, ∃ l, ultimateProfiles (E.balanced (-th))
        (sectionMinY (parts.map ConcretePart.polygon) (-th)) rc th num ty = .ok (q, l) := by
      intro ths cs h hq
      induction h with
      | nil => cases hq
      | cons hd' _ ih =>
        rcases List.mem_cons.1 hq with rfl | hq
        · exact ⟨_, by simp, hd'⟩
        · obtain ⟨th, hth, h⟩ := ih hq
          exact ⟨th, by simp [hth], h⟩
    obtain ⟨th, hth, l, hl⟩ := this hf hq
    obtain ⟨yn, yp, a, b, c, d, ho⟩ := hord th hth
    exact ordinary_sees ho hs hl (fun p hp v hv hc => hsplit p hp th hth v (profile_parallel hl hv) hc) v hvq
  have := integrateAll_exact hE (m := defaultMesh) (D := groupBars bars) rfl (concreteSection parts bars).forces planes
    (fun v hv => concrete_integ split parts bars ms _ hid hd hs (hsees v hv)) _ (canonical_data rfl hcan)
  rw [hprof]
  exact this

/-! ### The My-Mz domain -/

theorem history_append (E : Engine) (lu : Matrix (Fin 3) (Fin 3) ℝ → (Fin 3 → ℝ) → (Fin 3 → ℝ)) (op : Op) :
    ∀ (ops : List Op) (s : CalcState), history E lu (ops ++ [op]) s = (op.run E lu (history E lu ops s)).1
  | [], _ => rfl
  | o :: ops, s => history_append E lu op ops _

theorem undisturbed_append {E : Engine} {lu : Matrix (Fin 3) (Fin 3) ℝ → (Fin 3 → ℝ) → (Fin 3 → ℝ)} {op : Op} :
    ∀ {ops : List Op} {s : CalcState}, Undisturbed E lu ops s → (∃ a, (op.run E lu (history E lu ops s)).2 = .ok a) →
      Undisturbed E lu (ops ++ [op]) s
  | [], _, _, h => ⟨fun _ => h, trivial⟩
  | _ :: _, _, h, h' => ⟨h.1, undisturbed_append h.2 h'⟩

/-- **C67** (My-Mz domain, partial: as `C66_reinforced_concrete_partial`). `calculate_mm_interaction_domain` returns one point per
angle, in order; the strain plane of each point has the requested inclination, is a failure plane that exceeds no limit, its
moments are exactly the returned ones, and its axial force (reported as the requested `n`) is within 0.01 of `n`. -/
theorem C67_mm_partial (split : Polygon → ℝ → ℝ → ShapelyResult) (parts : List ConcretePart) (bars : List Bar)
    (ms : ℝ) (lu : Matrix (Fin 3) (Fin 3) ℝ → (Fin 3 → ℝ) → (Fin 3 → ℝ)) (thetas : List ℝ)
    (hid : SameIds (bars.map Bar.law)) (hd : EqualSizes (groupBars bars))
    (hlim : ∀ c ∈ (concreteSection parts bars).corners, c.2.1 ≤ 0 ∧ 0 ≤ c.2.2)
    (hth : ∀ th ∈ thetas, (∀ p ∈ parts, p.Ok split th) ∧
      (∀ c ∈ (concreteSection parts bars).corners, ∀ d ∈ (concreteSection parts bars).corners,
        1e-13 * (height th d.1 - height th c.1) ≤ c.2.2 - d.2.1) ∧
      ∃ yn yp st, (sectionEngine split (parts.map ConcretePart.solid) bars ms).balanced (-th) false = .ok (yn, yp, st) ∧
        ∀ c ∈ (concreteSection parts bars).corners, planeStrain st 0 yp ≤ c.2.2 ∧ c.2.1 ≤ planeStrain st 0 yn) :
    ∃ C : Set ℝ, C.Countable ∧ ∀ (n : ℝ) (ops : List Op) (bs : List BendingResult),
      Undisturbed (sectionEngine split (parts.map ConcretePart.solid) bars ms) lu ops .fresh →
      (mmDomain (sectionEngine split (parts.map ConcretePart.solid) bars ms) n thetas
        (history (sectionEngine split (parts.map ConcretePart.solid) bars ms) lu ops .fresh)).2 = .ok bs →
      List.Forall₂ (fun th b =>
        (∃ c < 0, b.chi = (c * Real.cos th, c * Real.sin th)) ∧
        (concreteSection parts bars).forces ![b.eps_a, b.chi.1, b.chi.2] = ![b.n, b.m.1, b.m.2] ∧
        (concreteSection parts bars).AtLimit ![b.eps_a, b.chi.1, b.chi.2] ∧
        (concreteSection parts bars).Admissible ![b.eps_a, b.chi.1, b.chi.2] ∧
        ∀ yn yp st, (sectionEngine split (parts.map ConcretePart.solid) bars ms).balanced (-th) false = .ok (yn, yp, st) →
          n ∉ C →
          (concreteSection parts bars).forces (planeThrough th yn (planeStrain st 0 yn) (-1e-13)) 0 < n →
          n < (concreteSection parts bars).forces (planeThrough th yp (planeStrain st 0 yp) (-1e-13)) 0 →
          |b.n - n| ≤ 1e-2) thetas bs := by
  induction thetas with
  | nil =>
    refine ⟨∅, Set.countable_empty, fun n ops bs _ h => ?_⟩
    simp only [mmDomain, CalcM.pure_def, Except.ok.injEq] at h
    rw [← h]
    exact List.Forall₂.nil
  | cons th rest ih =>
    obtain ⟨C1, hC1, h1⟩ := ih fun t ht => hth t (by simp [ht])
    obtain ⟨hok, hflat, yn, yp, st, hbal, hgov⟩ := hth th (by simp)
    obtain ⟨C2, hC2, h2⟩ := C66_reinforced_concrete_partial split parts bars ms th lu hok hid hd hlim hflat hbal hgov
    refine ⟨C1 ∪ C2, hC1.union hC2, fun n ops bs hops h => ?_⟩
    set E := sectionEngine split (parts.map ConcretePart.solid) bars ms with hEd
    obtain ⟨s1, b, hb, h⟩ := CalcM.bind_eq_ok (Prod.ext rfl h : mmDomain E n (th :: rest) (history E lu ops .fresh) = (_, .ok bs))
    obtain ⟨s2, tail, ht, h⟩ := CalcM.bind_eq_ok h
    simp only [CalcM.pure_def, Prod.mk.injEq, Except.ok.injEq] at h
    obtain ⟨-, rfl⟩ := h
    obtain ⟨a1, a2, a3, a4, a5⟩ := h2 n ops b hops (by rw [hb])
    have hrun : (Op.bending th n).run E lu (history E lu ops .fresh) = (s1, .ok (.bending b)) := by
      simp only [Op.run]
      rw [CalcM.bind_ok hb]
      rfl
    have hs1 : history E lu (ops ++ [.bending th n]) .fresh = s1 := by rw [history_append, hrun]
    have := h1 n (ops ++ [.bending th n]) tail (undisturbed_append hops ⟨_, by rw [hrun]⟩) (by rw [hs1, ht])
    refine List.Forall₂.cons ⟨a1, a2, a3, a4, ?_⟩ (this.imp fun t b' hb' => ?_)
    · intro yn' yp' st' hbal' hn
      rw [hbal] at hbal'
      cases hbal'
      exact a5 fun h => hn (Or.inr h)
    · obtain ⟨b1, b2, b3, b4, b5⟩ := hb'
      exact ⟨b1, b2, b3, b4, fun yn' yp' st' hb hn => b5 yn' yp' st' hb fun h => hn (Or.inl h)⟩

end SC
