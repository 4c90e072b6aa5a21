import Verif.Props.ScalingDesign
import Verif.Props.OrdinaryDomain3D

/-! # C72, C90: the interaction domains of moved and scaled sections -/

set_option autoImplicit false

namespace SC

open Spec MeasureTheory

/-! ### Strain profiles of corresponding sections -/

/-- The same strains at the heights `l y + t`. -/
def FieldData.image (f : FieldData) (l t : ℝ) : FieldData :=
  { f with y_n := l * f.y_n + t, y_p := l * f.y_p + t, min_y := l * f.min_y + t }

theorem image_fields (f : FieldData) {l : ℝ} (hl : 0 < l) (t : ℝ) (rc : Bool) (num : Fin 6 → ℤ) (ty : Fin 6 → Spacing) :
    sixFields (f.image l t) rc num ty = sixFields f rc num ty := by
  have h0 := hl.ne'
  have e1 : (f.image l t).epsPLim = f.epsPLim := by
    simp only [FieldData.epsPLim, FieldData.image]
    rw [show f.eps_n_b * (l * f.y_n + t - (l * f.min_y + t) - (l * f.y_n + t - (l * f.y_p + t))) =
      l * (f.eps_n_b * (f.y_n - f.min_y - (f.y_n - f.y_p))) by ring,
      show l * f.y_n + t - (l * f.min_y + t) = l * (f.y_n - f.min_y) by ring, mul_div_mul_left _ _ h0]
  have e2 : (f.image l t).zPivot = l * f.zPivot + t := by
    simp only [FieldData.zPivot, FieldData.image]
    ring
  have e3 : ∀ x : ℝ, -(f.eps_n_y - x) * (l * f.zPivot + t - (l * f.y_n + t)) / (l * f.zPivot + t - (l * f.y_p + t)) =
      -(f.eps_n_y - x) * (f.zPivot - f.y_n) / (f.zPivot - f.y_p) := by
    intro x
    rw [show -(f.eps_n_y - x) * (l * f.zPivot + t - (l * f.y_n + t)) = l * (-(f.eps_n_y - x) * (f.zPivot - f.y_n)) by ring,
      show l * f.zPivot + t - (l * f.y_p + t) = l * (f.zPivot - f.y_p) by ring, mul_div_mul_left _ _ h0]
  have e4 : (f.image l t).eps_n_y = f.eps_n_y := rfl
  have e5 : (f.image l t).eps_n_b = f.eps_n_b := rfl
  have e6 : (f.image l t).eps_p_y = f.eps_p_y := rfl
  have e7 : (f.image l t).eps_p_b = f.eps_p_b := rfl
  have e8 : (f.image l t).y_n = l * f.y_n + t := rfl
  have e9 : (f.image l t).y_p = l * f.y_p + t := rfl
  simp only [sixFields, fieldPos, fieldNeg, field6, e1, e2, e3, e4, e5, e6, e7, e8, e9]

/-- Corresponding sections have corresponding profiles. -/
theorem ultimate_transport {bal bal' : Bool → Except PyErr (ℝ × ℝ × (Fin 3 → ℝ))} {minY minY' th th' l t : ℝ} {f : FieldData}
    (hf : fieldData bal minY = .ok f) (hl : 0 < l) (hf' : fieldData bal' minY' = .ok (f.image l t)) (rc : Bool)
    (num : Fin 6 → ℤ) (ty : Fin 6 → Spacing) (φ : (Fin 3 → ℝ) → Fin 3 → ℝ)
    (hφ : ∀ e c : ℝ, φ ![e, c * Real.cos th, c * Real.sin th] = ![e - c / l * t, c / l * Real.cos th', c / l * Real.sin th']) :
    ultimateProfiles bal' minY' rc th' num ty = (ultimateProfiles bal minY rc th num ty).map fun r => (r.1.map φ, r.2) := by
  have h0 := hl.ne'
  have hp : ∀ p : ℝ × ℝ, profilePlane (f.image l t) th' p = φ (profilePlane f th p) := by
    intro p
    have e1 : l * f.y_n + t - (l * f.y_p + t) = l * (f.y_n - f.y_p) := by ring
    have e2 : (p.1 - p.2) / (l * (f.y_n - f.y_p)) = (p.1 - p.2) / (f.y_n - f.y_p) / l := by rw [div_div, mul_comm l]
    simp only [profilePlane, FieldData.image, rot2, rotPt, e1, e2, mul_zero, sub_zero, add_zero]
    have := hφ (p.1 - (p.1 - p.2) / (f.y_n - f.y_p) * f.y_n) ((p.1 - p.2) / (f.y_n - f.y_p))
    rw [mul_comm (Real.cos th), mul_comm (Real.sin th), this, mul_comm (Real.cos th'), mul_comm (Real.sin th')]
    congr 1
    field_simp
    ring
  simp only [ultimateProfiles, hf, hf', image_fields f hl]
  rcases (List.finRange 6).mapM (sixFields f rc num ty) with e | F
  · rfl
  · simp only [Except.map, List.map_map, Except.ok.injEq, Prod.mk.injEq, and_true]
    exact List.map_congr_left fun p _ => hp p

theorem dropEndsRev_map {α β : Type} (g : α → β) (l : List α) : dropEndsRev (l.map g) = (dropEndsRev l).map g := by
  simp only [dropEndsRev, List.map_reverse, List.map_drop, List.map_dropLast]

theorem nm_transport {bal bal' : ℝ → Bool → Except PyErr (ℝ × ℝ × (Fin 3 → ℝ))} {minY minY' : ℝ → ℝ} {th th' : ℝ} {rc : Bool}
    {num : Fin 6 → ℤ} {ty : Fin 6 → Spacing} {φ : (Fin 3 → ℝ) → Fin 3 → ℝ} {complete : Bool}
    (h1 : ultimateProfiles (bal' (-th')) (minY' (-th')) rc th' num ty =
      (ultimateProfiles (bal (-th)) (minY (-th)) rc th num ty).map fun r => (r.1.map φ, r.2))
    (h2 : complete = true → ultimateProfiles (bal' (-(th' + Real.pi))) (minY' (-(th' + Real.pi))) rc (th' + Real.pi) num ty =
      (ultimateProfiles (bal (-(th + Real.pi))) (minY (-(th + Real.pi))) rc (th + Real.pi) num ty).map fun r => (r.1.map φ, r.2)) :
    nmProfiles bal' minY' rc th' num ty complete = (nmProfiles bal minY rc th num ty complete).map fun r => (r.1.map φ, r.2) := by
  simp only [nmProfiles, h1]
  rcases ultimateProfiles (bal (-th)) (minY (-th)) rc th num ty with e | ⟨q, k⟩
  · rfl
  · cases complete with
    | false => rfl
    | true =>
      simp only [if_true, h2 rfl, Except.map]
      rcases ultimateProfiles (bal (-(th + Real.pi))) (minY (-(th + Real.pi))) rc (th + Real.pi) num ty with e | ⟨q', k'⟩
      · rfl
      · simp only [dropEndsRev_map, List.map_append]

/-! ### Ordinary sections -/

/-- The governing heights and strains of one direction of an ordinary section. -/
theorem RCDirection.fields {th lo hi fc eu ey ms : ℝ} {split : Polygon → ℝ → ℝ → ShapelyResult}
    {shapes : List (Polygon × Set (ℝ × ℝ))} {bars : List Bar} {L : LawObj}
    (h : RCDirection th shapes (bars.map fun b => (b.x, b.y)) lo hi) (hb : ∀ b ∈ bars, b.law = L) (hu : L.law.ult false = (-eu, eu))
    (hy : (L.law.ult true).2 = ey) (heu : 0.0035 ≤ eu) (heu' : eu ≤ 0.09) (hey : 1e-4 ≤ ey) (hey' : ey ≤ eu)
    (henc : ∀ p ∈ shapes, Encloses p.1.ext p.1.ints p.2) (hull : ∀ p ∈ shapes, p.2 ⊆ convexHull ℝ {v | v ∈ p.1.ext})
    (hcut : CutsExactly split th shapes) :
    ∃ yp, IsLeast {y | ∃ b ∈ bars, height th (b.x, b.y) = y} yp ∧
      fieldData ((sectionEngine split ((normalParts fc shapes).map ConcretePart.solid) bars ms).balanced (-th))
        (sectionMinY (shapes.map Prod.fst) (-th)) = .ok ⟨hi, yp, eu, -0.0035, ey, -0.002, lo⟩ := by
  have hok : ∀ p ∈ normalParts fc shapes, p.Ok split th := by
    intro p hp
    obtain ⟨q, hq, rfl⟩ := List.mem_map.1 hp
    exact ⟨henc q hq, hull q hq, hcut.twice hq, by norm_num, by norm_num [abs_of_pos]⟩
  have hO := h.geometry.ordinary (fc := fc) hb hu heu heu'
  have hY : YieldsRC (normalParts fc shapes) bars 0.0035 eu 0.002 ey := by
    refine ⟨?_, ?_, by norm_num, hey, hey'⟩
    · intro p hp
      obtain ⟨q, hq, rfl⟩ := List.mem_map.1 hp
      norm_num [abs_of_pos]
    · intro b hb'
      rw [hb b hb', hy]
  have hne : ∀ p ∈ normalParts fc shapes, p.polygon.ext ≠ [] := fun p hp => concrete_ne hok _ (List.mem_map_of_mem hp)
  have hlo := h.low
  have hhi := h.high
  rw [← cornerHeights_normal th fc] at hlo hhi
  obtain ⟨yp, h1, h2, -, -, hord⟩ := hO.domain (ms := ms) hY hok hlo hhi h.position
    (fun b hb' => h.cover _ (List.mem_map_of_mem hb'))
    (fun b hb' hmin => by
      have := h.pivot _ (List.mem_map_of_mem hb') (by
        intro b' hb''
        obtain ⟨r, hr, rfl⟩ := List.mem_map.1 hb''
        exact hmin r hr)
      rwa [show (0.002:ℝ) / 0.0035 = 4 / 7 by norm_num])
  have hpoly : shapes.map Prod.fst = (normalParts fc shapes).map ConcretePart.polygon := by
    simp only [normalParts, List.map_map, Function.comp_def]
  refine ⟨yp, ⟨h1, ?_⟩, ?_⟩
  · rintro y ⟨b, hb', rfl⟩
    exact h2 b hb'
  · obtain ⟨s, g1, g2, g3⟩ := hord.ultimate
    obtain ⟨yn', yp', s', g4, g5, g6⟩ := hord.yielding
    have hpl : ∀ (s : Fin 3 → ℝ) (y : ℝ), planeStrain s 0 y = s 0 + s 1 * y := by intro s y; simp [planeStrain]
    rw [hpl] at g2 g3 g5 g6
    rw [hpoly, sectionMinY_eq hne hlo h.position]
    simp only [fieldData, g1, g4, ← g2, ← g3, ← g5, ← g6]

/-- Corresponding directions of two ordinary sections, points at heights `y` of the first being at `l y + t` of the second. -/
theorem directions_transport {th th' lo hi fc fc' eu ey ms ms' l t : ℝ} {split split' : Polygon → ℝ → ℝ → ShapelyResult}
    {shapes shapes' : List (Polygon × Set (ℝ × ℝ))} {bars bars' : List Bar} {L L' : LawObj}
    (h : RCDirection th shapes (bars.map fun b => (b.x, b.y)) lo hi)
    (h' : RCDirection th' shapes' (bars'.map fun b => (b.x, b.y)) (l * lo + t) (l * hi + t))
    (hb : ∀ b ∈ bars, b.law = L) (hb' : ∀ b ∈ bars', b.law = L') (hu : L.law.ult false = (-eu, eu)) (hu' : L'.law.ult false = (-eu, eu))
    (hy : (L.law.ult true).2 = ey) (hy' : (L'.law.ult true).2 = ey)
    (heu : 0.0035 ≤ eu) (heu' : eu ≤ 0.09) (hey : 1e-4 ≤ ey) (hey' : ey ≤ eu)
    (henc : ∀ p ∈ shapes, Encloses p.1.ext p.1.ints p.2) (hull : ∀ p ∈ shapes, p.2 ⊆ convexHull ℝ {v | v ∈ p.1.ext})
    (henc' : ∀ p ∈ shapes', Encloses p.1.ext p.1.ints p.2) (hull' : ∀ p ∈ shapes', p.2 ⊆ convexHull ℝ {v | v ∈ p.1.ext})
    (hcut : CutsExactly split th shapes) (hcut' : CutsExactly split' th' shapes') (hl : 0 < l)
    (hbars : List.Forall₂ (fun b b' => height th' (b'.x, b'.y) = l * height th (b.x, b.y) + t) bars bars')
    (num : Fin 6 → ℤ) (ty : Fin 6 → Spacing) (φ : (Fin 3 → ℝ) → Fin 3 → ℝ)
    (hφ : ∀ e c : ℝ, φ ![e, c * Real.cos th, c * Real.sin th] = ![e - c / l * t, c / l * Real.cos th', c / l * Real.sin th']) :
    ultimateProfiles ((sectionEngine split' ((normalParts fc' shapes').map ConcretePart.solid) bars' ms').balanced (-th'))
        (sectionMinY (shapes'.map Prod.fst) (-th')) true th' num ty =
      (ultimateProfiles ((sectionEngine split ((normalParts fc shapes).map ConcretePart.solid) bars ms).balanced (-th))
        (sectionMinY (shapes.map Prod.fst) (-th)) true th num ty).map fun r => (r.1.map φ, r.2) := by
  obtain ⟨yp, hyp, hf⟩ := h.fields (fc := fc) (ms := ms) hb hu hy heu heu' hey hey' henc hull hcut
  obtain ⟨yp', hyp', hf'⟩ := h'.fields (fc := fc') (ms := ms') hb' hu' hy' heu heu' hey hey' henc' hull' hcut'
  have e : yp' = l * yp + t := by
    refine hyp'.unique ⟨?_, ?_⟩
    · obtain ⟨b, hb1, e1⟩ := hyp.1
      obtain ⟨b', hb2, e2⟩ := forall2_left hbars.flip hb1
      exact ⟨b', hb2, by rw [e2, e1]⟩
    · rintro y ⟨b', hb2, rfl⟩
      obtain ⟨b, hb1, e2⟩ := forall2_left hbars hb2
      rw [e2]
      have := mul_le_mul_of_nonneg_left (hyp.2 ⟨b, hb1, rfl⟩) hl.le
      linarith
  rw [e] at hf'
  exact ultimate_transport hf hl hf' true num ty φ hφ

/-! ### Scaled sections -/

/-- The scaled shape. -/
noncomputable def scaledShape (s : Scale) (p : Polygon × Set (ℝ × ℝ)) : Polygon × Set (ℝ × ℝ) :=
  (⟨p.1.ext.map s.point, p.1.ints.map (List.map s.point)⟩, s.point '' p.2)

/-- The moved shape. -/
noncomputable def movedShape (m : Motion) (p : Polygon × Set (ℝ × ℝ)) : Polygon × Set (ℝ × ℝ) :=
  (⟨p.1.ext.map m.point, p.1.ints.map (List.map m.point)⟩, m.point '' p.2)

/-- Shapes and bars mapped by `g`, which takes heights `y` to `l y + t`. -/
theorem RCDirection.mapped {th th' lo hi l t : ℝ} {shapes : List (Polygon × Set (ℝ × ℝ))} {pts pts' : List (ℝ × ℝ)}
    (h : RCDirection th shapes pts lo hi) (g : ℝ × ℝ → ℝ × ℝ) (f : Polygon × Set (ℝ × ℝ) → Polygon × Set (ℝ × ℝ))
    (hf : ∀ p, (f p).1.ext = p.1.ext.map g) (hl : 0 < l) (hg : ∀ x, height th' (g x) = l * height th x + t)
    (hull : ∀ S, g '' convexHull ℝ S ⊆ convexHull ℝ (g '' S)) (hpts : pts' = pts.map g)
    (hsize : 1e-3 ≤ l * (hi - lo) ∧ l * (hi - lo) ≤ 1e9) (hpos : l * lo + t ≤ 1e16) :
    RCDirection th' (shapes.map f) pts' (l * lo + t) (l * hi + t) := by
  have hsz : l * hi + t - (l * lo + t) = l * (hi - lo) := by ring
  have hset : ∀ L : List (ℝ × ℝ), {v | v ∈ L.map g} = g '' {v | v ∈ L} := by intro L; ext v; simp
  subst hpts
  refine ⟨?_, ⟨?_, ?_⟩, ⟨?_, ?_⟩, by rw [hsz]; exact hsize, hpos, ?_, ?_, ?_⟩
  · intro b hb
    obtain ⟨b, hb1, rfl⟩ := List.mem_map.1 hb
    obtain ⟨q, hq, hin⟩ := h.inside b hb1
    exact ⟨_, List.mem_map_of_mem hq, by rw [hf, hset]; exact hull _ ⟨b, hin, rfl⟩⟩
  · obtain ⟨q, hq, v, hv, e⟩ := h.low.1
    exact ⟨_, List.mem_map_of_mem hq, g v, by rw [hf]; exact List.mem_map_of_mem hv, by rw [hg, e]⟩
  · rintro y ⟨_, hq', v, hv, rfl⟩
    obtain ⟨q, hq, rfl⟩ := List.mem_map.1 hq'
    rw [hf] at hv
    obtain ⟨w, hw, rfl⟩ := List.mem_map.1 hv
    rw [hg]
    have := mul_le_mul_of_nonneg_left (h.low.2 ⟨q, hq, w, hw, rfl⟩) hl.le
    linarith
  · obtain ⟨q, hq, v, hv, e⟩ := h.high.1
    exact ⟨_, List.mem_map_of_mem hq, g v, by rw [hf]; exact List.mem_map_of_mem hv, by rw [hg, e]⟩
  · rintro y ⟨_, hq', v, hv, rfl⟩
    obtain ⟨q, hq, rfl⟩ := List.mem_map.1 hq'
    rw [hf] at hv
    obtain ⟨w, hw, rfl⟩ := List.mem_map.1 hv
    rw [hg]
    have := mul_le_mul_of_nonneg_left (h.high.2 ⟨q, hq, w, hw, rfl⟩) hl.le
    linarith
  · obtain ⟨b, hb, hd⟩ := h.depth
    refine ⟨g b, List.mem_map_of_mem hb, ?_⟩
    rw [hg, hsz]
    have := mul_le_mul_of_nonneg_left hd hl.le
    linarith
  · intro b hb
    obtain ⟨b, hb1, rfl⟩ := List.mem_map.1 hb
    rw [hg, hsz]
    have := mul_le_mul_of_nonneg_left (h.cover b hb1) hl.le
    linarith
  · intro b hb hmin
    obtain ⟨b, hb1, rfl⟩ := List.mem_map.1 hb
    rw [hg, hsz]
    intro heq
    refine h.pivot b hb1 (fun b' hb' => ?_) ?_
    · have := hmin _ (List.mem_map_of_mem hb')
      rw [hg, hg] at this
      have : l * height th b ≤ l * height th b' := by linarith
      exact le_of_mul_le_mul_left this hl
    · have : l * height th b = l * (lo + 4 / 7 * (hi - lo)) := by linarith
      exact mul_left_cancel₀ hl.ne' this

theorem plane_scaled (s : Scale) (th e c : ℝ) : s.plane ![e, c * Real.cos th, c * Real.sin th] =
    ![e - c / s.len * 0, c / s.len * Real.cos th, c / s.len * Real.sin th] := by
  simp only [Scale.plane, Matrix.cons_val, mul_zero, sub_zero]
  congr 1
  congr 1
  · ring
  · congr 1
    ring

theorem height_turn (th : ℝ) (x : ℝ × ℝ) : height (th + Real.pi) x = -height th x := by
  simp only [height, Real.cos_add_pi, Real.sin_add_pi]
  ring

/-- One section: the points of its domain are the forces of the profiles. -/
theorem RCDirection.domain {th lo hi lo' hi' fc eu ey ms : ℝ} {split : Polygon → ℝ → ℝ → ShapelyResult}
    {shapes : List (Polygon × Set (ℝ × ℝ))} {bars : List Bar} {L : LawObj}
    (h : RCDirection th shapes (bars.map fun b => (b.x, b.y)) lo hi) {complete : Bool}
    (h' : complete = true → RCDirection (th + Real.pi) shapes (bars.map fun b => (b.x, b.y)) lo' hi')
    (hb : ∀ b ∈ bars, b.law = L) (hu : L.law.ult false = (-eu, eu))
    (hy : (L.law.ult true).2 = ey) (heu : 0.0035 ≤ eu) (heu' : eu ≤ 0.09) (hey : 1e-4 ≤ ey) (hey' : ey ≤ eu)
    (henc : ∀ p ∈ shapes, Encloses p.1.ext p.1.ints p.2) (hull : ∀ p ∈ shapes, p.2 ⊆ convexHull ℝ {v | v ∈ p.1.ext})
    (hcut : CutsExactly split th shapes) {num : Fin 6 → ℤ} {ty : Fin 6 → Spacing} (ha : ProfileArgs num ty)
    (E : Engine) (hE : E = sectionEngine split ((normalParts fc shapes).map ConcretePart.solid) bars ms)
    (lu : Matrix (Fin 3) (Fin 3) ℝ → (Fin 3 → ℝ) → (Fin 3 → ℝ)) :
    ∃ planes labels, nmProfiles E.balanced (sectionMinY (shapes.map Prod.fst)) true th num ty complete = .ok (planes, labels) ∧
      ∀ ops, Undisturbed E lu ops .fresh →
        (nmDomain E ((nmProfiles E.balanced (sectionMinY (shapes.map Prod.fst)) true th num ty complete).map Prod.fst)
          (history E lu ops .fresh)).2 = .ok (planes.map fun v => .forces ((concreteSection (normalParts fc shapes) bars).forces v)) := by
  have hpoly : shapes.map Prod.fst = (normalParts fc shapes).map ConcretePart.polygon := by
    simp only [normalParts, List.map_map, Function.comp_def]
  rw [hpoly]
  subst hE
  obtain ⟨⟨yp, hord⟩, hok, q, k, hrun, -⟩ := h.profiles (fc := fc) (ms := ms) hb hu hy heu heu' hey hey' henc hull hcut ha
  have hsplit : ∀ p ∈ normalParts fc shapes, ∀ v : Fin 3 → ℝ, v 1 * Real.sin th = v 2 * Real.cos th → v 1 ≠ 0 ∨ v 2 ≠ 0 →
      SplitsExactly split (p.polygon.rotate (neutralAngle v)) (rotPt (neutralAngle v) '' p.region) := by
    intro p hp v h1 h2
    obtain ⟨r, hr, rfl⟩ := List.mem_map.1 hp
    exact hcut r hr _ (neutral_direction h1 h2)
  have hsound : ∀ p ∈ normalParts fc shapes, p.Sound := fun p hp =>
    ⟨(hok p hp).encloses, (hok p hp).inHull, (hok p hp).peak, (hok p hp).plateau⟩
  cases complete with
  | false =>
    have hprof : nmProfiles (sectionEngine split ((normalParts fc shapes).map ConcretePart.solid) bars ms).balanced
        (sectionMinY ((normalParts fc shapes).map ConcretePart.polygon)) true th num ty false = .ok (q, k) := by
      simp only [nmProfiles, hrun, Bool.false_eq_true, if_false]
    exact ⟨q, k, hprof, fun ops hops => C67_nm_partial split _ bars ms th lu ops hops (single_ids hb) (single_sizes hb) hsound true num ty
      false hprof hord (by simp) (yn' := 0) (yp' := 0) (a' := 0) (b' := 0) (c' := 0) (d' := 0) hsplit⟩
  | true =>
    obtain ⟨⟨yp', hord'⟩, -, q', k', hrun', -⟩ := (h' rfl).profiles (fc := fc) (ms := ms) hb hu hy heu heu'
      hey hey' henc hull hcut.half_turn ha
    have hprof : nmProfiles (sectionEngine split ((normalParts fc shapes).map ConcretePart.solid) bars ms).balanced
        (sectionMinY ((normalParts fc shapes).map ConcretePart.polygon)) true th num ty true =
        .ok (q ++ dropEndsRev q', k ++ dropEndsRev k') := by
      simp only [nmProfiles, hrun, hrun', if_true]
    exact ⟨_, _, hprof, fun ops hops => C67_nm_partial split _ bars ms th lu ops hops (single_ids hb) (single_sizes hb) hsound true num ty
      true hprof hord (fun _ => hord') hsplit⟩

/-- **C90** (N-M interaction domain; partial: as `C67_design_partial`). The strain profiles of the scaled section are those of the
section with the curvatures divided by the factor of length, and its domain consists of exactly the scaled points, in the same order. -/
theorem C90_domain_partial {fc eu ey : ℝ} {L L' : LawObj} (s : Scale)
    (hu : L.law.ult false = (-eu, eu)) (hu' : L'.law.ult false = (-eu, eu)) (hy : (L.law.ult true).2 = ey)
    (hy' : (L'.law.ult true).2 = ey) (hstress : ∀ e, L'.law.stress e = s.stress * L.law.stress e)
    (heu : 0.0035 ≤ eu) (heu' : eu ≤ 0.09) (hey : 1e-4 ≤ ey) (hey' : ey ≤ eu)
    (split split' : Polygon → ℝ → ℝ → ShapelyResult) (ms ms' th : ℝ) (lu lu' : Matrix (Fin 3) (Fin 3) ℝ → (Fin 3 → ℝ) → (Fin 3 → ℝ))
    (shapes : List (Polygon × Set (ℝ × ℝ))) (bars : List Bar) (hbars : ∀ b ∈ bars, b.law = L)
    (henc : ∀ p ∈ shapes, Encloses p.1.ext p.1.ints p.2) (hull : ∀ p ∈ shapes, p.2 ⊆ convexHull ℝ {v | v ∈ p.1.ext})
    (hcut : CutsExactly split th shapes) (hcut' : CutsExactly split' th (shapes.map (scaledShape s)))
    {lo hi : ℝ} (hdir : RCDirection th shapes (bars.map fun b => (b.x, b.y)) lo hi)
    (hsize : 1e-3 ≤ s.len * (hi - lo) ∧ s.len * (hi - lo) ≤ 1e9) (hpos : s.len * lo ≤ 1e16) (complete : Bool) {lo' hi' : ℝ}
    (hdir' : complete = true → RCDirection (th + Real.pi) shapes (bars.map fun b => (b.x, b.y)) lo' hi' ∧
      (1e-3 ≤ s.len * (hi' - lo') ∧ s.len * (hi' - lo') ≤ 1e9) ∧ s.len * lo' ≤ 1e16)
    (num : Fin 6 → ℤ) (ty : Fin 6 → Spacing) (hnum : ProfileArgs num ty)
    (S : CrossSection) (hS : S = concreteSection (normalParts fc shapes) bars)
    (E E' : Engine) (hE : E = sectionEngine split ((normalParts fc shapes).map ConcretePart.solid) bars ms)
    (hE' : E' = sectionEngine split' ((normalParts (s.stress * fc) (shapes.map (scaledShape s))).map ConcretePart.solid)
      (bars.map fun b => ⟨s.len * b.x, s.len * b.y, s.len ^ 2 * b.area, L'⟩) ms')
    (ops ops' : List Op) (hops : Undisturbed E lu ops .fresh) (hops' : Undisturbed E' lu' ops' .fresh) :
    ∃ planes labels,
      nmProfiles E.balanced (sectionMinY (shapes.map Prod.fst)) true th num ty complete = .ok (planes, labels) ∧
      nmProfiles E'.balanced (sectionMinY ((shapes.map (scaledShape s)).map Prod.fst)) true th num ty complete =
        .ok (planes.map s.plane, labels) ∧
      (nmDomain E ((nmProfiles E.balanced (sectionMinY (shapes.map Prod.fst)) true th num ty complete).map Prod.fst)
        (history E lu ops .fresh)).2 = .ok (planes.map fun v => .forces (S.forces v)) ∧
      (nmDomain E' ((nmProfiles E'.balanced (sectionMinY ((shapes.map (scaledShape s)).map Prod.fst)) true th num ty complete).map Prod.fst)
        (history E' lu' ops' .fresh)).2 = .ok (planes.map fun v => .forces (s.forces (S.forces v))) := by
  set bars' : List Bar := bars.map fun b => ⟨s.len * b.x, s.len * b.y, s.len ^ 2 * b.area, L'⟩ with hbd
  have hb' : ∀ b ∈ bars', b.law = L' := by
    intro b hb
    obtain ⟨b, -, rfl⟩ := List.mem_map.1 hb
    rfl
  have hf2 : List.Forall₂ (Bar.ScaledTo s) bars bars' := by
    rw [hbd, List.forall₂_map_right_iff, List.forall₂_same]
    exact fun b hb => ⟨rfl, rfl, rfl, fun e => by rw [hbars b hb]; exact hstress e, by rw [hbars b hb, hu]; exact hu'⟩
  have hheights : ∀ t, List.Forall₂ (fun b b' : Bar => height t (b'.x, b'.y) = s.len * height t (b.x, b.y) + 0) bars bars' := by
    intro t
    rw [hbd, List.forall₂_map_right_iff, List.forall₂_same]
    intro b _
    have := s.height_point t (b.x, b.y)
    simp only [Scale.point] at this
    simp only [this, add_zero]
  have hpts : bars'.map (fun b => (b.x, b.y)) = (bars.map fun b => (b.x, b.y)).map s.point := by
    rw [hbd, List.map_map, List.map_map]
    rfl
  have hmap : ∀ {t l h : ℝ}, RCDirection t shapes (bars.map fun b => (b.x, b.y)) l h → 1e-3 ≤ s.len * (h - l) ∧ s.len * (h - l) ≤ 1e9 →
      s.len * l ≤ 1e16 → RCDirection t (shapes.map (scaledShape s)) (bars'.map fun b => (b.x, b.y)) (s.len * l + 0) (s.len * h + 0) := by
    intro t l h hd h1 h2
    exact hd.mapped s.point (scaledShape s) (fun _ => rfl) s.len_pos (fun x => by rw [s.height_point, add_zero])
      (fun S => (scale_hull s S).subset) hpts h1 (by rw [add_zero]; exact h2)
  have henc' : ∀ p ∈ shapes.map (scaledShape s), Encloses p.1.ext p.1.ints p.2 := by
    intro p hp
    obtain ⟨q, hq, rfl⟩ := List.mem_map.1 hp
    exact encloses_scaled s (henc q hq)
  have hull' : ∀ p ∈ shapes.map (scaledShape s), p.2 ⊆ convexHull ℝ {v | v ∈ p.1.ext} := by
    intro p hp
    obtain ⟨q, hq, rfl⟩ := List.mem_map.1 hp
    have hset : {v | v ∈ q.1.ext.map s.point} = s.point '' {v | v ∈ q.1.ext} := by ext v; simp
    simp only [scaledShape]
    rw [hset, ← scale_hull]
    exact Set.image_mono (hull q hq)
  obtain ⟨planes, labels, hp, hd⟩ := hdir.domain (fun c => (hdir' c).1) hbars hu hy heu heu' hey hey' henc hull hcut hnum E hE lu
  obtain ⟨planes', labels', hp', hd'⟩ := (hmap hdir hsize hpos).domain
    (fun c => hmap (hdir' c).1 (hdir' c).2.1 (hdir' c).2.2) hb' hu' hy' heu heu' hey hey' henc' hull' hcut' hnum E' hE' lu'
  have ht : nmProfiles E'.balanced (sectionMinY ((shapes.map (scaledShape s)).map Prod.fst)) true th num ty complete =
      (nmProfiles E.balanced (sectionMinY (shapes.map Prod.fst)) true th num ty complete).map fun r => (r.1.map s.plane, r.2) := by
    refine nm_transport ?_ fun c => ?_
    · rw [hE, hE']
      exact directions_transport hdir (hmap hdir hsize hpos) hbars hb' hu hu' hy hy' heu heu' hey hey' henc hull henc' hull' hcut hcut'
        s.len_pos (hheights _) num ty s.plane (fun e c => plane_scaled s th e c)
    · rw [hE, hE']
      exact directions_transport (hdir' c).1 (hmap (hdir' c).1 (hdir' c).2.1 (hdir' c).2.2) hbars hb' hu hu' hy hy' heu heu' hey hey' henc hull
        henc' hull' hcut.half_turn hcut'.half_turn s.len_pos (hheights _) num ty s.plane (fun e c => plane_scaled s _ e c)
  have hpl : nmProfiles E'.balanced (sectionMinY ((shapes.map (scaledShape s)).map Prod.fst)) true th num ty complete =
      .ok (planes.map s.plane, labels) := by rw [ht, hp]; rfl
  rw [hp'] at hpl
  simp only [Except.ok.injEq, Prod.mk.injEq] at hpl
  refine ⟨planes, labels, hp, by rw [hp', hpl.1, hpl.2], by rw [hS]; exact hd ops hops, ?_⟩
  rw [hd' ops' hops', hpl.1, List.map_map]
  have hparts : normalParts (s.stress * fc) (shapes.map (scaledShape s)) = (normalParts fc shapes).map (ConcretePart.scaled s) := by
    simp only [normalParts, List.map_map]
    rfl
  congr 1
  refine List.map_congr_left fun v _ => ?_
  simp only [Function.comp_apply]
  rw [hparts, concreteSection_scaled s _ hf2, scaled_forces, hS]

/-! ### Moved sections -/

theorem turned_inclination (m : Motion) (th : ℝ) : Real.cos (m.inclination (th + Real.pi)) = Real.cos (m.inclination th + Real.pi) ∧
    Real.sin (m.inclination (th + Real.pi)) = Real.sin (m.inclination th + Real.pi) := by
  simp only [Motion.inclination, Motion.sign]
  split_ifs
  · rw [show m.angle + -1 * (th + Real.pi) = m.angle + -1 * th - Real.pi by ring, Real.cos_sub_pi, Real.sin_sub_pi, Real.cos_add_pi,
      Real.sin_add_pi]
    exact ⟨rfl, rfl⟩
  · rw [show m.angle + 1 * (th + Real.pi) = m.angle + 1 * th + Real.pi by ring]
    exact ⟨rfl, rfl⟩

/-- **C72** (N-M interaction domain; partial: as `C67_design_partial`). The domain of the moved section about the moved axis consists of
exactly the moved points: same axial force, moments turned (mirrored) and increased by the axial force at the shifted place. -/
theorem C72_domain_partial {fc eu ey : ℝ} {L : LawObj} (m : Motion)
    (hu : L.law.ult false = (-eu, eu)) (hy : (L.law.ult true).2 = ey)
    (heu : 0.0035 ≤ eu) (heu' : eu ≤ 0.09) (hey : 1e-4 ≤ ey) (hey' : ey ≤ eu)
    (split split' : Polygon → ℝ → ℝ → ShapelyResult) (ms ms' th : ℝ) (lu lu' : Matrix (Fin 3) (Fin 3) ℝ → (Fin 3 → ℝ) → (Fin 3 → ℝ))
    (shapes : List (Polygon × Set (ℝ × ℝ))) (bars : List Bar) (hbars : ∀ b ∈ bars, b.law = L)
    (henc : ∀ p ∈ shapes, Encloses p.1.ext p.1.ints p.2) (hull : ∀ p ∈ shapes, p.2 ⊆ convexHull ℝ {v | v ∈ p.1.ext})
    (hcut : CutsExactly split th shapes) (hcut' : CutsExactly split' (m.inclination th) (shapes.map (movedShape m)))
    {lo hi : ℝ} (hdir : RCDirection th shapes (bars.map fun b => (b.x, b.y)) lo hi)
    (hpos : lo + height (m.inclination th) m.shift ≤ 1e16) (complete : Bool) {lo' hi' : ℝ}
    (hdir' : complete = true → RCDirection (th + Real.pi) shapes (bars.map fun b => (b.x, b.y)) lo' hi' ∧
      lo' - height (m.inclination th) m.shift ≤ 1e16)
    (num : Fin 6 → ℤ) (ty : Fin 6 → Spacing) (hnum : ProfileArgs num ty)
    (S : CrossSection) (hS : S = concreteSection (normalParts fc shapes) bars)
    (E E' : Engine) (hE : E = sectionEngine split ((normalParts fc shapes).map ConcretePart.solid) bars ms)
    (hE' : E' = sectionEngine split' ((normalParts fc (shapes.map (movedShape m))).map ConcretePart.solid) (bars.map (Bar.moved m)) ms')
    (ops ops' : List Op) (hops : Undisturbed E lu ops .fresh) (hops' : Undisturbed E' lu' ops' .fresh) :
    ∃ planes labels,
      nmProfiles E.balanced (sectionMinY (shapes.map Prod.fst)) true th num ty complete = .ok (planes, labels) ∧
      nmProfiles E'.balanced (sectionMinY ((shapes.map (movedShape m)).map Prod.fst)) true (m.inclination th) num ty complete =
        .ok (planes.map m.plane, labels) ∧
      (nmDomain E ((nmProfiles E.balanced (sectionMinY (shapes.map Prod.fst)) true th num ty complete).map Prod.fst)
        (history E lu ops .fresh)).2 = .ok (planes.map fun v => .forces (S.forces v)) ∧
      (nmDomain E' ((nmProfiles E'.balanced (sectionMinY ((shapes.map (movedShape m)).map Prod.fst)) true (m.inclination th) num ty
        complete).map Prod.fst) (history E' lu' ops' .fresh)).2 = .ok (planes.map fun v => .forces (m.forces (S.forces v))) := by
  obtain ⟨k1, k2⟩ := turned_inclination m th
  have hh : ∀ x, height (m.inclination (th + Real.pi)) x = height (m.inclination th + Real.pi) x := by
    intro x; simp only [height, k1, k2]
  have g1 : ∀ x, height (m.inclination th) (m.point x) = 1 * height th x + height (m.inclination th) m.shift := by
    intro x; rw [m.height_point, one_mul]
  have g2 : ∀ x, height (m.inclination th + Real.pi) (m.point x) =
      1 * height (th + Real.pi) x + height (m.inclination th + Real.pi) m.shift := by
    intro x; rw [← hh, ← hh, m.height_point, one_mul]
  have hb' : ∀ b ∈ bars.map (Bar.moved m), b.law = L := by
    intro b hb
    obtain ⟨b, hb1, rfl⟩ := List.mem_map.1 hb
    exact hbars b hb1
  have hheights : ∀ {t t' z : ℝ}, (∀ x, height t' (m.point x) = 1 * height t x + z) →
      List.Forall₂ (fun b b' : Bar => height t' (b'.x, b'.y) = 1 * height t (b.x, b.y) + z) bars (bars.map (Bar.moved m)) := by
    intro t t' z hz
    rw [List.forall₂_map_right_iff, List.forall₂_same]
    intro b _
    exact hz (b.x, b.y)
  have hpts : (bars.map (Bar.moved m)).map (fun b => (b.x, b.y)) = (bars.map fun b => (b.x, b.y)).map m.point := by
    rw [List.map_map, List.map_map]
    rfl
  have hmap : ∀ {t t' z l h : ℝ}, (∀ x, height t' (m.point x) = 1 * height t x + z) →
      RCDirection t shapes (bars.map fun b => (b.x, b.y)) l h → l + z ≤ 1e16 →
      RCDirection t' (shapes.map (movedShape m)) ((bars.map (Bar.moved m)).map fun b => (b.x, b.y)) (1 * l + z) (1 * h + z) := by
    intro t t' z l h hz hd h2
    exact hd.mapped m.point (movedShape m) (fun _ => rfl) one_pos hz (hull_moved m) hpts (by rw [one_mul]; exact hd.size)
      (by rw [one_mul]; exact h2)
  have henc' : ∀ p ∈ shapes.map (movedShape m), Encloses p.1.ext p.1.ints p.2 := by
    intro p hp
    obtain ⟨q, hq, rfl⟩ := List.mem_map.1 hp
    exact encloses_moved m (henc q hq)
  have hull' : ∀ p ∈ shapes.map (movedShape m), p.2 ⊆ convexHull ℝ {v | v ∈ p.1.ext} := by
    intro p hp
    obtain ⟨q, hq, rfl⟩ := List.mem_map.1 hp
    have hset : {v | v ∈ q.1.ext.map m.point} = m.point '' {v | v ∈ q.1.ext} := by ext v; simp
    simp only [movedShape]
    rw [hset]
    exact (Set.image_mono (hull q hq)).trans (hull_moved m _)
  have hpos' : complete = true → lo' + height (m.inclination th + Real.pi) m.shift ≤ 1e16 := by
    intro c
    have := (hdir' c).2
    rw [height_turn]
    linarith
  obtain ⟨planes, labels, hp, hd⟩ := hdir.domain (fun c => (hdir' c).1) hbars hu hy heu heu' hey hey' henc hull hcut hnum E hE lu
  obtain ⟨planes', labels', hp', hd'⟩ := (hmap g1 hdir hpos).domain
    (fun c => hmap g2 (hdir' c).1 (hpos' c)) hb' hu hy heu heu' hey hey' henc' hull' hcut' hnum E' hE' lu'
  have ht : nmProfiles E'.balanced (sectionMinY ((shapes.map (movedShape m)).map Prod.fst)) true (m.inclination th) num ty complete =
      (nmProfiles E.balanced (sectionMinY (shapes.map Prod.fst)) true th num ty complete).map fun r => (r.1.map m.plane, r.2) := by
    refine nm_transport ?_ fun c => ?_
    · rw [hE, hE']
      exact directions_transport hdir (hmap g1 hdir hpos) hbars hb' hu hu hy hy heu heu' hey hey' henc hull henc' hull' hcut hcut'
        one_pos (hheights g1) num ty m.plane (fun e c => by rw [plane_axis, div_one])
    · rw [hE, hE']
      exact directions_transport (hdir' c).1 (hmap g2 (hdir' c).1 (hpos' c)) hbars hb' hu hu hy hy heu heu' hey hey' henc hull
        henc' hull' hcut.half_turn hcut'.half_turn one_pos (hheights g2) num ty m.plane
        (fun e c => by rw [plane_axis, div_one, hh, k1, k2])
  have hpl : nmProfiles E'.balanced (sectionMinY ((shapes.map (movedShape m)).map Prod.fst)) true (m.inclination th) num ty complete =
      .ok (planes.map m.plane, labels) := by rw [ht, hp]; rfl
  rw [hp'] at hpl
  simp only [Except.ok.injEq, Prod.mk.injEq] at hpl
  refine ⟨planes, labels, hp, by rw [hp', hpl.1, hpl.2], by rw [hS]; exact hd ops hops, ?_⟩
  rw [hd' ops' hops', hpl.1, List.map_map]
  have hparts : normalParts fc (shapes.map (movedShape m)) = (normalParts fc shapes).map (ConcretePart.moved m) := by
    simp only [normalParts, List.map_map]
    rfl
  congr 1
  refine List.map_congr_left fun v _ => ?_
  simp only [Function.comp_apply]
  rw [hparts, concreteSection_moved, moved_forces, hS]
  · intro p hp
    simp only [concreteSection, normalParts, List.map_map, List.mem_map] at hp
    obtain ⟨q, hq, rfl⟩ := hp
    exact (henc q hq).measurable
  · intro p hp i
    simp only [concreteSection, normalParts, List.map_map, List.mem_map] at hp
    obtain ⟨q, hq, rfl⟩ := hp
    refine integrable_law (fc := |fc|) (measurable_parabola _) (fun x => ?_) v (henc q hq).bounded (w := fun x => lever x.1 x.2 i) ?_
    · exact pr_stress_range fc _ _ (by norm_num) x
    · fin_cases i <;> simp only [lever, Matrix.cons_val, Fin.zero_eta, Fin.mk_one, Fin.reduceFinMk] <;> fun_prop

end SC
