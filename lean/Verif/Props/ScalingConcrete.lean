import Verif.Props.Scaling
import Verif.Props.MotionConcrete

/-! # C90: reinforced concrete of another size, or calculated in other units -/

set_option autoImplicit false

namespace SC

open Spec MeasureTheory
open scoped Pointwise

/-- The inverse scale. -/
noncomputable def Spec.Scale.inv (s : Scale) : Scale := ⟨s.len⁻¹, s.stress⁻¹, inv_pos.2 s.len_pos, inv_pos.2 s.stress_pos⟩

theorem inv_point (s : Scale) (x : ℝ × ℝ) : s.inv.point (s.point x) = x := by
  have := s.len_pos.ne'
  simp only [Scale.point, Scale.inv, inv_mul_cancel_left₀ this]

theorem scale_hull (s : Scale) (S : Set (ℝ × ℝ)) : s.point '' convexHull ℝ S = convexHull ℝ (s.point '' S) := by
  have h : IsLinearMap ℝ s.point := by
    constructor
    · rintro ⟨a, b⟩ ⟨c, d⟩; simp [Scale.point]; constructor <;> ring
    · rintro k ⟨a, b⟩; simp [Scale.point]; constructor <;> ring
  exact h.image_convexHull S

theorem signedMoment_scaled (s : Scale) (k n : ℕ) (ring : List (ℝ × ℝ)) :
    signedMoment k n 0 (ring.map s.point) = s.len ^ (k + n + 2) * signedMoment k n 0 ring := by
  unfold signedMoment
  rw [edges_map, List.map_map, ← List.sum_map_mul_left]
  congr 1
  refine List.map_congr_left fun e _ => ?_
  have hp := mul_pos s.len_pos s.len_pos
  have h1 : orientation 0 (s.point e.1) (s.point e.2) = orientation 0 e.1 e.2 := by
    have : cross 0 (s.point e.1) (s.point e.2) = (s.len * s.len) * cross 0 e.1 e.2 := by simp [cross, Scale.point]; ring
    unfold orientation
    rw [this, sign_mul, sign_pos hp, one_mul]
  have h2 : triangle 0 (s.point e.1) (s.point e.2) = s.point '' triangle 0 e.1 e.2 := by
    unfold triangle
    rw [scale_hull]
    congr 1
    simp only [Set.image_insert_eq, Set.image_singleton]
    rw [show s.point 0 = 0 by simp [Scale.point]]
  simp only [Function.comp_apply, h1, h2, areaMoment_scaled]
  ring

theorem ringMoment_scaled (s : Scale) (k n : ℕ) (ring : List (ℝ × ℝ)) :
    ringMoment k n (ring.map s.point) = s.len ^ (k + n + 2) * ringMoment k n ring := by
  unfold ringMoment
  rw [signedMoment_scaled, signedMoment_scaled, sign_mul, sign_pos (pow_pos s.len_pos _), one_mul]
  ring

theorem properRing_scaled (s : Scale) {ring : List (ℝ × ℝ)} (h : ProperRing ring) : ProperRing (ring.map s.point) := by
  refine ⟨?_, ?_⟩
  · have := h.1
    unfold Closed at this ⊢
    rw [List.head?_map, List.getLast?_map, this]
  · rw [signedMoment_scaled]
    exact mul_ne_zero (pow_pos s.len_pos _).ne' h.2

/-- The scaled rings bound the scaled region. -/
theorem encloses_scaled (s : Scale) {ext : List (ℝ × ℝ)} {ints : List (List (ℝ × ℝ))} {R : Set (ℝ × ℝ)} (h : Encloses ext ints R) :
    Encloses (ext.map s.point) (ints.map (List.map s.point)) (s.point '' R) where
  measurable := by
    have : s.point '' R = s.inv.point ⁻¹' R := by
      ext x
      constructor
      · rintro ⟨y, hy, rfl⟩
        simpa [inv_point] using hy
      · intro hx
        refine ⟨s.inv.point x, hx, ?_⟩
        simp only [Scale.point, Scale.inv, mul_inv_cancel_left₀ s.len_pos.ne']
    rw [this]
    refine h.measurable.preimage ?_
    unfold Scale.point
    fun_prop
  bounded := by rw [scale_image]; exact h.bounded.smul₀ s.len
  ext_proper := properRing_scaled s h.ext_proper
  ints_proper := by
    intro r hr
    obtain ⟨r', hr', rfl⟩ := List.mem_map.1 hr
    exact properRing_scaled s (h.ints_proper r' hr')
  moments := by
    intro k n
    rw [areaMoment_scaled, ← h.moments k n]
    unfold holedMoment
    rw [ringMoment_scaled, List.map_map, mul_sub, ← List.sum_map_mul_left]
    congr 2
    exact List.map_congr_left fun r _ => ringMoment_scaled s k n r

/-- The strains at the points of the scaled section under the scaled plane are those of the section under the plane. -/
theorem scaled_admissible (s : Scale) (S : CrossSection) (e : Fin 3 → ℝ) : (S.scaled s).Admissible (s.plane e) ↔ S.Admissible e := by
  have hset : ∀ l : List (ℝ × ℝ), {v | v ∈ l.map s.point} = s.point '' {v | v ∈ l} := by
    intro l; ext v; simp
  simp only [CrossSection.Admissible, CrossSection.scaled, List.forall_mem_map, hset, ← scale_hull, Set.forall_mem_image, s.plane_strain]
  refine and_congr Iff.rfl (forall₂_congr fun r _ => ?_)
  have hp := s.plane_strain e (r.fibre.y, r.fibre.z)
  simp only [Scale.point] at hp
  rw [hp]

/-- The scaled concrete part: geometry times `len`, strength times `stress`, same strains. -/
noncomputable def ConcretePart.scaled (s : Scale) (p : ConcretePart) : ConcretePart :=
  ⟨⟨p.polygon.ext.map s.point, p.polygon.ints.map (List.map s.point)⟩, s.point '' p.region, s.stress * p.fc, p.eps_0, p.eps_u⟩

/-- `b'` is the scaled bar `b`: place times `len`, area times `len ^ 2`, stresses times `stress`, same limit strains. -/
structure Bar.ScaledTo (s : Scale) (b b' : Bar) : Prop where
  x : b'.x = s.len * b.x
  y : b'.y = s.len * b.y
  area : b'.area = s.len ^ 2 * b.area
  stress : ∀ e, b'.law.law.stress e = s.stress * b.law.law.stress e
  ult : b'.law.law.ult false = b.law.law.ult false

theorem Bar.ScaledTo.inv {s : Scale} {b b' : Bar} (h : b.ScaledTo s b') : b'.ScaledTo s.inv b := by
  have h1 := s.len_pos.ne'
  have h2 := s.stress_pos.ne'
  refine ⟨?_, ?_, ?_, fun e => ?_, h.ult.symm⟩ <;> simp only [Scale.inv]
  · rw [h.x, inv_mul_cancel_left₀ h1]
  · rw [h.y, inv_mul_cancel_left₀ h1]
  · rw [h.area, inv_pow, inv_mul_cancel_left₀ (pow_ne_zero 2 h1)]
  · rw [h.stress, inv_mul_cancel_left₀ h2]

theorem part_inv (s : Scale) (p : ConcretePart) : (p.scaled s).scaled s.inv = p := by
  have h2 := s.stress_pos.ne'
  have h3 : s.inv.point ∘ s.point = id := funext fun x => inv_point s x
  obtain ⟨⟨ext, ints⟩, R, fc, e0, eu⟩ := p
  simp only [ConcretePart.scaled, List.map_map, h3, List.map_id, Set.image_image, inv_point, Set.image_id', Function.comp_def, List.map_id']
  simp [Scale.inv, h2]

theorem parabola_scaled (k fc e0 eu x : ℝ) (hk : 0 < k) :
    (ParabolaRectangle.new (k * fc) e0 eu 2).stress x = k * (ParabolaRectangle.new fc e0 eu 2).stress x := by
  simp only [ParabolaRectangle.stress, ParabolaRectangle.core, ParabolaRectangle.ult, abs_mul, abs_of_pos hk]
  split_ifs <;> ring

theorem concreteSection_scaled (s : Scale) (parts : List ConcretePart) {bars bars' : List Bar}
    (hb : List.Forall₂ (Bar.ScaledTo s) bars bars') :
    concreteSection (parts.map (ConcretePart.scaled s)) bars' = (concreteSection parts bars).scaled s := by
  simp only [concreteSection, CrossSection.scaled, List.map_map, CrossSection.mk.injEq]
  constructor
  · refine List.map_congr_left fun p _ => ?_
    simp only [Function.comp_apply, ConcretePart.scaled, ConcretePart.law, Plate.mk.injEq, true_and]
    exact ⟨funext fun x => parabola_scaled _ _ _ _ _ s.stress_pos, rfl, rfl⟩
  · induction hb with
    | nil => rfl
    | cons h _ ih =>
      simp only [List.map_cons, List.cons.injEq, and_true, Function.comp_apply, Bar.fibre, h.x, h.y, h.area, h.ult, Rod.mk.injEq,
        Fibre.mk.injEq, true_and]
      exact ⟨funext h.stress, ih⟩

theorem scaled_corner (s : Scale) (S : CrossSection) {c : (ℝ × ℝ) × ℝ × ℝ} (hc : c ∈ (S.scaled s).corners) :
    ∃ d ∈ S.corners, c.1 = s.point d.1 := by
  simp only [CrossSection.corners, CrossSection.scaled, List.mem_append, List.mem_flatMap, List.mem_map] at hc ⊢
  rcases hc with ⟨_, ⟨p, hp, rfl⟩, _, hv, rfl⟩ | ⟨_, ⟨r, hr, rfl⟩, rfl⟩
  · obtain ⟨w, hw, rfl⟩ := List.mem_map.1 hv
    exact ⟨_, Or.inl ⟨p, hp, w, hw, rfl⟩, rfl⟩
  · exact ⟨_, Or.inr ⟨r, hr, rfl⟩, rfl⟩

variable {th ecu eu H : ℝ} {parts : List ConcretePart} {bars bars' : List Bar}

/-- Ordinary reinforced concrete stays so under scaling, as long as its depth stays within the bounds. -/
theorem ordinary_scaled (s : Scale) (h : OrdinaryRC th parts bars ecu eu H) (hb : List.Forall₂ (Bar.ScaledTo s) bars bars')
    (hH : 1e-3 ≤ s.len * H ∧ s.len * H ≤ 1e9) : OrdinaryRC th (parts.map (ConcretePart.scaled s)) bars' ecu eu (s.len * H) := by
  have hx : ∀ x : ℝ × ℝ, height th (s.point x) = s.len * height th x := s.height_point th
  have hset : ∀ l : List (ℝ × ℝ), {v | v ∈ l.map s.point} = s.point '' {v | v ∈ l} := by
    intro l; ext v; simp
  have hl := s.len_pos
  exact { crushing := by
            intro p hp
            obtain ⟨q, hq, rfl⟩ := List.mem_map.1 hp
            exact h.crushing q hq
          rupture := by
            intro b' hb'
            obtain ⟨b, hb1, hr⟩ := forall2_left hb hb'
            rw [hr.ult]
            exact h.rupture b hb1
          ecu_range := h.ecu_range
          eu_range := h.eu_range
          inside := by
            intro b' hb'
            obtain ⟨b, hb1, hr⟩ := forall2_left hb hb'
            obtain ⟨p, hp, hin⟩ := h.inside b hb1
            refine ⟨_, List.mem_map_of_mem hp, ?_⟩
            simp only [ConcretePart.scaled]
            rw [hset, ← scale_hull, hr.x, hr.y]
            exact ⟨_, hin, rfl⟩
          span := by
            intro c hc d hd
            rw [concreteSection_scaled s parts hb] at hc hd
            obtain ⟨c', hc', e1⟩ := scaled_corner s _ hc
            obtain ⟨d', hd', e2⟩ := scaled_corner s _ hd
            rw [e1, e2, hx, hx, ← mul_sub]
            exact mul_le_mul_of_nonneg_left (h.span c' hc' d' hd') hl.le
          size := hH
          depth := by
            obtain ⟨b, hb1, p, hp, v, hv, hd⟩ := h.depth
            obtain ⟨b', hb', hr⟩ := forall2_left (hb.flip) hb1
            refine ⟨b', hb', _, List.mem_map_of_mem hp, s.point v, List.mem_map_of_mem hv, ?_⟩
            have := hx (b.x, b.y)
            simp only [Scale.point] at this
            rw [hr.x, hr.y, this, hx]
            have := mul_le_mul_of_nonneg_left hd hl.le
            linarith }

/-- A scaled part satisfies the assumptions on concrete parts, if `shapely` cuts the scaled polygon correctly. -/
theorem ok_scaled {split split' : Polygon → ℝ → ℝ → ShapelyResult} {p : ConcretePart} (s : Scale) (h : p.Ok split th)
    (hs : SplitsExactly split' (((p.scaled s).polygon.rotate (-th)).rotate (-Real.pi))
      (rotPt (-Real.pi) '' (rotPt (-th) '' (p.scaled s).region))) : (p.scaled s).Ok split' th where
  encloses := encloses_scaled s h.encloses
  inHull := by
    have hset : {v | v ∈ p.polygon.ext.map s.point} = s.point '' {v | v ∈ p.polygon.ext} := by ext v; simp
    simp only [ConcretePart.scaled]
    rw [hset, ← scale_hull]
    exact Set.image_mono h.inHull
  splits := hs
  peak := h.peak
  plateau := h.plateau

theorem forces_moment (s : Scale) (F : Fin 3 → ℝ) : bendingMoment th (s.forces F) = s.stress * s.len ^ 3 * bendingMoment th F := by
  simp only [bendingMoment, Scale.forces, Matrix.cons_val]
  ring

/-- **C90** (limits of the axial force). -/
theorem C90_limits (split split' : Polygon → ℝ → ℝ → ShapelyResult) (ms ms' : ℝ) (s : Scale) (h : OrdinaryRC 0 parts bars ecu eu H)
    (hb : List.Forall₂ (Bar.ScaledTo s) bars bars') (hH : 1e-3 ≤ s.len * H ∧ s.len * H ≤ 1e9)
    (hreg : ∀ p ∈ parts, Encloses p.polygon.ext p.polygon.ints p.region ∧ 0 < |p.eps_0| ∧ |p.eps_0| ≤ |p.eps_u|)
    (hid : SameIds (bars.map Bar.law)) (hd : EqualSizes (groupBars bars))
    (hid' : SameIds (bars'.map Bar.law)) (hd' : EqualSizes (groupBars bars')) :
    ∃ lo hi : ℝ, (limits (sectionEngine split (parts.map ConcretePart.solid) bars ms) .fresh).2 = .ok (lo, hi) ∧
      (limits (sectionEngine split' ((parts.map (ConcretePart.scaled s)).map ConcretePart.solid) bars' ms') .fresh).2 =
        .ok (s.stress * s.len ^ 2 * lo, s.stress * s.len ^ 2 * hi) := by
  refine ⟨_, _, C73_limits split ms h hreg hid hd, ?_⟩
  have h' := ordinary_scaled s h hb hH
  rw [C73_limits split' ms' h' (by
    intro p hp
    obtain ⟨q, hq, rfl⟩ := List.mem_map.1 hp
    exact ⟨encloses_scaled s (hreg q hq).1, (hreg q hq).2⟩) hid' hd', concreteSection_scaled s parts hb]
  have hp : ∀ u : ℝ, (![u, 0, 0] : Fin 3 → ℝ) = s.plane ![u, 0, 0] := by
    intro u
    simp [Scale.plane]
  rw [hp (-ecu), hp eu, scaled_forces, scaled_forces, ← hp, ← hp]
  simp [Scale.forces]

theorem strength_scaled_le {split split' : Polygon → ℝ → ℝ → ShapelyResult} {ms ms' R : ℝ} (s : Scale)
    {lu lu' : Matrix (Fin 3) (Fin 3) ℝ → (Fin 3 → ℝ) → (Fin 3 → ℝ)}
    (h : OrdinaryRC th parts bars ecu eu H) (hb : List.Forall₂ (Bar.ScaledTo s) bars bars')
    (hH : 1e-3 ≤ s.len * H ∧ s.len * H ≤ 1e9)
    (hok : ∀ p ∈ parts, p.Ok split th) (hok' : ∀ p ∈ parts, (p.scaled s).Ok split' th)
    (hid : SameIds (bars.map Bar.law)) (hd : EqualSizes (groupBars bars))
    (hid' : SameIds (bars'.map Bar.law)) (hd' : EqualSizes (groupBars bars')) (hA : ∀ b ∈ bars, 0 ≤ b.area)
    (hmono : ∀ b ∈ bars, MonotoneOn b.law.law.stress (Set.Icc (b.law.law.ult false).1 (b.law.law.ult false).2))
    (hR : ∀ p ∈ parts, ∀ v ∈ p.polygon.ext, |height th v| ≤ R) (n n' : ℝ) (ops ops' : List Op) (b b' : BendingResult)
    (hops : Undisturbed (sectionEngine split (parts.map ConcretePart.solid) bars ms) lu ops .fresh)
    (hops' : Undisturbed (sectionEngine split' ((parts.map (ConcretePart.scaled s)).map ConcretePart.solid) bars' ms') lu' ops' .fresh)
    (hrun : (bendingStrength (sectionEngine split (parts.map ConcretePart.solid) bars ms) th n
      (history (sectionEngine split (parts.map ConcretePart.solid) bars ms) lu ops .fresh)).2 = .ok b)
    (hrun' : (bendingStrength (sectionEngine split' ((parts.map (ConcretePart.scaled s)).map ConcretePart.solid) bars' ms') th n'
      (history (sectionEngine split' ((parts.map (ConcretePart.scaled s)).map ConcretePart.solid) bars' ms') lu' ops' .fresh)).2 = .ok b') :
    s.stress * s.len ^ 3 * bendingMoment th ![b.n, b.m.1, b.m.2] ≤
      bendingMoment th ![b'.n, b'.m.1, b'.m.2] + s.len * R * |s.stress * s.len ^ 2 * b.n - b'.n| := by
  have hl := s.len_pos
  obtain ⟨v, c, ha, -, hF⟩ := strength_plane h hok hid hd hmono n ops b hops hrun
  have hpl : s.plane (planeThrough th 0 v c) = planeThrough th 0 v (c / s.len) := by
    rw [planeThrough_curvature, planeThrough_curvature]
    simp only [Scale.plane, Matrix.cons_val]
    congr 2
    · ring
    · congr 1; ring
  have := C74_strength (ordinary_scaled s h hb hH) (by
      intro p hp
      obtain ⟨q, hq, rfl⟩ := List.mem_map.1 hp
      exact hok' q hq) hid' hd' (by
      intro b' hb'
      obtain ⟨b, hb1, hr⟩ := forall2_left hb hb'
      rw [hr.area]
      exact mul_nonneg (sq_nonneg _) (hA b hb1)) (by
      intro b' hb'
      obtain ⟨b, hb1, hr⟩ := forall2_left hb hb'
      rw [hr.ult]
      intro x hx y hy hxy
      rw [hr.stress, hr.stress]
      exact mul_le_mul_of_nonneg_left (hmono b hb1 hx hy hxy) s.stress_pos.le) (R := s.len * R) (by
      intro p hp w hw
      obtain ⟨q, hq, rfl⟩ := List.mem_map.1 hp
      obtain ⟨u, hu, rfl⟩ := List.mem_map.1 hw
      rw [s.height_point, abs_mul, abs_of_pos hl]
      exact mul_le_mul_of_nonneg_left (hR q hq u hu) hl.le) n' ops' b' hops' hrun' v (c / s.len) (by
      rw [concreteSection_scaled s parts hb, ← hpl, scaled_admissible]
      exact ha)
  rw [concreteSection_scaled s parts hb, ← hpl, scaled_forces, hF, forces_moment] at this
  simpa [Scale.forces] using this

/-- **C90** (bending strength): the strength of the scaled section is the scaled strength, up to the distance of the farthest corner
times the difference of the axial forces in which the two searches ended. -/
theorem C90_strength {split split' : Polygon → ℝ → ℝ → ShapelyResult} {ms ms' R : ℝ} (s : Scale)
    {lu lu' : Matrix (Fin 3) (Fin 3) ℝ → (Fin 3 → ℝ) → (Fin 3 → ℝ)}
    (h : OrdinaryRC th parts bars ecu eu H) (hb : List.Forall₂ (Bar.ScaledTo s) bars bars')
    (hH : 1e-3 ≤ s.len * H ∧ s.len * H ≤ 1e9)
    (hok : ∀ p ∈ parts, p.Ok split th) (hok' : ∀ p ∈ parts, (p.scaled s).Ok split' th)
    (hid : SameIds (bars.map Bar.law)) (hd : EqualSizes (groupBars bars))
    (hid' : SameIds (bars'.map Bar.law)) (hd' : EqualSizes (groupBars bars')) (hA : ∀ b ∈ bars, 0 ≤ b.area)
    (hmono : ∀ b ∈ bars, MonotoneOn b.law.law.stress (Set.Icc (b.law.law.ult false).1 (b.law.law.ult false).2))
    (hR : ∀ p ∈ parts, ∀ v ∈ p.polygon.ext, |height th v| ≤ R) (n n' : ℝ) (ops ops' : List Op) (b b' : BendingResult)
    (hops : Undisturbed (sectionEngine split (parts.map ConcretePart.solid) bars ms) lu ops .fresh)
    (hops' : Undisturbed (sectionEngine split' ((parts.map (ConcretePart.scaled s)).map ConcretePart.solid) bars' ms') lu' ops' .fresh)
    (hrun : (bendingStrength (sectionEngine split (parts.map ConcretePart.solid) bars ms) th n
      (history (sectionEngine split (parts.map ConcretePart.solid) bars ms) lu ops .fresh)).2 = .ok b)
    (hrun' : (bendingStrength (sectionEngine split' ((parts.map (ConcretePart.scaled s)).map ConcretePart.solid) bars' ms') th n'
      (history (sectionEngine split' ((parts.map (ConcretePart.scaled s)).map ConcretePart.solid) bars' ms') lu' ops' .fresh)).2 = .ok b') :
    |bendingMoment th ![b'.n, b'.m.1, b'.m.2] - s.stress * s.len ^ 3 * bendingMoment th ![b.n, b.m.1, b.m.2]| ≤
      s.len * R * |b'.n - s.stress * s.len ^ 2 * b.n| := by
  have hl := s.len_pos
  have hk := s.stress_pos
  have h1 := strength_scaled_le s h hb hH hok hok' hid hd hid' hd' hA hmono hR n n' ops ops' b b' hops hops' hrun hrun'
  have hb2 : List.Forall₂ (Bar.ScaledTo s.inv) bars' bars := (hb.imp fun _ _ h => h.inv).flip
  have hparts : (parts.map (ConcretePart.scaled s)).map (ConcretePart.scaled s.inv) = parts := by
    rw [List.map_map]
    exact (List.map_congr_left fun p _ => part_inv s p).trans (List.map_id _)
  have h2 := strength_scaled_le (parts := parts.map (ConcretePart.scaled s)) (bars := bars') (bars' := bars) (split := split')
    (split' := split) (ms := ms') (ms' := ms) (R := s.len * R) s.inv (ordinary_scaled s h hb hH) hb2 (by
      simp only [Scale.inv, inv_mul_cancel_left₀ hl.ne']
      exact h.size) (by
      intro p hp
      obtain ⟨q, hq, rfl⟩ := List.mem_map.1 hp
      exact hok' q hq) (by
      intro p hp
      obtain ⟨q, hq, rfl⟩ := List.mem_map.1 hp
      rw [part_inv]
      exact hok q hq) hid' hd' hid hd (by
      intro b' hb'
      obtain ⟨b, hb1, hr⟩ := forall2_left hb hb'
      rw [hr.area]
      exact mul_nonneg (sq_nonneg _) (hA b hb1)) (by
      intro b' hb'
      obtain ⟨b, hb1, hr⟩ := forall2_left hb hb'
      rw [hr.ult]
      intro x hx y hy hxy
      rw [hr.stress, hr.stress]
      exact mul_le_mul_of_nonneg_left (hmono b hb1 hx hy hxy) s.stress_pos.le) (by
      intro p hp w hw
      obtain ⟨q, hq, rfl⟩ := List.mem_map.1 hp
      obtain ⟨u, hu, rfl⟩ := List.mem_map.1 hw
      rw [s.height_point, abs_mul, abs_of_pos hl]
      exact mul_le_mul_of_nonneg_left (hR q hq u hu) hl.le) n' n ops' ops b' b hops' (by rw [hparts]; exact hops) hrun' (by
      rw [hparts]; exact hrun)
  simp only [Scale.inv, inv_mul_cancel_left₀ hl.ne'] at h2
  have e3 : s.stress * s.len ^ 3 * (s.stress⁻¹ * s.len⁻¹ ^ 3 * bendingMoment th ![b'.n, b'.m.1, b'.m.2]) =
      bendingMoment th ![b'.n, b'.m.1, b'.m.2] := by
    field_simp
  have e2 : s.stress * s.len ^ 2 * |s.stress⁻¹ * s.len⁻¹ ^ 2 * b'.n - b.n| = |b'.n - s.stress * s.len ^ 2 * b.n| := by
    rw [← abs_of_pos (mul_pos hk (pow_pos hl 2)), ← abs_mul, abs_of_pos (mul_pos hk (pow_pos hl 2))]
    congr 1
    field_simp
  have h3 := mul_le_mul_of_nonneg_left h2 (mul_pos hk (pow_pos hl 3)).le
  rw [e3] at h3
  rw [abs_sub_comm] at h1
  rw [abs_le]
  constructor
  · linarith
  · have : s.stress * s.len ^ 3 * (R * |s.stress⁻¹ * s.len⁻¹ ^ 2 * b'.n - b.n|) = s.len * R * |b'.n - s.stress * s.len ^ 2 * b.n| := by
      rw [← e2]; ring
    linarith

theorem rigidity_scaled (s : Scale) (hb : List.Forall₂ (Bar.ScaledTo s) bars bars') (K : ℝ) :
    OrdinaryRC.axialRigidity (parts.map (ConcretePart.scaled s)) bars' (s.stress * K) =
      s.stress * s.len ^ 2 * OrdinaryRC.axialRigidity parts bars K := by
  simp only [OrdinaryRC.axialRigidity, List.map_map, mul_add]
  congr 1
  · rw [← List.sum_map_mul_left]
    congr 1
    refine List.map_congr_left fun p _ => ?_
    simp only [Function.comp_apply, ConcretePart.scaled, areaMoment_scaled, abs_mul, abs_of_pos s.stress_pos]
    ring
  · induction hb with
    | nil => simp
    | cons h _ ih =>
      simp only [List.map_cons, List.sum_cons, ih, h.area, abs_mul, abs_of_pos (pow_pos s.len_pos 2)]
      ring

/-- **C90** (bending strength under a given load, partial as C73): for all loads between the limits, but for a countable set and a margin
next to the limits, both calculations answer, and the answers are scaled to each other up to the tolerance `1e-2` of the searches. -/
theorem C90_load_partial (split split' : Polygon → ℝ → ℝ → ShapelyResult) (ms ms' : ℝ) {H0 R : ℝ} (s : Scale)
    (lu lu' : Matrix (Fin 3) (Fin 3) ℝ → (Fin 3 → ℝ) → (Fin 3 → ℝ))
    (h0 : OrdinaryRC 0 parts bars ecu eu H0) (h : OrdinaryRC th parts bars ecu eu H)
    (hb : List.Forall₂ (Bar.ScaledTo s) bars bars')
    (hH0 : 1e-3 ≤ s.len * H0 ∧ s.len * H0 ≤ 1e9) (hH : 1e-3 ≤ s.len * H ∧ s.len * H ≤ 1e9)
    (hok : ∀ p ∈ parts, p.Ok split th) (hok' : ∀ p ∈ parts, (p.scaled s).Ok split' th)
    (hid : SameIds (bars.map Bar.law)) (hd : EqualSizes (groupBars bars))
    (hid' : SameIds (bars'.map Bar.law)) (hd' : EqualSizes (groupBars bars')) (hA : ∀ b ∈ bars, 0 ≤ b.area)
    (hmono : ∀ b ∈ bars, MonotoneOn b.law.law.stress (Set.Icc (b.law.law.ult false).1 (b.law.law.ult false).2))
    {K : ℝ} (hK0 : 0 ≤ K)
    (hK : ∀ b ∈ bars, ∀ x ∈ Set.Icc (b.law.law.ult false).1 (b.law.law.ult false).2,
      ∀ y ∈ Set.Icc (b.law.law.ult false).1 (b.law.law.ult false).2, |b.law.law.stress x - b.law.law.stress y| ≤ K * |x - y|)
    (hstiff : OrdinaryRC.axialRigidity parts bars K * H ≤ 1e22)
    (hstiff' : s.stress * s.len ^ 3 * (OrdinaryRC.axialRigidity parts bars K * H) ≤ 1e22)
    (hR : ∀ p ∈ parts, ∀ v ∈ p.polygon.ext, |height th v| ≤ R) {δ : ℝ}
    (hδ : OrdinaryRC.axialRigidity parts bars K * H * 1e-13 ≤ δ)
    (hδ' : s.len * (OrdinaryRC.axialRigidity parts bars K * H) * 1e-13 ≤ δ) :
    ∃ C : Set ℝ, C.Countable ∧ ∀ n ∉ C, ∀ (ops ops' : List Op),
      Undisturbed (sectionEngine split (parts.map ConcretePart.solid) bars ms) lu ops .fresh →
      Undisturbed (sectionEngine split' ((parts.map (ConcretePart.scaled s)).map ConcretePart.solid) bars' ms') lu' ops' .fresh →
      (concreteSection parts bars).forces ![-ecu, 0, 0] 0 + δ < n → n < (concreteSection parts bars).forces ![eu, 0, 0] 0 - δ →
      ∃ b b' : BendingResult, (bendingStrength (sectionEngine split (parts.map ConcretePart.solid) bars ms) th n
          (history (sectionEngine split (parts.map ConcretePart.solid) bars ms) lu ops .fresh)).2 = .ok b ∧
        (bendingStrength (sectionEngine split' ((parts.map (ConcretePart.scaled s)).map ConcretePart.solid) bars' ms') th
          (s.stress * s.len ^ 2 * n)
          (history (sectionEngine split' ((parts.map (ConcretePart.scaled s)).map ConcretePart.solid) bars' ms') lu' ops' .fresh)).2 =
            .ok b' ∧
        |b'.n - s.stress * s.len ^ 2 * b.n| ≤ (1 + s.stress * s.len ^ 2) * 1e-2 ∧
        |bendingMoment th ![b'.n, b'.m.1, b'.m.2] - s.stress * s.len ^ 3 * bendingMoment th ![b.n, b.m.1, b.m.2]| ≤
          s.len * R * ((1 + s.stress * s.len ^ 2) * 1e-2) := by
  have hl := s.len_pos
  have hk := s.stress_pos
  have hf := mul_pos hk (pow_pos hl 2)
  have hsec := concreteSection_scaled s parts hb
  obtain ⟨C, hC, hmain⟩ := C73_strength_partial split ms lu h0 h hok hid hd hK0 hK hstiff
  have hrig := rigidity_scaled (parts := parts) s hb K
  obtain ⟨C', hC', hmain'⟩ := C73_strength_partial split' ms' lu' (ordinary_scaled s h0 hb hH0) (ordinary_scaled s h hb hH) (by
      intro p hp
      obtain ⟨q, hq, rfl⟩ := List.mem_map.1 hp
      exact hok' q hq) hid' hd' (mul_nonneg hk.le hK0) (by
      intro b' hb'
      obtain ⟨b, hb1, hr⟩ := forall2_left hb hb'
      rw [hr.ult]
      intro x hx y hy
      rw [hr.stress, hr.stress, ← mul_sub, abs_mul, abs_of_pos hk, mul_assoc]
      exact mul_le_mul_of_nonneg_left (hK b hb1 x hx y hy) hk.le) (by
      rw [hrig]
      refine le_trans (le_of_eq ?_) hstiff'
      ring)
  refine ⟨C ∪ (fun n => s.stress * s.len ^ 2 * n) ⁻¹' C', hC.union (hC'.preimage (mul_right_injective₀ hf.ne')), ?_⟩
  intro n hn ops ops' hops hops' hlo hhi
  obtain ⟨b, hb1, -, -, -, -, t1⟩ := (hmain n ops hops).2 (by linarith) (by linarith)
  have hp : ∀ u : ℝ, ((concreteSection parts bars).scaled s).forces ![u, 0, 0] 0 =
      s.stress * s.len ^ 2 * (concreteSection parts bars).forces ![u, 0, 0] 0 := by
    intro u
    have e : (![u, 0, 0] : Fin 3 → ℝ) = s.plane ![u, 0, 0] := by simp [Scale.plane]
    conv_lhs => rw [e, scaled_forces]
    simp [Scale.forces]
  have e1 := mul_lt_mul_of_pos_left hlo hf
  have e2 := mul_lt_mul_of_pos_left hhi hf
  have e3 := mul_le_mul_of_nonneg_left hδ' hf.le
  have e4 : s.stress * s.len ^ 2 * OrdinaryRC.axialRigidity parts bars K * (s.len * H) * 1e-13 =
      s.stress * s.len ^ 2 * (s.len * (OrdinaryRC.axialRigidity parts bars K * H) * 1e-13) := by ring
  obtain ⟨b', hb2, -, -, -, -, t2⟩ := (hmain' (s.stress * s.len ^ 2 * n) ops' hops').2 (by
    rw [hsec, hp, hrig, e4]; linarith) (by rw [hsec, hp, hrig, e4]; linarith)
  have t1 := t1 fun hc => hn (Or.inl hc)
  have t2 := t2 fun hc => hn (Or.inr hc)
  have t3 : |b'.n - s.stress * s.len ^ 2 * b.n| ≤ (1 + s.stress * s.len ^ 2) * 1e-2 := by
    have e : b'.n - s.stress * s.len ^ 2 * b.n = (b'.n - s.stress * s.len ^ 2 * n) - s.stress * s.len ^ 2 * (b.n - n) := by ring
    rw [e]
    refine (abs_sub _ _).trans ?_
    rw [abs_mul, abs_of_pos hf, add_mul, one_mul]
    exact add_le_add t2 (mul_le_mul_of_nonneg_left t1 hf.le)
  refine ⟨b, b', hb1, hb2, t3, ?_⟩
  refine (C90_strength s h hb hH hok hok' hid hd hid' hd' hA hmono hR n _ ops ops' b b' hops hops' hb1 hb2).trans ?_
  exact mul_le_mul_of_nonneg_left t3 (mul_nonneg hl.le (h.within hok hR).2)

/-- Scaling the bars only: same material objects. -/
def Bar.scaled (s : Scale) (b : Bar) : Bar := ⟨s.len * b.x, s.len * b.y, s.len ^ 2 * b.area, b.law⟩

end SC
