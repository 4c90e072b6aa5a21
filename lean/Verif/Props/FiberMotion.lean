import Verif.Props.FiberCompare
import Verif.Props.MotionConcrete
import Verif.Props.ScalingConcrete

/-! # C93: bending strengths of the fibre integrator for moved and scaled sections

Moving or scaling the section moves or scales the strengths of the fibre integrator, up to the errors of the two meshes, which need not
correspond. -/

set_option autoImplicit false

namespace SC

open Spec MeasureTheory MeshedConcrete

theorem motion_hull (m : Motion) (s : Set (ℝ × ℝ)) : m.point '' convexHull ℝ s = convexHull ℝ (m.point '' s) := by
  refine (hull_moved m s).antisymm (convexHull_min (Set.image_mono (subset_convexHull _ _)) ?_)
  rintro _ ⟨x, hx, rfl⟩ _ ⟨y, hy, rfl⟩ a b ha hb hab
  refine ⟨a • x + b • y, convex_convexHull ℝ s hx hy ha hb hab, ?_⟩
  have : a = 1 - b := by linarith
  subst this
  ext <;> simp [Motion.point] <;> ring

/-- The strains at the points of the moved section under the moved plane are those of the section under the plane. -/
theorem moved_admissible (m : Motion) (S : CrossSection) (e : Fin 3 → ℝ) : (S.moved m).Admissible (m.plane e) ↔ S.Admissible e := by
  have hset : ∀ l : List (ℝ × ℝ), {v | v ∈ l.map m.point} = m.point '' {v | v ∈ l} := by
    intro l; ext v; simp
  simp only [CrossSection.Admissible, CrossSection.moved, List.forall_mem_map, hset, ← motion_hull, Set.forall_mem_image, m.plane_strain]

theorem moved_corner (m : Motion) (S : CrossSection) {c : (ℝ × ℝ) × ℝ × ℝ} (hc : c ∈ (S.moved m).corners) :
    ∃ d ∈ S.corners, c.1 = m.point d.1 := by
  simp only [CrossSection.corners, CrossSection.moved, List.mem_append, List.mem_flatMap, List.mem_map] at hc ⊢
  rcases hc with ⟨_, ⟨p, hp, rfl⟩, _, hv, rfl⟩ | ⟨_, ⟨r, hr, rfl⟩, rfl⟩
  · obtain ⟨w, hw, rfl⟩ := List.mem_map.1 hv
    exact ⟨_, Or.inl ⟨p, hp, w, hw, rfl⟩, rfl⟩
  · exact ⟨_, Or.inr ⟨r, hr, rfl⟩, rfl⟩

theorem moved_moment (m : Motion) (th : ℝ) (F : Fin 3 → ℝ) :
    bendingMoment (m.inclination th) (m.forces F) = bendingMoment th F - height (m.inclination th) m.shift * F 0 := by
  have hc : Real.cos (m.sign * th) = Real.cos th := by unfold Motion.sign; split_ifs <;> simp
  have hsn : Real.sin (m.sign * th) = m.sign * Real.sin th := by unfold Motion.sign; split_ifs <;> simp
  have h := Real.sin_sq_add_cos_sq m.angle
  have hs := m.sign_sq
  simp only [bendingMoment, Motion.forces, Motion.turn, height, Motion.inclination, Real.cos_add, Real.sin_add, hc, hsn, Matrix.cons_val]
  linear_combination (-(F 1 * Real.cos th) - m.sign * m.sign * F 2 * Real.sin th) * h - F 2 * Real.sin th * hs

variable {th ecu eu H D R : ℝ} {parts : List ConcretePart} {bars bars' : List Bar}

/-- Ordinary reinforced concrete stays so when it is moved. -/
theorem ordinary_moved (m : Motion) (h : OrdinaryRC th parts bars ecu eu H) :
    OrdinaryRC (m.inclination th) (parts.map (ConcretePart.moved m)) (bars.map (Bar.moved m)) ecu eu H := by
  have hset : ∀ l : List (ℝ × ℝ), {v | v ∈ l.map m.point} = m.point '' {v | v ∈ l} := by
    intro l; ext v; simp
  exact { crushing := by
            intro p hp
            obtain ⟨q, hq, rfl⟩ := List.mem_map.1 hp
            exact h.crushing q hq
          rupture := by
            intro b' hb'
            obtain ⟨b, hb1, rfl⟩ := List.mem_map.1 hb'
            exact h.rupture b hb1
          ecu_range := h.ecu_range
          eu_range := h.eu_range
          inside := by
            intro b' hb'
            obtain ⟨b, hb1, rfl⟩ := List.mem_map.1 hb'
            obtain ⟨p, hp, hin⟩ := h.inside b hb1
            refine ⟨_, List.mem_map_of_mem hp, ?_⟩
            simp only [ConcretePart.moved]
            rw [hset, ← motion_hull]
            exact ⟨_, hin, rfl⟩
          span := by
            intro c hc d hd
            rw [concreteSection_moved] at hc hd
            obtain ⟨c', hc', e1⟩ := moved_corner m _ hc
            obtain ⟨d', hd', e2⟩ := moved_corner m _ hd
            rw [e1, e2, m.height_point, m.height_point]
            linarith [h.span c' hc' d' hd']
          size := h.size
          depth := by
            obtain ⟨b, hb1, p, hp, v, hv, hd⟩ := h.depth
            refine ⟨_, List.mem_map_of_mem hb1, _, List.mem_map_of_mem hp, m.point v, List.mem_map_of_mem hv, ?_⟩
            have e := m.height_point th (b.x, b.y)
            have e' : height (m.inclination th) ((b.moved m).x, (b.moved m).y) = height (m.inclination th) (m.point (b.x, b.y)) := rfl
            rw [e', e, m.height_point]
            linarith }

theorem sound_moved (m : Motion) {p : ConcretePart} (h : p.Sound) : (p.moved m).Sound where
  encloses := encloses_moved m h.encloses
  inHull := by
    have hset : ∀ l : List (ℝ × ℝ), {v | v ∈ l.map m.point} = m.point '' {v | v ∈ l} := by
      intro l; ext v; simp
    simp only [ConcretePart.moved, hset]
    exact (Set.image_mono h.inHull).trans (hull_moved m _)
  peak := h.peak
  plateau := h.plateau

theorem sound_scaled (s : Scale) {p : ConcretePart} (h : p.Sound) : (p.scaled s).Sound where
  encloses := encloses_scaled s h.encloses
  inHull := by
    have hset : ∀ l : List (ℝ × ℝ), {v | v ∈ l.map s.point} = s.point '' {v | v ∈ l} := by
      intro l; ext v; simp
    simp only [ConcretePart.scaled, hset, ← scale_hull]
    exact Set.image_mono h.inHull
  peak := h.peak
  plateau := h.plateau

/-- The moved section is an ordinary section as well: only the distances from the origin change. -/
theorem MeshedBeam.moved {qs qs' : List MeshedConcrete} {R' : ℝ} (m : Motion)
    (hq : qs'.map MeshedConcrete.part = (qs.map MeshedConcrete.part).map (ConcretePart.moved m)) (h : MeshedBeam qs bars th ecu eu H D R)
    (hR : ∀ q ∈ qs, ∀ v ∈ q.part.polygon.ext, |height (m.inclination th) (m.point v)| ≤ R') :
    MeshedBeam qs' (bars.map (Bar.moved m)) (m.inclination th) ecu eu H D R' := by
  have hp : ∀ q' ∈ qs', ∃ q ∈ qs, q.part.moved m = q'.part := by
    intro q' hq'
    have : q'.part ∈ qs'.map MeshedConcrete.part := List.mem_map_of_mem hq'
    rw [hq, List.map_map] at this
    exact List.mem_map.1 this
  refine ⟨by rw [hq]; exact ordinary_moved m h.ordinary, ?_, ?_, ?_, ?_, h.depth_pos, ?_, ?_⟩
  · intro q' hq'
    obtain ⟨q, hq0, e⟩ := hp q' hq'
    rw [← e]
    exact sound_moved m (h.sound q hq0)
  · have : (bars.map (Bar.moved m)).map Bar.law = bars.map Bar.law := by
      rw [List.map_map]; rfl
    rw [this]
    exact h.ids
  · intro b hb
    obtain ⟨b0, hb0, rfl⟩ := List.mem_map.1 hb
    exact h.areas b0 hb0
  · intro b hb
    obtain ⟨b0, hb0, rfl⟩ := List.mem_map.1 hb
    exact h.mono b0 hb0
  · obtain ⟨x, hx, q, hq0, w, hw, hD⟩ := h.depth
    have : q.part.moved m ∈ qs'.map MeshedConcrete.part := by
      rw [hq]; exact List.mem_map_of_mem (List.mem_map_of_mem hq0)
    obtain ⟨q', hq', e⟩ := List.mem_map.1 this
    refine ⟨_, List.mem_map_of_mem hx, q', hq', m.point w, by rw [e]; exact List.mem_map_of_mem hw, ?_⟩
    have e' : height (m.inclination th) ((x.moved m).x, (x.moved m).y) = height (m.inclination th) (m.point (x.x, x.y)) := rfl
    rw [e', m.height_point, m.height_point]
    linarith
  · intro q' hq' v hv
    obtain ⟨q, hq0, e⟩ := hp q' hq'
    rw [← e] at hv
    obtain ⟨w, hw, rfl⟩ := List.mem_map.1 hv
    exact hR q hq0 w hw

theorem MeshedBeam.forces_moved {qs : List MeshedConcrete} (m : Motion) (h : MeshedBeam qs bars th ecu eu H D R) (e : Fin 3 → ℝ) :
    (concreteSection ((qs.map MeshedConcrete.part).map (ConcretePart.moved m)) (bars.map (Bar.moved m))).forces (m.plane e) =
      m.forces ((concreteSection (qs.map MeshedConcrete.part) bars).forces e) := by
  rw [concreteSection_moved, moved_forces]
  · intro p hp
    obtain ⟨q, hq, rfl⟩ := List.mem_map.1 hp
    exact (h.sound' q hq).encloses.measurable
  · intro p hp i
    obtain ⟨q, hq, rfl⟩ := List.mem_map.1 hp
    have hs := h.sound' q hq
    refine integrable_law (fc := |q.fc|) (measurable_parabola _) (fun x => ?_) e hs.encloses.bounded (w := fun x => lever x.1 x.2 i) ?_
    · exact pr_stress_range q.fc _ _ hs.peak x
    · fin_cases i <;> simp only [lever, Matrix.cons_val, Fin.zero_eta, Fin.mk_one, Fin.reduceFinMk] <;> fun_prop

theorem plane_moved (m : Motion) (th e c : ℝ) : m.plane (planeThrough th 0 e c) =
    planeThrough (m.inclination th) 0 (e - c * height (m.inclination th) m.shift) c := by
  rw [planeThrough_curvature, plane_axis, planeThrough_curvature]

/-- The error of the bending moment about an axis at the distance `R'`. -/
theorem momentWeight_shift (parts : List ConcretePart) (th ecu eu D R R' x : ℝ) :
    momentWeight parts th ecu eu D R' * x = momentWeight parts th ecu eu D R * x + (R' - R) * ((ecu + eu) / D * x * weight parts 0) := by
  simp only [momentWeight]; ring

/-- Every plane of the moved section is a moved plane. -/
theorem plane_surjective (m : Motion) (e : Fin 3 → ℝ) : ∃ e0, m.plane e0 = e := by
  have h := Real.sin_sq_add_cos_sq m.angle
  have hs := m.sign_sq
  refine ⟨![e 0 + e 1 * m.shift.2 - e 2 * m.shift.1, Real.cos m.angle * e 1 + Real.sin m.angle * e 2,
    m.sign * (Real.cos m.angle * e 2 - Real.sin m.angle * e 1)], ?_⟩
  have h1 : (m.turn (Real.cos m.angle * e 1 + Real.sin m.angle * e 2,
      m.sign * (Real.cos m.angle * e 2 - Real.sin m.angle * e 1))) = (e 1, e 2) := by
    simp only [Motion.turn, Prod.mk.injEq]
    constructor
    · linear_combination e 1 * h - Real.sin m.angle * (Real.cos m.angle * e 2 - Real.sin m.angle * e 1) * hs
    · linear_combination e 2 * h + Real.cos m.angle * (Real.cos m.angle * e 2 - Real.sin m.angle * e 1) * hs
  funext i
  simp only [Motion.plane, Matrix.cons_val, h1]
  fin_cases i
  · simp; ring
  · simp
  · simp

theorem moved_ultimate (m : Motion) {S : CrossSection} {e : Fin 3 → ℝ} (h : S.Ultimate th e) :
    (S.moved m).Ultimate (m.inclination th) (m.plane e) := by
  have key : ∀ c ∈ S.corners, (m.point c.1, c.2) ∈ (S.moved m).corners := by
    intro c hc
    simp only [CrossSection.corners, CrossSection.moved, List.mem_append, List.mem_flatMap, List.mem_map] at hc ⊢
    rcases hc with ⟨p, hp, v, hv, rfl⟩ | ⟨r, hr, rfl⟩
    · exact Or.inl ⟨_, ⟨p, hp, rfl⟩, m.point v, List.mem_map_of_mem hv, rfl⟩
    · exact Or.inr ⟨_, ⟨r, hr, rfl⟩, rfl⟩
  rcases h with ⟨c, hc, he, h⟩ | ⟨c, hc, he, h⟩
  · refine Or.inl ⟨_, key c hc, by rw [m.plane_strain]; exact he, fun e' ha => ?_⟩
    obtain ⟨e0, rfl⟩ := plane_surjective m e'
    obtain ⟨h1, h2⟩ := h e0 ((moved_admissible m S e0).1 ha)
    simp only [CrossSection.moved, List.forall_mem_map, Set.forall_mem_image, m.plane_strain, m.height_point, Prod.mk.eta, add_lt_add_iff_right]
    exact ⟨h1, h2⟩
  · refine Or.inr ⟨_, key c hc, by rw [m.plane_strain]; exact he, fun e' ha => ?_⟩
    obtain ⟨e0, rfl⟩ := plane_surjective m e'
    obtain ⟨h1, h2⟩ := h e0 ((moved_admissible m S e0).1 ha)
    simp only [CrossSection.moved, List.forall_mem_map, Set.forall_mem_image, m.plane_strain, m.height_point, Prod.mk.eta, add_lt_add_iff_right]
    exact ⟨h1, h2⟩

/-- **C93** (motions). The bending strength of the moved section about the moved axis is the bending strength of the section, with the
axial force at the shifted place, up to the difference of the axial forces times `R'` and the errors of the two meshes. -/
theorem C93_moved {turned turned' : ℝ → List MeshSurf} {qs qs' : List MeshedConcrete} {R' ms ms' n n' : ℝ} {b b' : BendingResult}
    (m : Motion) (hq : qs'.map MeshedConcrete.part = (qs.map MeshedConcrete.part).map (ConcretePart.moved m))
    (h : MeshedBeam qs bars th ecu eu H D R)
    (hR : ∀ q ∈ qs, ∀ v ∈ q.part.polygon.ext, |height (m.inclination th) (m.point v)| ≤ R')
    (r : FibreResult turned qs bars ms th n b)
    (r' : FibreResult turned' qs' (bars.map (Bar.moved m)) ms' (m.inclination th) n' b') :
    |bendingMoment (m.inclination th) ![b'.n, b'.m.1, b'.m.2] -
        bendingMoment (m.inclination th) (m.forces ![b.n, b.m.1, b.m.2])| ≤ R' * |b'.n - b.n| +
      (momentWeight (qs.map MeshedConcrete.part) th ecu eu D (R' + |height (m.inclination th) m.shift|) * √ms +
        momentWeight (qs'.map MeshedConcrete.part) (m.inclination th) ecu eu D R' * √ms') := by
  have h' := h.moved m hq hR
  obtain ⟨c, hc, a, k, ea, he, -, had, -, hu, ha, hm⟩ := r.plane h
  obtain ⟨c', hc', a', k', -, he', -, had', -, hu', ha', hm'⟩ := r'.plane h'
  obtain ⟨hw, hR0⟩ := h.within
  obtain ⟨hw', hR0'⟩ := h'.within
  have hns := sound_nonSoftening h.sound' h.areas h.mono
  have hns' := sound_nonSoftening h'.sound' h'.areas h'.mono
  set z := height (m.inclination th) m.shift with hz
  have hpart : concreteSection (qs'.map MeshedConcrete.part) (bars.map (Bar.moved m)) =
      (concreteSection (qs.map MeshedConcrete.part) bars).moved m := by rw [hq, concreteSection_moved]
  have hF : ∀ e c, (concreteSection (qs'.map MeshedConcrete.part) (bars.map (Bar.moved m))).forces (planeThrough (m.inclination th) 0 (e - c * z) c) =
      m.forces ((concreteSection (qs.map MeshedConcrete.part) bars).forces (planeThrough th 0 e c)) := by
    intro e c
    rw [← h.forces_moved, plane_moved, hq]
  have hA : ∀ e c, (concreteSection (qs'.map MeshedConcrete.part) (bars.map (Bar.moved m))).Admissible (planeThrough (m.inclination th) 0 (e - c * z) c) ↔
      (concreteSection (qs.map MeshedConcrete.part) bars).Admissible (planeThrough th 0 e c) := by
    intro e c
    rw [hpart, hz, ← plane_moved, moved_admissible]
  have hb : m.forces ![b.n, b.m.1, b.m.2] 0 = b.n := rfl
  -- the errors of the first result, seen from the moved axis
  have g0 : ∀ F : Fin 3 → ℝ, m.forces F 0 = F 0 := fun _ => rfl
  have hmz : ∀ F : Fin 3 → ℝ, |F 0 - b.n| ≤ a → |bendingMoment th F - bendingMoment th ![b.n, b.m.1, b.m.2]| ≤ k →
      |bendingMoment (m.inclination th) (m.forces F) - bendingMoment (m.inclination th) (m.forces ![b.n, b.m.1, b.m.2])| ≤ k + |z| * a := by
    intro F h0 h1
    rw [moved_moment, moved_moment]
    have e : bendingMoment th F - height (m.inclination th) m.shift * F 0 - (bendingMoment th ![b.n, b.m.1, b.m.2] -
        height (m.inclination th) m.shift * ![b.n, b.m.1, b.m.2] 0) =
        (bendingMoment th F - bendingMoment th ![b.n, b.m.1, b.m.2]) - z * (F 0 - b.n) := by
      simp only [Matrix.cons_val, ← hz]; ring
    rw [e]
    refine (abs_sub _ _).trans (add_le_add h1 ?_)
    rw [abs_mul]
    exact mul_le_mul_of_nonneg_left h0 (abs_nonneg _)
  have k1 := hmz _ ha hm
  have k0 : |m.forces ((concreteSection (qs.map MeshedConcrete.part) bars).forces (planeThrough th 0 b.eps_a c)) 0 - b.n| ≤ a := ha
  have herr : (R' * a + (k + |z| * a)) = momentWeight (qs.map MeshedConcrete.part) th ecu eu D (R' + |z|) * √ms := by
    rw [momentWeight_shift _ _ _ _ _ R, ← he, ← ea]; ring
  -- the moved plane of the section is admissible in the moved section, and the other way round
  have s1 := ultimate_maximal hns' hw' hR0' had' hu' ((hA _ _).2 had)
  rw [hF] at s1
  have t1 := compare_forces hR0' s1 k0 k1 ha' hm'
  have hback : (concreteSection (qs.map MeshedConcrete.part) bars).Admissible (planeThrough th 0 (b'.eps_a + c' * z) c') := by
    rw [← hA, add_sub_cancel_right]; exact had'
  have hFb := hF (b'.eps_a + c' * z) c'
  rw [add_sub_cancel_right] at hFb
  have s2 : bendingMoment (m.inclination th) ((concreteSection (qs'.map MeshedConcrete.part) (bars.map (Bar.moved m))).forces
        (planeThrough (m.inclination th) 0 b'.eps_a c')) ≤
      bendingMoment (m.inclination th) (m.forces ((concreteSection (qs.map MeshedConcrete.part) bars).forces (planeThrough th 0 b.eps_a c))) +
        R' * |(concreteSection (qs'.map MeshedConcrete.part) (bars.map (Bar.moved m))).forces (planeThrough (m.inclination th) 0 b'.eps_a c') 0 -
          m.forces ((concreteSection (qs.map MeshedConcrete.part) bars).forces (planeThrough th 0 b.eps_a c)) 0| := by
    rw [← hF]
    exact ultimate_maximal hns' hw' hR0' ((hA _ _).2 had) (by rw [hpart, ← plane_moved]; exact moved_ultimate m hu) had'
  have t2 := compare_forces hR0' s2 ha' hm' k0 k1
  rw [herr, ← he', abs_sub_comm b.n] at *
  rw [abs_le]
  constructor <;> linarith

/-! ### Scaled sections -/

theorem scale_plane_surjective (s : Scale) (e : Fin 3 → ℝ) : ∃ e0, s.plane e0 = e := by
  have := s.len_pos.ne'
  refine ⟨![e 0, s.len * e 1, s.len * e 2], ?_⟩
  funext i
  fin_cases i <;> simp [Scale.plane, this]

theorem scaled_ultimate (s : Scale) {S : CrossSection} {e : Fin 3 → ℝ} (h : S.Ultimate th e) :
    (S.scaled s).Ultimate th (s.plane e) := by
  have key : ∀ c ∈ S.corners, (s.point c.1, c.2) ∈ (S.scaled s).corners := by
    intro c hc
    simp only [CrossSection.corners, CrossSection.scaled, List.mem_append, List.mem_flatMap, List.mem_map] at hc ⊢
    rcases hc with ⟨p, hp, v, hv, rfl⟩ | ⟨r, hr, rfl⟩
    · exact Or.inl ⟨_, ⟨p, hp, rfl⟩, s.point v, List.mem_map_of_mem hv, rfl⟩
    · exact Or.inr ⟨_, ⟨r, hr, rfl⟩, rfl⟩
  have hr : ∀ (e : Fin 3 → ℝ) (y z : ℝ), planeStrain (s.plane e) (s.len * y) (s.len * z) = planeStrain e y z :=
    fun e y z => s.plane_strain e (y, z)
  have hh : ∀ y z : ℝ, height th (s.len * y, s.len * z) = s.len * height th (y, z) := fun y z => s.height_point th (y, z)
  rcases h with ⟨c, hc, he, h⟩ | ⟨c, hc, he, h⟩
  · refine Or.inl ⟨_, key c hc, by rw [s.plane_strain]; exact he, fun e' ha => ?_⟩
    obtain ⟨e0, rfl⟩ := scale_plane_surjective s e'
    obtain ⟨h1, h2⟩ := h e0 ((scaled_admissible s S e0).1 ha)
    simp only [CrossSection.scaled, List.forall_mem_map, Set.forall_mem_image, s.plane_strain, s.height_point, hr, hh,
      mul_lt_mul_iff_right₀ s.len_pos, mul_le_mul_iff_right₀ s.stress_pos]
    exact ⟨h1, h2⟩
  · refine Or.inr ⟨_, key c hc, by rw [s.plane_strain]; exact he, fun e' ha => ?_⟩
    obtain ⟨e0, rfl⟩ := scale_plane_surjective s e'
    obtain ⟨h1, h2⟩ := h e0 ((scaled_admissible s S e0).1 ha)
    simp only [CrossSection.scaled, List.forall_mem_map, Set.forall_mem_image, s.plane_strain, s.height_point, hr, hh,
      mul_lt_mul_iff_right₀ s.len_pos, mul_le_mul_iff_right₀ s.stress_pos]
    exact ⟨h1, h2⟩

/-- The scaled section is an ordinary section as well, as long as its depth stays within the bounds. -/
theorem MeshedBeam.scaled {qs qs' : List MeshedConcrete} (s : Scale)
    (hq : qs'.map MeshedConcrete.part = (qs.map MeshedConcrete.part).map (ConcretePart.scaled s))
    (hb : List.Forall₂ (Bar.ScaledTo s) bars bars') (hid : SameIds (bars'.map Bar.law)) (hH : 1e-3 ≤ s.len * H ∧ s.len * H ≤ 1e9)
    (h : MeshedBeam qs bars th ecu eu H D R) : MeshedBeam qs' bars' th ecu eu (s.len * H) (s.len * D) (s.len * R) := by
  have hl := s.len_pos
  have hp : ∀ q' ∈ qs', ∃ q ∈ qs, q.part.scaled s = q'.part := by
    intro q' hq'
    have : q'.part ∈ qs'.map MeshedConcrete.part := List.mem_map_of_mem hq'
    rw [hq, List.map_map] at this
    exact List.mem_map.1 this
  refine ⟨by rw [hq]; exact ordinary_scaled s h.ordinary hb hH, ?_, hid, ?_, ?_, mul_pos hl h.depth_pos, ?_, ?_⟩
  · intro q' hq'
    obtain ⟨q, hq0, e⟩ := hp q' hq'
    rw [← e]
    exact sound_scaled s (h.sound q hq0)
  · intro b' hb'
    obtain ⟨b, hb1, hr⟩ := forall2_left hb hb'
    rw [hr.area]
    exact mul_nonneg (sq_nonneg _) (h.areas b hb1)
  · intro b' hb'
    obtain ⟨b, hb1, hr⟩ := forall2_left hb hb'
    rw [hr.ult]
    intro x hx y hy hxy
    rw [hr.stress, hr.stress]
    exact mul_le_mul_of_nonneg_left (h.mono b hb1 hx hy hxy) s.stress_pos.le
  · obtain ⟨x, hx, q, hq0, w, hw, hD⟩ := h.depth
    have : q.part.scaled s ∈ qs'.map MeshedConcrete.part := by
      rw [hq]; exact List.mem_map_of_mem (List.mem_map_of_mem hq0)
    obtain ⟨q', hq', e⟩ := List.mem_map.1 this
    obtain ⟨x', hx', hr⟩ := forall2_left hb.flip hx
    refine ⟨x', hx', q', hq', s.point w, by rw [e]; exact List.mem_map_of_mem hw, ?_⟩
    have e' : height th (s.len * x.x, s.len * x.y) = s.len * height th (x.x, x.y) := s.height_point th (x.x, x.y)
    rw [hr.x, hr.y, e', s.height_point, ← mul_sub]
    exact mul_le_mul_of_nonneg_left hD hl.le
  · intro q' hq' v hv
    obtain ⟨q, hq0, e⟩ := hp q' hq'
    rw [← e] at hv
    obtain ⟨w, hw, rfl⟩ := List.mem_map.1 hv
    rw [s.height_point, abs_mul, abs_of_pos hl]
    exact mul_le_mul_of_nonneg_left (h.reach q hq0 w hw) hl.le

/-- **C93** (scaling). The bending strength of the scaled section is the scaled bending strength, up to the difference of the axial forces
times `s.len * R` and the errors of the two meshes. -/
theorem C93_scaled {turned turned' : ℝ → List MeshSurf} {qs qs' : List MeshedConcrete} {ms ms' n n' : ℝ} {b b' : BendingResult}
    (s : Scale) (hq : qs'.map MeshedConcrete.part = (qs.map MeshedConcrete.part).map (ConcretePart.scaled s))
    (hb : List.Forall₂ (Bar.ScaledTo s) bars bars') (hid : SameIds (bars'.map Bar.law)) (hH : 1e-3 ≤ s.len * H ∧ s.len * H ≤ 1e9)
    (h : MeshedBeam qs bars th ecu eu H D R)
    (r : FibreResult turned qs bars ms th n b) (r' : FibreResult turned' qs' bars' ms' th n' b') :
    |bendingMoment th ![b'.n, b'.m.1, b'.m.2] - s.stress * s.len ^ 3 * bendingMoment th ![b.n, b.m.1, b.m.2]| ≤
      s.len * R * |b'.n - s.stress * s.len ^ 2 * b.n| +
      (s.stress * s.len ^ 3 * (momentWeight (qs.map MeshedConcrete.part) th ecu eu D R * √ms) +
        momentWeight (qs'.map MeshedConcrete.part) th ecu eu (s.len * D) (s.len * R) * √ms') := by
  have hl := s.len_pos
  have hk := s.stress_pos
  have h' := h.scaled s hq hb hid hH
  obtain ⟨c, hc, a, k, -, he, -, had, -, hu, ha, hm⟩ := r.plane h
  obtain ⟨c', hc', a', k', -, he', -, had', -, hu', ha', hm'⟩ := r'.plane h'
  obtain ⟨hw', hR0'⟩ := h'.within
  have hns' := sound_nonSoftening h'.sound' h'.areas h'.mono
  have hpart : concreteSection (qs'.map MeshedConcrete.part) bars' = (concreteSection (qs.map MeshedConcrete.part) bars).scaled s := by
    rw [hq, concreteSection_scaled s _ hb]
  have hpl : s.plane (planeThrough th 0 b.eps_a c) = planeThrough th 0 b.eps_a (c / s.len) := by
    rw [planeThrough_curvature, planeThrough_curvature]
    simp only [Scale.plane, Matrix.cons_val]
    congr 2
    · ring
    · congr 1; ring
  have hadS : (concreteSection (qs'.map MeshedConcrete.part) bars').Admissible (planeThrough th 0 b.eps_a (c / s.len)) := by
    rw [hpart, ← hpl, scaled_admissible]; exact had
  have huS : (concreteSection (qs'.map MeshedConcrete.part) bars').Ultimate th (planeThrough th 0 b.eps_a (c / s.len)) := by
    rw [hpart, ← hpl]; exact scaled_ultimate s hu
  have hF : (concreteSection (qs'.map MeshedConcrete.part) bars').forces (planeThrough th 0 b.eps_a (c / s.len)) =
      s.forces ((concreteSection (qs.map MeshedConcrete.part) bars).forces (planeThrough th 0 b.eps_a c)) := by
    rw [hpart, ← hpl, scaled_forces]
  have k0 : |(concreteSection (qs'.map MeshedConcrete.part) bars').forces (planeThrough th 0 b.eps_a (c / s.len)) 0 -
      s.stress * s.len ^ 2 * b.n| ≤ s.stress * s.len ^ 2 * a := by
    rw [hF]
    simp only [Scale.forces, Matrix.cons_val]
    rw [← mul_sub, abs_mul, abs_of_pos (by positivity)]
    exact mul_le_mul_of_nonneg_left ha (by positivity)
  have k1 : |bendingMoment th ((concreteSection (qs'.map MeshedConcrete.part) bars').forces (planeThrough th 0 b.eps_a (c / s.len))) -
      s.stress * s.len ^ 3 * bendingMoment th ![b.n, b.m.1, b.m.2]| ≤ s.stress * s.len ^ 3 * k := by
    rw [hF, forces_moment, ← mul_sub, abs_mul, abs_of_pos (by positivity)]
    exact mul_le_mul_of_nonneg_left hm (by positivity)
  have t1 := compare_forces hR0' (ultimate_maximal hns' hw' hR0' had' hu' hadS) k0 k1 ha' hm'
  have t2 := compare_forces hR0' (ultimate_maximal hns' hw' hR0' hadS huS had') ha' hm' k0 k1
  have herr : s.len * R * (s.stress * s.len ^ 2 * a) + s.stress * s.len ^ 3 * k =
      s.stress * s.len ^ 3 * (momentWeight (qs.map MeshedConcrete.part) th ecu eu D R * √ms) := by
    rw [← he]; ring
  rw [herr, he', abs_sub_comm (s.stress * s.len ^ 2 * b.n)] at t1
  rw [herr, he'] at t2
  rw [abs_le]
  constructor <;> linarith

end SC
