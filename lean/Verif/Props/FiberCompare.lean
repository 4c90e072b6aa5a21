import Verif.Props.FiberOrdinary
import Verif.Props.LoadSlope
import Verif.Props.Stronger
import Verif.Props.AddedDesign

/-! # C92: comparisons of bending strengths of the fibre integrator

Two meshes of one section, two axial loads, more bars: what holds for the strengths of the section holds for those of the fibre
integrator up to the mesh error. -/

set_option autoImplicit false

namespace SC

open Spec MeasureTheory MeshedConcrete

/-- An ordinary reinforced concrete section for bending with inclination `th`: limit strains `ecu`, `eu`, a bar at the depth `D`
below a corner, no corner farther than `R` from the axis through the origin. -/
structure MeshedBeam (qs : List MeshedConcrete) (bars : List Bar) (th ecu eu H D R : ℝ) : Prop where
  ordinary : OrdinaryRC th (qs.map MeshedConcrete.part) bars ecu eu H
  sound : ∀ q ∈ qs, q.part.Sound
  ids : SameIds (bars.map Bar.law)
  areas : ∀ b ∈ bars, 0 ≤ b.area
  mono : ∀ b ∈ bars, MonotoneOn b.law.law.stress (Set.Icc (b.law.law.ult false).1 (b.law.law.ult false).2)
  depth_pos : 0 < D
  depth : ∃ b ∈ bars, ∃ q ∈ qs, ∃ w ∈ q.part.polygon.ext, D ≤ height th w - height th (b.x, b.y)
  reach : ∀ q ∈ qs, ∀ v ∈ q.part.polygon.ext, |height th v| ≤ R

/-- `b` is returned by `calculate_bending_strength(th, n)` with the fibre integrator and triangles of the relative size `ms`: by a
fresh calculator, or, with the default size, after any earlier calculations that did not change the integration data. -/
structure FibreResult (turned : ℝ → List MeshSurf) (qs : List MeshedConcrete) (bars : List Bar) (ms th n : ℝ) (b : BendingResult) : Prop where
  size : 0 < ms ∧ ms ≤ 1
  fine : ∀ q ∈ qs, q.Fine ms
  run : ∃ (lu : Matrix (Fin 3) (Fin 3) ℝ → (Fin 3 → ℝ) → (Fin 3 → ℝ)) (ops : List Op), (ops = [] ∨ ms = defaultMesh) ∧
    Undisturbed (engine turned qs bars ms) lu ops .fresh ∧
    (bendingStrength (engine turned qs bars ms) th n (history (engine turned qs bars ms) lu ops .fresh)).2 = .ok b

theorem MeshedBeam.sound' {qs : List MeshedConcrete} {bars : List Bar} {th ecu eu H D R : ℝ} (h : MeshedBeam qs bars th ecu eu H D R) :
    ∀ p ∈ qs.map MeshedConcrete.part, p.Sound := by
  intro p hp
  obtain ⟨q, hq, rfl⟩ := List.mem_map.1 hp
  exact h.sound q hq

theorem MeshedBeam.within {qs : List MeshedConcrete} {bars : List Bar} {th ecu eu H D R : ℝ} (h : MeshedBeam qs bars th ecu eu H D R) :
    (concreteSection (qs.map MeshedConcrete.part) bars).Within th R ∧ 0 ≤ R :=
  h.ordinary.sound_within h.sound' (by
    intro p hp
    obtain ⟨q, hq, rfl⟩ := List.mem_map.1 hp
    exact h.reach q hq)

/-- Result and plane of the section: the errors `a` of the axial force and `m` of the bending moment together are at most that of
`momentWeight`. -/
theorem FibreResult.plane {turned : ℝ → List MeshSurf} {qs : List MeshedConcrete} {bars : List Bar} {ms th ecu eu H D R n : ℝ}
    {b : BendingResult} (r : FibreResult turned qs bars ms th n b) (h : MeshedBeam qs bars th ecu eu H D R) :
    ∃ c < 0, ∃ a m : ℝ, a = (ecu + eu) / D * √ms * weight (qs.map MeshedConcrete.part) 0 ∧ R * a + m = momentWeight (qs.map MeshedConcrete.part) th ecu eu D R * √ms ∧
      ![b.eps_a, b.chi.1, b.chi.2] = planeThrough th 0 b.eps_a c ∧
      (concreteSection (qs.map MeshedConcrete.part) bars).Admissible (planeThrough th 0 b.eps_a c) ∧
      (concreteSection (qs.map MeshedConcrete.part) bars).AtLimit (planeThrough th 0 b.eps_a c) ∧
      (concreteSection (qs.map MeshedConcrete.part) bars).Ultimate th (planeThrough th 0 b.eps_a c) ∧
      |(concreteSection (qs.map MeshedConcrete.part) bars).forces (planeThrough th 0 b.eps_a c) 0 - b.n| ≤ a ∧
      |bendingMoment th ((concreteSection (qs.map MeshedConcrete.part) bars).forces (planeThrough th 0 b.eps_a c)) -
        bendingMoment th ![b.n, b.m.1, b.m.2]| ≤ m := by
  obtain ⟨lu, ops, hops, hun, hrun⟩ := r.run
  obtain ⟨c, hc, hpl, had, hlim, hu, herr⟩ := fibre_plane r.size.1 r.size.2 h.ordinary h.sound r.fine h.ids h.mono h.depth_pos h.depth n ops b
    hops hun hrun
  have h0 := herr 0
  refine ⟨c, hc, _, _, rfl, ?_, hpl, had, hlim, hu, h0, bendingMoment_error th herr⟩
  simp only [momentWeight]; ring

/-- The lowest layer of bars is in tension in the result when its axial force exceeds that of the state with the crushing strain at the top
`zt` and no strain in the layer, by more than the error of the mesh. -/
theorem C92_tension {turned : ℝ → List MeshSurf} {qs : List MeshedConcrete} {bars : List Bar} {ms th ecu eu H D R zl zt n : ℝ}
    {b : BendingResult} (h : MeshedBeam qs bars th ecu eu H D R) (hz : ∀ b ∈ bars, zl ≤ height th (b.x, b.y))
    (ht : ∀ q ∈ qs, ∀ v ∈ q.part.polygon.ext, height th v ≤ zt) (hzt : zl < zt) (r : FibreResult turned qs bars ms th n b)
    (hn : (concreteSection (qs.map MeshedConcrete.part) bars).forces (planeThrough th zt (-ecu) (-(ecu / (zt - zl)))) 0 +
      (ecu + eu) / D * √ms * weight (qs.map MeshedConcrete.part) 0 < b.n) :
    ∀ x : Bar, height th (x.x, x.y) = zl → 0 ≤ planeStrain ![b.eps_a, b.chi.1, b.chi.2] x.x x.y := by
  obtain ⟨c, hc, a, m, rfl, -, hpl, had, hlim, -, ha, -⟩ := r.plane h
  have := h.ordinary.layer_tension (zl := zl) (zt := zt) h.sound' h.areas h.mono hc.le had hlim hz (by
    intro p hp
    obtain ⟨q, hq, rfl⟩ := List.mem_map.1 hp
    exact ht q hq) hzt (by linarith [(abs_le.1 ha).1])
  intro x hx
  have p := planeThrough_at th b.eps_a c (x.x, x.y)
  rw [hx] at p
  rw [hpl]
  exact this.trans_eq p.symm

/-- Two planes of which the second has at most the moment of the first about some axis at a height within `R`, and the results that
belong to them. -/
theorem compare_results {N N' M M' g R a m a' m' : ℝ} {F F' : Fin 3 → ℝ} {th : ℝ} (hg : |g| ≤ R)
    (hF : bendingMoment th F' ≤ bendingMoment th F - g * (F' 0 - F 0)) (ha : |F 0 - N| ≤ a) (hm : |bendingMoment th F - M| ≤ m)
    (ha' : |F' 0 - N'| ≤ a') (hm' : |bendingMoment th F' - M'| ≤ m') :
    M' ≤ M - g * (N' - N) + (R * a + m) + (R * a' + m') := by
  have h1 := (abs_le.1 hm).2
  have h2 := (abs_le.1 hm').1
  have h3 : g * (N' - N) - g * (F' 0 - F 0) = g * (F 0 - N) - g * (F' 0 - N') := by ring
  have h4 : g * (F 0 - N) ≤ R * a := by
    refine (le_abs_self _).trans ?_
    rw [abs_mul]
    exact mul_le_mul hg ha (abs_nonneg _) ((abs_nonneg _).trans hg)
  have h5 : -(g * (F' 0 - N')) ≤ R * a' := by
    refine (neg_le_abs _).trans ?_
    rw [abs_mul]
    exact mul_le_mul hg ha' (abs_nonneg _) ((abs_nonneg _).trans hg)
  linarith

/-- A comparison of two planes, and the results that belong to them. -/
theorem compare_forces {N N' M M' R a m a' m' : ℝ} {F F' : Fin 3 → ℝ} {th : ℝ} (hR : 0 ≤ R)
    (hF : bendingMoment th F ≤ bendingMoment th F' + R * |F 0 - F' 0|) (ha : |F 0 - N| ≤ a) (hm : |bendingMoment th F - M| ≤ m)
    (ha' : |F' 0 - N'| ≤ a') (hm' : |bendingMoment th F' - M'| ≤ m') :
    M ≤ M' + R * |N - N'| + ((R * a + m) + (R * a' + m')) := by
  have h1 := (abs_le.1 hm).1
  have h2 := (abs_le.1 hm').2
  have hx : R * |F 0 - F' 0| ≤ R * |N - N'| + R * a + R * a' := by
    rw [← mul_add, ← mul_add]
    refine mul_le_mul_of_nonneg_left ?_ hR
    have e : F 0 - F' 0 = (N - N') + (F 0 - N) - (F' 0 - N') := by ring
    rw [e]
    refine (abs_sub _ _).trans ?_
    have := abs_add_le (N - N') (F 0 - N)
    linarith
  linarith

theorem meshes_le {turned turned' : ℝ → List MeshSurf} {qs qs' : List MeshedConcrete} {bars : List Bar}
    {ms ms' th ecu eu H D R n n' : ℝ} {b b' : BendingResult} (hq : qs'.map MeshedConcrete.part = qs.map MeshedConcrete.part)
    (h : MeshedBeam qs bars th ecu eu H D R) (h' : MeshedBeam qs' bars th ecu eu H D R)
    (r : FibreResult turned qs bars ms th n b) (r' : FibreResult turned' qs' bars ms' th n' b') :
    bendingMoment th ![b'.n, b'.m.1, b'.m.2] ≤ bendingMoment th ![b.n, b.m.1, b.m.2] + R * |b'.n - b.n| +
      momentWeight (qs.map MeshedConcrete.part) th ecu eu D R * (√ms + √ms') := by
  obtain ⟨c, hc, a, m, -, he, -, had, -, hu, ha, hm⟩ := r.plane h
  obtain ⟨c', hc', a', m', -, he', -, had', -, hu', ha', hm'⟩ := r'.plane h'
  obtain ⟨hw, hR0⟩ := h.within
  rw [hq] at he' had' hu' ha' hm'
  have h1 := ultimate_maximal (sound_nonSoftening h.sound' h.areas h.mono) hw hR0 had hu had'
  rw [mul_add, ← he, ← he', add_comm (R * a + m)]
  exact compare_forces hR0 h1 ha' hm' ha hm

/-- **C92** (two meshes). The bending strengths of one section with two meshes differ by at most the difference of their axial forces
times `R`, and the errors of the two meshes, which vanish with the square roots of the relative triangle sizes. -/
theorem C92_meshes {turned turned' : ℝ → List MeshSurf} {qs qs' : List MeshedConcrete} {bars : List Bar}
    {ms ms' th ecu eu H D R n n' : ℝ} {b b' : BendingResult} (hq : qs'.map MeshedConcrete.part = qs.map MeshedConcrete.part)
    (h : MeshedBeam qs bars th ecu eu H D R)
    (r : FibreResult turned qs bars ms th n b) (r' : FibreResult turned' qs' bars ms' th n' b') :
    |bendingMoment th ![b'.n, b'.m.1, b'.m.2] - bendingMoment th ![b.n, b.m.1, b.m.2]| ≤ R * |b'.n - b.n| +
      momentWeight (qs.map MeshedConcrete.part) th ecu eu D R * (√ms + √ms') := by
  have hp : ∀ q' ∈ qs', ∃ q ∈ qs, q.part = q'.part := by
    intro q' hq'
    have : q'.part ∈ qs.map MeshedConcrete.part := by rw [← hq]; exact List.mem_map_of_mem hq'
    exact List.mem_map.1 this
  have hp' : ∀ q ∈ qs, ∃ q' ∈ qs', q'.part = q.part := by
    intro q hq0
    have : q.part ∈ qs'.map MeshedConcrete.part := by rw [hq]; exact List.mem_map_of_mem hq0
    exact List.mem_map.1 this
  have h' : MeshedBeam qs' bars th ecu eu H D R := by
    refine ⟨by rw [hq]; exact h.ordinary, ?_, h.ids, h.areas, h.mono, h.depth_pos, ?_, ?_⟩
    · intro q' hq'
      obtain ⟨q, hq0, e⟩ := hp q' hq'
      rw [← e]; exact h.sound q hq0
    · obtain ⟨x, hx, q, hq0, w, hw, hD⟩ := h.depth
      obtain ⟨q', hq', e⟩ := hp' q hq0
      exact ⟨x, hx, q', hq', w, by rw [e]; exact hw, hD⟩
    · intro q' hq'
      obtain ⟨q, hq0, e⟩ := hp q' hq'
      rw [← e]; exact h.reach q hq0
  have h1 := meshes_le hq h h' r r'
  have h2 := meshes_le hq.symm h' h r' r
  rw [hq, abs_sub_comm b.n, add_comm (√ms')] at h2
  rw [abs_le]
  constructor <;> linarith

/-- **C92** (axial load). Of two results of the fibre integrator for one section, the one with the smaller axial force (more
compression) has no smaller moment about the lowest point `lo` of the section, and no larger moment about the highest point `hi`, up to
the errors of the two meshes. -/
theorem C92_load {turned : ℝ → List MeshSurf} {qs : List MeshedConcrete} {bars : List Bar}
    {ms ms' th ecu eu H D R lo hi n n' : ℝ} {b b' : BendingResult} (h : MeshedBeam qs bars th ecu eu H D R)
    (hrange : ∀ q ∈ qs, ∀ v ∈ q.part.polygon.ext, lo ≤ height th v ∧ height th v ≤ hi) (hR : |lo| ≤ R ∧ |hi| ≤ R)
    (r : FibreResult turned qs bars ms th n b) (r' : FibreResult turned qs bars ms' th n' b') (hn : b.n ≤ b'.n) :
    bendingMoment th ![b'.n, b'.m.1, b'.m.2] + lo * b'.n ≤ bendingMoment th ![b.n, b.m.1, b.m.2] + lo * b.n +
      momentWeight (qs.map MeshedConcrete.part) th ecu eu D R * (√ms + √ms') ∧
    bendingMoment th ![b.n, b.m.1, b.m.2] + hi * b.n ≤ bendingMoment th ![b'.n, b'.m.1, b'.m.2] + hi * b'.n +
      momentWeight (qs.map MeshedConcrete.part) th ecu eu D R * (√ms + √ms') := by
  obtain ⟨c, hc, a, m, -, he, -, had, -, hu, ha, hm⟩ := r.plane h
  obtain ⟨c', hc', a', m', -, he', -, had', -, hu', ha', hm'⟩ := r'.plane h
  have hull : ∀ p ∈ qs.map MeshedConcrete.part, ∀ x ∈ convexHull ℝ {v | v ∈ p.polygon.ext}, lo ≤ height th x ∧ height th x ≤ hi := by
    intro p hp x hx
    obtain ⟨q, hq, rfl⟩ := List.mem_map.1 hp
    obtain ⟨v, hv, h1⟩ := OrdinaryRC.hull_height (th := th) hx
    obtain ⟨w, hw, h2⟩ := hull_low (th := th) hx
    exact ⟨(hrange q hq w hw).1.trans h2, h1.trans (hrange q hq v hv).2⟩
  have hlh : lo ≤ hi := by
    obtain ⟨x, -, q, hq, v, hv, -⟩ := h.depth
    exact (hrange q hq v hv).1.trans (hrange q hq v hv).2
  have hp' : ∀ p ∈ (concreteSection (qs.map MeshedConcrete.part) bars).plates, ∀ x ∈ p.region, lo ≤ height th x ∧ height th x ≤ hi := by
    intro p hp x hx
    simp only [concreteSection, List.mem_map] at hp
    obtain ⟨q, hq, rfl⟩ := hp
    exact hull q (List.mem_map.2 hq) x ((h.sound' q (List.mem_map.2 hq)).inHull hx)
  have hr' : ∀ r ∈ (concreteSection (qs.map MeshedConcrete.part) bars).rods,
      lo ≤ height th (r.fibre.y, r.fibre.z) ∧ height th (r.fibre.y, r.fibre.z) ≤ hi := by
    intro r hr
    simp only [concreteSection, List.mem_map] at hr
    obtain ⟨x, hx, rfl⟩ := hr
    obtain ⟨p, hp, hin⟩ := h.ordinary.inside x hx
    exact hull p hp _ hin
  have hns := sound_nonSoftening h.sound' h.areas h.mono
  obtain ⟨g, hg, h1⟩ := ultimate_tilt hns hlh hp' hr' had hu had'
  obtain ⟨g', hg', h2⟩ := ultimate_tilt hns hlh hp' hr' had' hu' had
  have hgR : ∀ g ∈ Set.Icc lo hi, |g| ≤ R := fun g hg =>
    abs_le.2 ⟨by linarith [(abs_le.1 hR.1).1, hg.1], by linarith [(abs_le.1 hR.2).2, hg.2]⟩
  have k1 := compare_results (hgR g hg) h1 ha hm ha' hm'
  have k2 := compare_results (hgR g' hg') h2 ha' hm' ha hm
  have e1 := mul_le_mul_of_nonneg_right hg.1 (sub_nonneg.2 hn)
  have e2 := mul_le_mul_of_nonneg_right hg'.2 (sub_nonneg.2 hn)
  rw [mul_add, ← he, ← he']
  constructor <;> nlinarith

set_option maxHeartbeats 1000000 in
/-- **C92** (reinforcement). Further bars in the lowest layer of the reinforcement do not reduce the bending strength of the fibre
integrator when that layer is not compressed in the first section, up to the difference of the axial forces times `R` and the errors
of the two meshes. -/
theorem C92_bars {turned turned' : ℝ → List MeshSurf} {qs : List MeshedConcrete} {bars more : List Bar}
    {ms ms' th ecu eu H D R zl n n' : ℝ} {b b' : BendingResult}
    (h : MeshedBeam qs bars th ecu eu H D R) (h' : MeshedBeam qs (bars ++ more) th ecu eu H D R)
    (hsign : ∀ b ∈ more, b.law.law.stress 0 = 0)
    (hlow : ∀ b ∈ bars, zl ≤ height th (b.x, b.y)) (low : Bar) (hlb : low ∈ bars) (hlz : height th (low.x, low.y) = zl)
    (hmore : ∀ b ∈ more, height th (b.x, b.y) = zl ∧ b.law.law.ult false = low.law.law.ult false)
    (r : FibreResult turned qs bars ms th n b) (r' : FibreResult turned' qs (bars ++ more) ms' th n' b')
    (htens : 0 ≤ planeStrain ![b.eps_a, b.chi.1, b.chi.2] low.x low.y) :
    bendingMoment th ![b.n, b.m.1, b.m.2] ≤ bendingMoment th ![b'.n, b'.m.1, b'.m.2] + R * |b.n - b'.n| +
      momentWeight (qs.map MeshedConcrete.part) th ecu eu D R * (√ms + √ms') := by
  obtain ⟨c, hc, a, m, -, he, hpl, ha, -, -, hfa, hfm⟩ := r.plane h
  obtain ⟨c', hc', a', m', -, he', -, ha', -, hu', hfa', hfm'⟩ := r'.plane h'
  obtain ⟨hw, hR0⟩ := h.within
  have hz : |zl| ≤ R := by
    have := hw.2 ⟨low.fibre Law.stress, (low.law.law.ult false).1, (low.law.law.ult false).2⟩
      (by simp only [concreteSection, List.mem_map]; exact ⟨low, hlb, rfl⟩)
    simp only [Bar.fibre] at this
    rwa [hlz] at this
  have hin : ∀ b ∈ more, b.law.law.ult false = low.law.law.ult false ∧ (low.law.law.ult false).1 ≤ 0 ∧ 0 ≤ (low.law.law.ult false).2 := by
    intro b hb
    have := h.ordinary.lim _ (OrdinaryRC.bar_corner (parts := qs.map MeshedConcrete.part) hlb)
    exact ⟨(hmore b hb).2, this⟩
  set parts := qs.map MeshedConcrete.part with hparts
  set X : List Rod := more.map fun b => ⟨b.fibre Law.stress, (b.law.law.ult false).1, (b.law.law.ult false).2⟩ with hX
  set plates := (concreteSection parts bars).plates with hplates
  set rods := (concreteSection parts bars).rods with hrods
  have hT : concreteSection parts (bars ++ more) = ⟨plates, rods ++ X⟩ := by
    simp only [hplates, hrods, hX, concreteSection, List.map_append]
  have hS : concreteSection parts bars = ⟨plates, rods⟩ := rfl
  have hpl0 : planeStrain (planeThrough th 0 b.eps_a c) low.x low.y = b.eps_a + c * zl := by
    have := planeThrough_at th b.eps_a c (low.x, low.y)
    rw [hlz] at this
    exact this
  rw [hpl, hpl0] at htens
  have hns := sound_nonSoftening h.sound' h.areas h.mono
  have hhigh : ∀ k ∈ (concreteSection parts (bars ++ more)).corners,
      planeStrain (planeThrough th 0 b'.eps_a c') k.1.1 k.1.2 = k.2.2 → 0 ≤ b'.eps_a + c' * zl := fun k hk hkl =>
    h'.ordinary.tension_pivot hc'.le ha' (zl := zl) (by
      intro x hx
      rcases List.mem_append.1 hx with hx | hx
      · exact hlow x hx
      · exact (hmore x hx).1.ge) hk hkl
  rw [hT] at ha' hu' hfa' hfm' hhigh
  have key := strength_added (X := X) (plates := plates) (rods := rods) hns hw hR0 hz (zl := zl) (v := b'.eps_a) (c := c') (v' := b.eps_a)
    (c' := c) (by
      intro r hr
      obtain ⟨m, hm, rfl⟩ := List.mem_map.1 hr
      have h1 := h'.mono m (List.mem_append_right _ hm)
      have h2 := hin m hm
      simp only [Bar.fibre]
      rw [h2.1] at h1 ⊢
      refine ⟨(hmore m hm).1, h'.areas m (List.mem_append_right _ hm), fun x hx hx2 => ?_, fun x hx hx2 => ?_⟩
      · rw [← hsign m hm]
        exact h1 ⟨h2.2.1, h2.2.2⟩ ⟨by linarith [h2.2.1], hx2⟩ hx
      · rw [← hsign m hm]
        exact h1 ⟨hx2, by linarith [h2.2.2]⟩ ⟨h2.2.1, h2.2.2⟩ hx) (by
      intro p hp
      obtain ⟨q, hq, rfl⟩ := List.mem_map.1 hp
      have hs := h.sound' q hq
      exact ⟨fun x => (pr_stress_range q.fc q.eps_0 q.eps_u hs.peak x).2,
        fun x hx => pr_stress_tension q.fc q.eps_0 q.eps_u hs.peak hs.plateau hx⟩) (by
      intro r hr
      obtain ⟨m, hm, rfl⟩ := List.mem_map.1 hr
      exact hlow m hm) hc'.le hc.le ha' hu' (by
      refine ⟨ha.1, fun r hr => ?_⟩
      rcases List.mem_append.1 hr with hr | hr
      · exact ha.2 r hr
      · obtain ⟨m, hm, rfl⟩ := List.mem_map.1 hr
        have h1 := ha.2 ⟨low.fibre Law.stress, (low.law.law.ult false).1, (low.law.law.ult false).2⟩
          (by simp only [concreteSection, List.mem_map]; exact ⟨low, hlb, rfl⟩)
        have h2 := planeThrough_at th b.eps_a c (m.x, m.y)
        rw [(hmore m hm).1] at h2
        simp only at h2
        simp only [Bar.fibre] at h1 ⊢
        rw [hpl0] at h1
        rw [h2, (hmore m hm).2]
        exact h1) hhigh htens
  rw [← hS] at key
  rw [mul_add, ← he, ← he']
  exact compare_forces hR0 key hfa hfm hfa' hfm'

/-- **C92** (concrete). Stronger concrete does not reduce the bending strength of the fibre integrator for a section with one layer of
bars in tension, up to the difference of the axial forces times `R` and the errors of the two meshes. -/
theorem C92_concrete {turned turned' : ℝ → List MeshSurf} {qs qs' : List MeshedConcrete} {bars : List Bar}
    {ms ms' th ecu eu H D R zl fc fc' e0 n n' : ℝ} {b b' : BendingResult} {shapes : List (Polygon × Set (ℝ × ℝ))} (he0 : 0 < e0)
    (hq : qs.map MeshedConcrete.part = shapes.map fun s => ⟨s.1, s.2, fc, e0, ecu⟩)
    (hq' : qs'.map MeshedConcrete.part = shapes.map fun s => ⟨s.1, s.2, fc', e0, ecu⟩)
    (h : MeshedBeam qs bars th ecu eu H D R) (h' : MeshedBeam qs' bars th ecu eu H D R)
    (hz : ∀ b ∈ bars, height th (b.x, b.y) = zl) (hf : |fc| ≤ |fc'|)
    (r : FibreResult turned qs bars ms th n b) (r' : FibreResult turned' qs' bars ms' th n' b')
    (htens : ∀ x ∈ bars, 0 ≤ planeStrain ![b.eps_a, b.chi.1, b.chi.2] x.x x.y ∧ 0 ≤ planeStrain ![b'.eps_a, b'.chi.1, b'.chi.2] x.x x.y) :
    bendingMoment th ![b.n, b.m.1, b.m.2] ≤ bendingMoment th ![b'.n, b'.m.1, b'.m.2] + R * |b.n - b'.n| +
      (momentWeight (qs.map MeshedConcrete.part) th ecu eu D R * √ms + momentWeight (qs'.map MeshedConcrete.part) th ecu eu D R * √ms') := by
  obtain ⟨c, hc, a, m, -, he, hpl, ha, -, hu, hfa, hfm⟩ := r.plane h
  obtain ⟨c', hc', a', m', -, he', hpl', ha', -, hu', hfa', hfm'⟩ := r'.plane h'
  obtain ⟨-, hR0⟩ := h.within
  obtain ⟨x, hx, -⟩ := h.depth
  obtain ⟨t1, t2⟩ := htens x hx
  have p1 := planeThrough_at th b.eps_a c (x.x, x.y)
  have p2 := planeThrough_at th b'.eps_a c' (x.x, x.y)
  simp only [hz x hx] at p1 p2
  rw [hpl, p1] at t1
  rw [hpl', p2] at t2
  have hs := h.sound'
  have hs' := h'.sound'
  have ho := h.ordinary
  have ho' := h'.ordinary
  have hreach : ∀ p ∈ qs.map MeshedConcrete.part, ∀ v ∈ p.polygon.ext, |height th v| ≤ R := by
    intro p hp
    obtain ⟨q, hq, rfl⟩ := List.mem_map.1 hp
    exact h.reach q hq
  rw [← he, ← he']
  rw [hq] at hs ho ha hu hfa hfm hreach
  rw [hq'] at hs' ho' ha' hu' hfa' hfm'
  have key := stronger_moment (P := fun f => shapes.map fun s => ⟨s.1, s.2, f, e0, ecu⟩) (fun _ => rfl) he0 ho ho' hs hs' h.areas h.mono
    hreach hz hf hc hc' ha hu ha' hu' t1 t2
  exact compare_forces hR0 key hfa hfm hfa' hfm'

end SC
