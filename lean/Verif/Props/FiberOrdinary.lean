import Verif.Props.FiberStrength
import Verif.Props.Added

/-! # C80: the fibre integrator on ordinary reinforced concrete sections

Hypotheses on the section only; the mesh enters through the square root of the relative triangle size. -/

set_option autoImplicit false

namespace SC

open Spec MeasureTheory

/-- A concrete part with the triangles the mesher returns for a maximum triangle area. -/
structure MeshedConcrete where
  part : ConcretePart
  id : ℕ
  mesh : ℝ → List ((ℝ × ℝ) × (ℝ × ℝ) × (ℝ × ℝ))

namespace MeshedConcrete

/-- What the fibre integrator sees of it; `2 fc / eps_0` is the largest slope of the parabola. -/
noncomputable def fibre (q : MeshedConcrete) : FibrePart :=
  ⟨⟨⟨areaMoment 0 0 q.part.region, q.mesh, ⟨q.id, q.part.law.law⟩⟩, q.part.region, 2 * |q.part.fc| / |q.part.eps_0|⟩, q.part.polygon, true⟩

/-- The mesher does what it is asked for: triangles of the region, none larger than `ms` times its area, with angles of 30 degrees. -/
structure Fine (q : MeshedConcrete) (ms : ℝ) : Prop where
  mesh : Triangulates (q.mesh (areaMoment 0 0 q.part.region * ms)) q.part.region
  quality : Quality (areaMoment 0 0 q.part.region * ms) (q.mesh (areaMoment 0 0 q.part.region * ms))

/-- The section with the fibre integrator. -/
noncomputable def engine (turned : ℝ → List MeshSurf) (qs : List MeshedConcrete) (bars : List Bar) (ms : ℝ) : Engine :=
  fibreSectionEngine turned (qs.map fibre) bars ms

/-- Weight of the mesh in the force `i`: modulus times size times first absolute moment of the parts. -/
noncomputable def weight (parts : List ConcretePart) (i : Fin 3) : ℝ :=
  2 / 3 * (parts.map fun p => 2 * |p.fc| / |p.eps_0| * √(8 * areaMoment 0 0 p.region) * ∫ x in p.region, |lever x.1 x.2 i|).sum

theorem weight_nonneg (parts : List ConcretePart) (i : Fin 3) : 0 ≤ weight parts i := by
  refine mul_nonneg (by norm_num) (List.sum_nonneg fun x hx => ?_)
  obtain ⟨p, -, rfl⟩ := List.mem_map.1 hx
  exact mul_nonneg (by positivity) (integral_nonneg fun _ => abs_nonneg _)

variable {qs : List MeshedConcrete} {bars : List Bar} {ms th : ℝ}

theorem section_eq (qs : List MeshedConcrete) (bars : List Bar) :
    meshedSection (qs.map fibre) bars = concreteSection (qs.map MeshedConcrete.part) bars := by
  simp only [meshedSection, crossSection, concreteSection, List.map_map, Function.comp_def]
  rfl

theorem error_eq (qs : List MeshedConcrete) {ms : ℝ} (hms : 0 ≤ ms) (e : Fin 3 → ℝ) (i : Fin 3) :
    meshError (qs.map fibre) ms e i = √(e 1 ^ 2 + e 2 ^ 2) * √ms * weight (qs.map MeshedConcrete.part) i := by
  simp only [meshError, weight, List.map_map, Function.comp_def, fibre]
  have : (qs.map fun q => 2 * |q.part.fc| / |q.part.eps_0| * √(8 * areaMoment 0 0 q.part.region * ms) *
      ∫ x in q.part.region, |lever x.1 x.2 i|) = qs.map fun q => √ms * (2 * |q.part.fc| / |q.part.eps_0| *
      √(8 * areaMoment 0 0 q.part.region) * ∫ x in q.part.region, |lever x.1 x.2 i|) := by
    refine List.map_congr_left fun q _ => ?_
    rw [Real.sqrt_mul' _ hms]
    ring
  rw [this, List.sum_map_mul_left]
  ring

theorem curvature_norm (v c : ℝ) (th y : ℝ) : √((planeThrough th y v c) 1 ^ 2 + (planeThrough th y v c) 2 ^ 2) = |c| := by
  have : (planeThrough th y v c) 1 ^ 2 + (planeThrough th y v c) 2 ^ 2 = c ^ 2 := by
    simp only [planeThrough, Matrix.cons_val]
    linear_combination c ^ 2 * Real.sin_sq_add_cos_sq th
  rw [this, Real.sqrt_sq_eq_abs]

theorem meshed (hs : ∀ q ∈ qs, q.part.Sound) (hf : ∀ q ∈ qs, q.Fine ms) : ∀ p ∈ qs.map fibre, p.Meshed ms := by
  intro p hp
  obtain ⟨q, hq, rfl⟩ := List.mem_map.1 hp
  exact ⟨(hs q hq).encloses.measurable, rfl, (hf q hq).mesh, (hf q hq).quality, measurable_parabola _,
    by simp only [fibre]; positivity, (hs q hq).inHull⟩

theorem lipschitz (hs : ∀ q ∈ qs, q.part.Sound) : ∀ p ∈ qs.map fibre, p.Lipschitz := by
  intro p hp
  obtain ⟨q, hq, rfl⟩ := List.mem_map.1 hp
  have hl : q.fibre.mesh.surf.law.law.ult false = (-|q.part.eps_u|, 100) := part_ult q.part
  rintro x ⟨hx, -⟩ y ⟨hy, -⟩
  rw [hl] at hx hy
  have h := hs q hq
  change |(ParabolaRectangle.new q.part.fc q.part.eps_0 q.part.eps_u 2).stress x -
    (ParabolaRectangle.new q.part.fc q.part.eps_0 q.part.eps_u 2).stress y| ≤ 2 * |q.part.fc| / |q.part.eps_0| * |x - y|
  rw [pr_stress_core _ _ _ h.plateau hx, pr_stress_core _ _ _ h.plateau hy]
  exact pr_core_lipschitz _ _ _ h.peak (by linarith [h.plateau, abs_nonneg q.part.eps_u, show (0:ℝ) < 1e-6 by norm_num]) hx hy

theorem ext_ne (hs : ∀ q ∈ qs, q.part.Sound) : ∀ p ∈ qs.map MeshedConcrete.part, p.polygon.ext ≠ [] := by
  intro p hp
  obtain ⟨q, hq, rfl⟩ := List.mem_map.1 hp
  intro h'
  have := (hs q hq).encloses.ext_proper.2
  rw [h'] at this
  apply this
  simp [signedMoment, Spec.edges]

theorem balanced_eq (turned : ℝ → List MeshSurf) (split : Polygon → ℝ → ℝ → ShapelyResult) (qs : List MeshedConcrete) (bars : List Bar)
    (ms ms' a : ℝ) (yl : Bool) :
    (engine turned qs bars ms).balanced a yl =
      (sectionEngine split ((qs.map MeshedConcrete.part).map ConcretePart.solid) bars ms').balanced a yl := by
  simp only [engine, fibreSectionEngine, fiberEngine, sectionEngine, marinEngine, List.map_map, List.any_map]
  rfl

end MeshedConcrete

open MeshedConcrete

/-- The curvature of an admissible plane is bounded by the limit strains over the depth of any bar. -/
theorem OrdinaryRC.curvature_bound {th ecu eu H : ℝ} {parts : List ConcretePart} {bars : List Bar}
    (h : OrdinaryRC th parts bars ecu eu H) {v c : ℝ} (hc : c ≤ 0) (ha : (concreteSection parts bars).Admissible (planeThrough th 0 v c))
    {D : ℝ} {b : Bar} (hb : b ∈ bars) {p : ConcretePart} (hp : p ∈ parts) {w : ℝ × ℝ} (hw : w ∈ p.polygon.ext)
    (hD : D ≤ height th w - height th (b.x, b.y)) : |c| * D ≤ ecu + eu := by
  have l1 := (ha.2 ⟨b.fibre Law.stress, (b.law.law.ult false).1, (b.law.law.ult false).2⟩
    (by simp only [concreteSection, List.mem_map]; exact ⟨b, hb, rfl⟩)).2
  have l2 := (ha.1 ⟨p.region, p.polygon.ext, p.law.stress, (p.law.ult false).1, (p.law.ult false).2⟩
    (by simp only [concreteSection, List.mem_map]; exact ⟨p, hp, rfl⟩) w (subset_convexHull ℝ _ hw)).1
  simp only [Bar.fibre, (h.rupture b hb).1] at l1
  simp only [part_ult, h.crushing p hp] at l2
  have p1 := planeThrough_at th v c (b.x, b.y)
  simp only at p1
  rw [p1] at l1
  rw [planeThrough_at] at l2
  rw [abs_of_nonpos hc]
  nlinarith

/-- The plane of a bending strength of the fibre integrator. -/
theorem fibre_plane {turned : ℝ → List MeshSurf} {qs : List MeshedConcrete} {bars : List Bar} {ms th ecu eu H D : ℝ} (hms : 0 < ms)
    (hms1 : ms ≤ 1) {lu : Matrix (Fin 3) (Fin 3) ℝ → (Fin 3 → ℝ) → (Fin 3 → ℝ)}
    (h : OrdinaryRC th (qs.map MeshedConcrete.part) bars ecu eu H) (hs : ∀ q ∈ qs, q.part.Sound) (hf : ∀ q ∈ qs, q.Fine ms)
    (hid : SameIds (bars.map Bar.law))
    (hmono : ∀ b ∈ bars, MonotoneOn b.law.law.stress (Set.Icc (b.law.law.ult false).1 (b.law.law.ult false).2))
    (hD0 : 0 < D) (hD : ∃ b ∈ bars, ∃ q ∈ qs, ∃ w ∈ q.part.polygon.ext, D ≤ height th w - height th (b.x, b.y))
    (n : ℝ) (ops : List Op) (b : BendingResult) (hops : ops = [] ∨ ms = defaultMesh)
    (hun : Undisturbed (engine turned qs bars ms) lu ops .fresh)
    (hrun : (bendingStrength (engine turned qs bars ms) th n (history (engine turned qs bars ms) lu ops .fresh)).2 = .ok b) :
    ∃ c < 0, ![b.eps_a, b.chi.1, b.chi.2] = planeThrough th 0 b.eps_a c ∧
      (concreteSection (qs.map MeshedConcrete.part) bars).Admissible (planeThrough th 0 b.eps_a c) ∧
      (concreteSection (qs.map MeshedConcrete.part) bars).AtLimit (planeThrough th 0 b.eps_a c) ∧
      (concreteSection (qs.map MeshedConcrete.part) bars).Ultimate th (planeThrough th 0 b.eps_a c) ∧
      ∀ i, |(concreteSection (qs.map MeshedConcrete.part) bars).forces (planeThrough th 0 b.eps_a c) i - ![b.n, b.m.1, b.m.2] i| ≤
        (ecu + eu) / D * √ms * weight (qs.map MeshedConcrete.part) i := by
  obtain ⟨yn, yp, st, hb, -, -, -, -, -, -, -, hgov⟩ := h.balanced (split := fun _ _ _ => .other) (ms := ms) (ext_ne hs)
  rw [← balanced_eq turned _ qs bars ms ms] at hb
  have hlim := h.lim
  have hflat := h.flat
  rw [← section_eq] at hlim hflat hgov
  obtain ⟨C, -, hmain⟩ := C71_strength_partial turned (qs.map fibre) bars ms th hms hms1 lu hid
    (Or.inr (by obtain ⟨b, hb, -⟩ := h.depth; exact List.ne_nil_of_mem hb))
    (by
      intro p hp
      obtain ⟨q, hq, rfl⟩ := List.mem_map.1 hp
      exact ext_ne hs _ (List.mem_map_of_mem hq))
    (fun e he => meshed_good (meshed hs hf) (lipschitz hs) he) hlim hflat hb hgov
  obtain ⟨⟨cu, hcu, e⟩, hforce, hl, had, -⟩ := hmain n ops b hops hun hrun
  have hpl : ![b.eps_a, b.chi.1, b.chi.2] = planeThrough th 0 b.eps_a cu := by rw [planeThrough_curvature, e]
  rw [hpl, section_eq] at hforce hl had
  refine ⟨cu, hcu, hpl, had, hl, h.sound_ultimate ?_ hmono hcu.le had hl, fun i => (hforce i).trans ?_⟩
  · intro p hp
    obtain ⟨q, hq, rfl⟩ := List.mem_map.1 hp
    exact hs q hq
  · rw [error_eq qs hms.le, curvature_norm]
    obtain ⟨b', hb', q, hq, w, hw, hDw⟩ := hD
    have := h.curvature_bound hcu.le had hb' (List.mem_map_of_mem hq) hw hDw
    refine mul_le_mul_of_nonneg_right (mul_le_mul_of_nonneg_right ?_ (Real.sqrt_nonneg _)) (weight_nonneg _ _)
    rwa [le_div_iff₀ hD0]

/-- What an error of the forces does to the bending moment. -/
theorem bendingMoment_error (th : ℝ) {f g w : Fin 3 → ℝ} (h : ∀ i, |f i - g i| ≤ w i) :
    |bendingMoment th f - bendingMoment th g| ≤ |Real.cos th| * w 1 + |Real.sin th| * w 2 := by
  have e : bendingMoment th f - bendingMoment th g = -((f 1 - g 1) * Real.cos th + (f 2 - g 2) * Real.sin th) := by
    simp only [bendingMoment]; ring
  rw [e, abs_neg]
  refine (abs_add_le _ _).trans ?_
  rw [abs_mul, abs_mul, mul_comm, mul_comm |f 2 - g 2|]
  exact add_le_add (mul_le_mul_of_nonneg_left (h 1) (abs_nonneg _)) (mul_le_mul_of_nonneg_left (h 2) (abs_nonneg _))

/-- Error of the bending moment of the fibre integrator for triangles of the relative size one, in a section with limit strains
`ecu`, `eu` and a bar at the depth `D`: `R` times the error of the axial force and the errors of the two moments. -/
noncomputable def momentWeight (parts : List ConcretePart) (th ecu eu D R : ℝ) : ℝ :=
  (ecu + eu) / D * (R * weight parts 0 + |Real.cos th| * weight parts 1 + |Real.sin th| * weight parts 2)

/-- **C80** (largest moment). With the fibre integrator no admissible plane about an axis parallel to that of the calculation has a
larger moment than the bending strength, up to the difference of the axial forces times the distance `R` of the farthest corner and
an error that vanishes with the square root of the relative triangle size. -/
theorem C80_largest {turned : ℝ → List MeshSurf} {qs : List MeshedConcrete} {bars : List Bar} {ms th ecu eu H D R : ℝ} (hms : 0 < ms)
    (hms1 : ms ≤ 1) {lu : Matrix (Fin 3) (Fin 3) ℝ → (Fin 3 → ℝ) → (Fin 3 → ℝ)}
    (h : OrdinaryRC th (qs.map MeshedConcrete.part) bars ecu eu H) (hs : ∀ q ∈ qs, q.part.Sound) (hf : ∀ q ∈ qs, q.Fine ms)
    (hid : SameIds (bars.map Bar.law)) (hA : ∀ b ∈ bars, 0 ≤ b.area)
    (hmono : ∀ b ∈ bars, MonotoneOn b.law.law.stress (Set.Icc (b.law.law.ult false).1 (b.law.law.ult false).2))
    (hD0 : 0 < D) (hD : ∃ b ∈ bars, ∃ q ∈ qs, ∃ w ∈ q.part.polygon.ext, D ≤ height th w - height th (b.x, b.y))
    (hR : ∀ q ∈ qs, ∀ v ∈ q.part.polygon.ext, |height th v| ≤ R)
    (n : ℝ) (ops : List Op) (b : BendingResult) (hops : ops = [] ∨ ms = defaultMesh)
    (hun : Undisturbed (engine turned qs bars ms) lu ops .fresh)
    (hrun : (bendingStrength (engine turned qs bars ms) th n (history (engine turned qs bars ms) lu ops .fresh)).2 = .ok b)
    (v c : ℝ) (ha : (concreteSection (qs.map MeshedConcrete.part) bars).Admissible (planeThrough th 0 v c)) :
    bendingMoment th ((concreteSection (qs.map MeshedConcrete.part) bars).forces (planeThrough th 0 v c)) ≤
      bendingMoment th ![b.n, b.m.1, b.m.2] +
        R * |(concreteSection (qs.map MeshedConcrete.part) bars).forces (planeThrough th 0 v c) 0 - b.n| +
        momentWeight (qs.map MeshedConcrete.part) th ecu eu D R * √ms := by
  have hs' : ∀ p ∈ qs.map MeshedConcrete.part, p.Sound := by
    intro p hp
    obtain ⟨q, hq, rfl⟩ := List.mem_map.1 hp
    exact hs q hq
  obtain ⟨hw, hR0⟩ := h.sound_within hs' (R := R) (by
    intro p hp
    obtain ⟨q, hq, rfl⟩ := List.mem_map.1 hp
    exact hR q hq)
  obtain ⟨cu, hcu, -, had, -, hu, herr⟩ := fibre_plane hms hms1 h hs hf hid hmono hD0 hD n ops b hops hun hrun
  have h1 := ultimate_maximal (sound_nonSoftening hs' hA hmono) hw hR0 had hu ha
  have h2 := (abs_le.1 (bendingMoment_error th herr)).2
  have h3 := herr 0
  simp only [Matrix.cons_val_zero] at h3
  set F := (concreteSection (qs.map MeshedConcrete.part) bars).forces with hF
  have h4 : |F (planeThrough th 0 v c) 0 - F (planeThrough th 0 b.eps_a cu) 0| ≤
      |F (planeThrough th 0 v c) 0 - b.n| + (ecu + eu) / D * √ms * weight (qs.map MeshedConcrete.part) 0 := by
    have e : F (planeThrough th 0 v c) 0 - F (planeThrough th 0 b.eps_a cu) 0 =
      (F (planeThrough th 0 v c) 0 - b.n) - (F (planeThrough th 0 b.eps_a cu) 0 - b.n) := by ring
    rw [e]
    exact (abs_sub _ _).trans (by linarith)
  have h5 := mul_le_mul_of_nonneg_left h4 hR0
  have e : momentWeight (qs.map MeshedConcrete.part) th ecu eu D R * √ms =
      R * ((ecu + eu) / D * √ms * weight (qs.map MeshedConcrete.part) 0) +
      (|Real.cos th| * ((ecu + eu) / D * √ms * weight (qs.map MeshedConcrete.part) 1) +
        |Real.sin th| * ((ecu + eu) / D * √ms * weight (qs.map MeshedConcrete.part) 2)) := by
    simp only [momentWeight]; ring
  rw [e]
  linarith

/-- **C80** (the two integrators agree). The bending strengths of one section with the Marin and with the fibre integrator differ by at
most the difference of their axial forces times `R`, and an error that vanishes with the square root of the relative triangle size. -/
theorem C80_agree {split : Polygon → ℝ → ℝ → ShapelyResult} {turned : ℝ → List MeshSurf} {qs : List MeshedConcrete} {bars : List Bar}
    {ms ms' th ecu eu H D R : ℝ} (hms : 0 < ms)
    (hms1 : ms ≤ 1) {lu lu' : Matrix (Fin 3) (Fin 3) ℝ → (Fin 3 → ℝ) → (Fin 3 → ℝ)}
    (h : OrdinaryRC th (qs.map MeshedConcrete.part) bars ecu eu H) (hok : ∀ q ∈ qs, q.part.Ok split th) (hf : ∀ q ∈ qs, q.Fine ms)
    (hid : SameIds (bars.map Bar.law)) (hd : EqualSizes (groupBars bars)) (hA : ∀ b ∈ bars, 0 ≤ b.area)
    (hmono : ∀ b ∈ bars, MonotoneOn b.law.law.stress (Set.Icc (b.law.law.ult false).1 (b.law.law.ult false).2))
    (hD0 : 0 < D) (hD : ∃ b ∈ bars, ∃ q ∈ qs, ∃ w ∈ q.part.polygon.ext, D ≤ height th w - height th (b.x, b.y))
    (hR : ∀ q ∈ qs, ∀ v ∈ q.part.polygon.ext, |height th v| ≤ R)
    (n n' : ℝ) (ops ops' : List Op) (b b' : BendingResult) (hops : ops = [] ∨ ms = defaultMesh)
    (hun : Undisturbed (engine turned qs bars ms) lu ops .fresh)
    (hrun : (bendingStrength (engine turned qs bars ms) th n (history (engine turned qs bars ms) lu ops .fresh)).2 = .ok b)
    (hun' : Undisturbed (sectionEngine split ((qs.map MeshedConcrete.part).map ConcretePart.solid) bars ms') lu' ops' .fresh)
    (hrun' : (bendingStrength (sectionEngine split ((qs.map MeshedConcrete.part).map ConcretePart.solid) bars ms') th n'
      (history (sectionEngine split ((qs.map MeshedConcrete.part).map ConcretePart.solid) bars ms') lu' ops' .fresh)).2 = .ok b') :
    |bendingMoment th ![b.n, b.m.1, b.m.2] - bendingMoment th ![b'.n, b'.m.1, b'.m.2]| ≤
      R * |b.n - b'.n| + momentWeight (qs.map MeshedConcrete.part) th ecu eu D R * √ms := by
  have hs : ∀ q ∈ qs, q.part.Sound := fun q hq => (hok q hq).sound
  have hok' : ∀ p ∈ qs.map MeshedConcrete.part, p.Ok split th := by
    intro p hp
    obtain ⟨q, hq, rfl⟩ := List.mem_map.1 hp
    exact hok q hq
  have hR' : ∀ p ∈ qs.map MeshedConcrete.part, ∀ v ∈ p.polygon.ext, |height th v| ≤ R := by
    intro p hp
    obtain ⟨q, hq, rfl⟩ := List.mem_map.1 hp
    exact hR q hq
  obtain ⟨-, hR0⟩ := h.within hok' hR'
  obtain ⟨c', hc', -, had', -, hforce'⟩ := strength_plane' h hok' hid hd hmono n' ops' b' hun' hrun'
  have h1 := C80_largest hms hms1 h hs hf hid hA hmono hD0 hD hR n ops b hops hun hrun b'.eps_a c' had'
  rw [hforce'] at h1
  obtain ⟨cu, hcu, -, had, -, -, herr⟩ := fibre_plane hms hms1 h hs hf hid hmono hD0 hD n ops b hops hun hrun
  have h2 := C74_strength h hok' hid hd hA hmono hR' n' ops' b' hun' hrun' b.eps_a cu had
  have h3 := (abs_le.1 (bendingMoment_error th herr)).1
  have h4 := herr 0
  simp only [Matrix.cons_val_zero] at h1 h4
  set F := (concreteSection (qs.map MeshedConcrete.part) bars).forces with hF
  have h5 : |F (planeThrough th 0 b.eps_a cu) 0 - b'.n| ≤
      |b.n - b'.n| + (ecu + eu) / D * √ms * weight (qs.map MeshedConcrete.part) 0 := by
    have e : F (planeThrough th 0 b.eps_a cu) 0 - b'.n = (b.n - b'.n) + (F (planeThrough th 0 b.eps_a cu) 0 - b.n) := by ring
    rw [e]
    exact (abs_add_le _ _).trans (by linarith)
  have h6 := mul_le_mul_of_nonneg_left h5 hR0
  have e : momentWeight (qs.map MeshedConcrete.part) th ecu eu D R * √ms =
      R * ((ecu + eu) / D * √ms * weight (qs.map MeshedConcrete.part) 0) +
      (|Real.cos th| * ((ecu + eu) / D * √ms * weight (qs.map MeshedConcrete.part) 1) +
        |Real.sin th| * ((ecu + eu) / D * √ms * weight (qs.map MeshedConcrete.part) 2)) := by
    simp only [momentWeight]; ring
  rw [abs_sub_comm b'.n b.n] at h1
  rw [abs_le]
  constructor
  · linarith
  · linarith

/-! ### The calculation returns -/

/-- Largest modulus times area. -/
noncomputable def MeshedConcrete.totalModulus (parts : List ConcretePart) (bars : List Bar) (L : ℝ) : ℝ :=
  L * ((parts.map fun p => areaMoment 0 0 p.region).sum + (bars.map fun b => |b.area|).sum)

/-- Heights over the region of an ordinary section. -/
theorem OrdinaryRC.span_region {th ecu eu H y : ℝ} {parts : List ConcretePart} {bars : List Bar}
    (h : OrdinaryRC th parts bars ecu eu H) (hs : ∀ p ∈ parts, p.Sound)
    (hy : ∃ c ∈ (concreteSection parts bars).corners, height th c.1 = y) :
    (∀ p ∈ parts, ∀ x ∈ p.region, |height th x - y| ≤ H) ∧ ∀ b ∈ bars, |height th (b.x, b.y) - y| ≤ H := by
  obtain ⟨c, hc, rfl⟩ := hy
  have hcorner : ∀ d ∈ (concreteSection parts bars).corners, |height th d.1 - height th c.1| ≤ H := by
    intro d hd
    rw [abs_le]
    have h1 := h.span c hc d hd
    have h2 := h.span d hd c hc
    constructor <;> linarith
  refine ⟨fun p hp x hx => ?_, fun b hb => hcorner _ (OrdinaryRC.bar_corner hb)⟩
  have hx' := (hs p hp).inHull hx
  obtain ⟨v, hv, h1⟩ := OrdinaryRC.hull_height (th := th) hx'
  obtain ⟨w, hw, h2⟩ := hull_low (th := th) hx'
  have e1 := (abs_le.1 (hcorner _ (h.concrete_corner hp hv))).2
  have e2 := (abs_le.1 (hcorner _ (h.concrete_corner hp hw))).1
  simp only at e1 e2
  exact abs_le.2 ⟨by linarith, by linarith⟩

set_option maxHeartbeats 1000000 in
/-- **C80** (strength; partial as C73: loads close to the limit loads, and for the tolerance a countable set of loads). With the fibre
integrator the limit axial loads of an ordinary section are exactly those of the section, loads outside are refused, and for loads
inside a strength is returned, in equilibrium with the load up to the tolerance. -/
theorem C80_strength_partial (turned : ℝ → List MeshSurf) (qs : List MeshedConcrete) {bars : List Bar} {ms th ecu eu H H0 : ℝ}
    (hms : 0 < ms) (hms1 : ms ≤ 1) (lu : Matrix (Fin 3) (Fin 3) ℝ → (Fin 3 → ℝ) → (Fin 3 → ℝ))
    (h0 : OrdinaryRC 0 (qs.map MeshedConcrete.part) bars ecu eu H0)
    (h : OrdinaryRC th (qs.map MeshedConcrete.part) bars ecu eu H) (hs : ∀ q ∈ qs, q.part.Sound) (hf : ∀ q ∈ qs, q.Fine ms)
    (hid : SameIds (bars.map Bar.law)) {L : ℝ} (hL0 : 0 ≤ L) (hLp : ∀ q ∈ qs, 2 * |q.part.fc| / |q.part.eps_0| ≤ L)
    (hK : ∀ b ∈ bars, ∀ x ∈ Set.Icc (b.law.law.ult false).1 (b.law.law.ult false).2,
      ∀ y ∈ Set.Icc (b.law.law.ult false).1 (b.law.law.ult false).2, |b.law.law.stress x - b.law.law.stress y| ≤ L * |x - y|)
    (hstiff : totalModulus (qs.map MeshedConcrete.part) bars L * H ≤ 1e22)
    {S : CrossSection} (hS : S = concreteSection (qs.map MeshedConcrete.part) bars)
    {δ : ℝ} (hδ : δ = totalModulus (qs.map MeshedConcrete.part) bars L * H + 2 * (√ms * weight (qs.map MeshedConcrete.part) 0))
    {E : Engine} (hE : E = engine turned qs bars ms) :
    (limits E .fresh).2 = .ok (S.forces ![-ecu, 0, 0] 0, S.forces ![eu, 0, 0] 0) ∧
    ∃ C : Set ℝ, C.Countable ∧ ∀ (n : ℝ) (ops : List Op), (ops = [] ∨ ms = defaultMesh) → Undisturbed E lu ops .fresh →
      (n < S.forces ![-ecu, 0, 0] 0 ∨ S.forces ![eu, 0, 0] 0 < n →
        (bendingStrength E th n (history E lu ops .fresh)).2 = .error .valueError) ∧
      (S.forces ![-ecu, 0, 0] 0 + δ * 1e-13 < n → n < S.forces ![eu, 0, 0] 0 - δ * 1e-13 →
        ∃ b : BendingResult, (bendingStrength E th n (history E lu ops .fresh)).2 = .ok b ∧ (n ∉ C → |b.n - n| ≤ 1e-2)) := by
  have hs' : ∀ p ∈ qs.map MeshedConcrete.part, p.Sound := by
    intro p hp
    obtain ⟨q, hq, rfl⟩ := List.mem_map.1 hp
    exact hs q hq
  have hne : (qs.map fibre) ≠ [] ∨ bars ≠ [] := Or.inr (by obtain ⟨b, hb, -⟩ := h.depth; exact List.ne_nil_of_mem hb)
  have hext : ∀ p ∈ qs.map fibre, p.polygon.ext ≠ [] := by
    intro p hp
    obtain ⟨q, hq, rfl⟩ := List.mem_map.1 hp
    exact ext_ne hs _ (List.mem_map_of_mem hq)
  have hext' : ∀ s ∈ (qs.map fibre).map FibrePart.solid, s.spec.surf.polygon.ext ≠ [] := by
    intro s hs
    obtain ⟨p, hp, rfl⟩ := List.mem_map.1 hs
    exact hext p hp
  have hmesh := meshed hs hf
  have hlip := lipschitz hs
  have hEl : E.Lawful fun m => triangulate
      ((fun a => if a = 0 then (qs.map fibre).map fun p => p.mesh.surf else turned a) 0) bars m := by
    rw [hE]; exact fiberEngine_lawful _ _ _ _ _
  -- limits
  obtain ⟨yn0, yp0, st0, hb0, f1, f2, f3, -⟩ := h0.balanced (split := fun _ _ _ => .other) (ms := ms) (ext_ne hs)
  rw [← balanced_eq turned _ qs bars ms ms, neg_zero] at hb0
  have hlims : (limits E .fresh).2 = .ok (S.forces ![-ecu, 0, 0] 0, S.forces ![eu, 0, 0] 0) := by
    have := C71_limits turned (qs.map fibre) bars ms hms hms1 hid hne hmesh hb0
    have hpl : ∀ x y, planeStrain st0 x y = st0 0 + st0 1 * y := by intro x y; simp [planeStrain, f3]
    rw [hpl] at f1 f2
    rw [f1, f2, section_eq, ← hS] at this
    rw [hE]; exact this
  refine ⟨hlims, ?_⟩
  obtain ⟨yn, yp, st, hb, e1, e2, hst2, hs1, hs1', ⟨bp, hbp, ey⟩, hyn, hgov⟩ :=
    h.balanced (split := fun _ _ _ => .other) (ms := ms) (ext_ne hs)
  have hyp : ∃ c ∈ (concreteSection (qs.map MeshedConcrete.part) bars).corners, height th c.1 = yp := ⟨_, OrdinaryRC.bar_corner hbp, ey⟩
  rw [← balanced_eq turned _ qs bars ms ms] at hb
  have hlim := h.lim
  have hflat := h.flat
  have hgov' := hgov
  rw [← section_eq] at hlim hflat hgov'
  have hany : (fibreSectionEngine turned (qs.map fibre) bars ms).balanced (-th) false =
      balancedFailure (sectionParts ((qs.map fibre).map FibrePart.solid) bars (-th)) ((qs.map fibre).any FibrePart.concrete) false := rfl
  have hsteep := steep_balanced hext' hlim hflat (hany.symm.trans hb)
  have hadm : ∀ y, y = yp ∨ y = yn → ∀ chi, chi = -1e-13 ∨ chi = 0 →
      (meshedSection (qs.map fibre) bars).Admissible (planeThrough th y (planeStrain st 0 y) chi) := by
    intro y hy chi hchi
    refine search_admissible hext' hlim (hany.symm.trans hb) hgov' hy ?_ ?_
    · rcases hchi with rfl | rfl
      · exact hsteep
      · exact hs1'
    · rcases hchi with rfl | rfl <;> norm_num
  have hspan : ∀ y, y = yp ∨ y = yn → (∀ p ∈ qs.map fibre, ∀ x ∈ p.mesh.region, |height th x - y| ≤ H) ∧
      ∀ b ∈ bars, |height th (b.x, b.y) - y| ≤ H := by
    intro y hy
    obtain ⟨a1, a2⟩ := h.span_region hs' (y := y) (by rcases hy with rfl | rfl <;> assumption)
    refine ⟨fun p hp => ?_, a2⟩
    obtain ⟨q, hq, rfl⟩ := List.mem_map.1 hp
    exact a1 q.part (List.mem_map_of_mem hq)
  have hLp' : ∀ p ∈ qs.map fibre, p.mesh.slope ≤ L := by
    intro p hp
    obtain ⟨q, hq, rfl⟩ := List.mem_map.1 hp
    exact hLp q hq
  have hrig : L * H * (((qs.map fibre).map fun p => areaMoment 0 0 p.mesh.region).sum + (bars.map fun b => |b.area|).sum) =
      totalModulus (qs.map MeshedConcrete.part) bars L * H := by
    simp only [totalModulus, List.map_map, Function.comp_def, fibre]
    ring
  -- forces at the end planes
  have hend : ∀ y, y = yp ∨ y = yn →
      |S.forces (planeThrough th y (planeStrain st 0 y) (-1e-13)) 0 - S.forces ![planeStrain st 0 y, 0, 0] 0| +
        meshError (qs.map fibre) ms (planeThrough th y (planeStrain st 0 y) (-1e-13)) 0 ≤ δ * 1e-13 := by
    intro y hy
    have e : ![planeStrain st 0 y, 0, 0] = planeThrough th y (planeStrain st 0 y) 0 := by simp [planeThrough]
    have a1 := fibre_force_lipschitz hid hmesh hlip hL0 hLp' hK (hspan y hy).1 (hspan y hy).2 (hadm y hy _ (Or.inl rfl))
      (hadm y hy _ (Or.inr rfl))
    have a2 := fibre_error (qs.map fibre) bars hid ms hms _ (meshed_good hmesh hlip (hadm y hy _ (Or.inl rfl))) 0
    have a3 := fibre_error (qs.map fibre) bars hid ms hms _ (meshed_uniform hmesh (planeStrain st 0 y)) 0
    have a4 : meshError (qs.map fibre) ms ![planeStrain st 0 y, 0, 0] 0 = 0 := by simp [meshError]
    have a5 : meshError (qs.map fibre) ms (planeThrough th y (planeStrain st 0 y) (-1e-13)) 0 =
        1e-13 * (√ms * weight (qs.map MeshedConcrete.part) 0) := by
      rw [error_eq qs hms.le, curvature_norm, show |(-1e-13:ℝ)| = 1e-13 by norm_num [abs_of_pos], mul_assoc]
    rw [a4] at a3
    rw [hrig, ← e, show |(-1e-13:ℝ) - 0| = 1e-13 by norm_num [abs_of_pos]] at a1
    rw [a5] at a2 ⊢
    rw [section_eq, ← hS] at a2 a3
    have a6 := abs_nonpos_iff.1 a3
    have a7 := abs_sub_le (S.forces (planeThrough th y (planeStrain st 0 y) (-1e-13)) 0)
      ((fibreSection (meshData (qs.map fibre) bars ms)).forces (planeThrough th y (planeStrain st 0 y) (-1e-13)) 0)
      (S.forces ![planeStrain st 0 y, 0, 0] 0)
    have a8 : S.forces ![planeStrain st 0 y, 0, 0] 0 =
      (fibreSection (meshData (qs.map fibre) bars ms)).forces ![planeStrain st 0 y, 0, 0] 0 := by linarith
    rw [← a8] at a1
    rw [hδ]
    linarith
  obtain ⟨C, hC, hmain⟩ := C71_strength_partial turned (qs.map fibre) bars ms th hms hms1 lu hid hne hext
    (fun e he => meshed_good hmesh hlip he) hlim hflat hb hgov'
  refine ⟨C, hC, fun n ops hops hun => ⟨fun hout => ?_, fun hlo hhi => ?_⟩⟩
  · have hcan : Canonical E (fun m => triangulate
      ((fun a => if a = 0 then (qs.map fibre).map fun p => p.mesh.surf else turned a) 0) bars m) (history E lu ops .fresh) := by
      rcases hops with rfl | hm
      · exact .fresh
      · refine canonical_history lu hEl ?_ ops _ .fresh hun
        rw [← hm, hE]
        rfl
    have l1 := (limits_canonical hEl hcan).1
    have l2 := (limits_canonical hEl (.fresh : Canonical E _ .fresh)).1
    rw [← l2, hlims] at l1
    rcases hl : limits E (history E lu ops .fresh) with ⟨s', r⟩
    rw [hl] at l1
    simp only at l1
    subst l1
    exact congrArg Prod.snd (C28_gate_rejects _ _ _ hl n hout th 0 0 0 none).1
  · have hn := hend yn (Or.inr rfl)
    have hp := hend yp (Or.inl rfl)
    rw [e2] at hn
    rw [e1] at hp
    have hW := weight_nonneg (qs.map MeshedConcrete.part) 0
    have herr : ∀ e, 0 ≤ meshError (qs.map fibre) ms e 0 := by
      intro e
      rw [error_eq qs hms.le]
      positivity
    have hδ0 : 0 ≤ δ * 1e-13 := by
      have := herr (planeThrough th yn (-ecu) (-1e-13))
      linarith [abs_nonneg (S.forces (planeThrough th yn (-ecu) (-1e-13)) 0 - S.forces ![-ecu, 0, 0] 0)]
    have hlow : (meshedSection (qs.map fibre) bars).forces (planeThrough th yn (planeStrain st 0 yn) (-1e-13)) 0 +
        meshError (qs.map fibre) ms (planeThrough th yn (planeStrain st 0 yn) (-1e-13)) 0 < n := by
      rw [section_eq, ← hS, e2]
      linarith [le_abs_self (S.forces (planeThrough th yn (-ecu) (-1e-13)) 0 - S.forces ![-ecu, 0, 0] 0)]
    have hhigh : n < (meshedSection (qs.map fibre) bars).forces (planeThrough th yp (planeStrain st 0 yp) (-1e-13)) 0 -
        meshError (qs.map fibre) ms (planeThrough th yp (planeStrain st 0 yp) (-1e-13)) 0 := by
      rw [section_eq, ← hS, e1]
      linarith [neg_abs_le (S.forces (planeThrough th yp eu (-1e-13)) 0 - S.forces ![eu, 0, 0] 0)]
    have hcheck : (checkAxialLoad E n .fresh).2 = .ok () := by
      simp only [checkAxialLoad, CalcM.bind_def]
      rcases hl : limits E .fresh with ⟨s, r⟩
      rw [hl] at hlims
      simp only at hlims
      subst hlims
      simp only
      rw [if_neg (by push Not; constructor <;> linarith)]
      rfl
    rw [hE] at hcheck hun ⊢
    have hHs : 0 ≤ totalModulus (qs.map MeshedConcrete.part) bars L * H := by
      have a1 : 0 ≤ ((qs.map MeshedConcrete.part).map fun p => areaMoment 0 0 p.region).sum := by
        refine List.sum_nonneg fun x hx => ?_
        obtain ⟨p, -, rfl⟩ := List.mem_map.1 hx
        simp only [areaMoment, pow_zero, mul_one]
        exact integral_nonneg fun _ => by norm_num
      have a2 : 0 ≤ (bars.map fun b => |b.area|).sum := List.sum_nonneg fun x hx => by
        obtain ⟨b, -, rfl⟩ := List.mem_map.1 hx; exact abs_nonneg _
      have a3 : 0 ≤ H := by linarith [h.size.1, show (0:ℝ) < 1e-3 by norm_num]
      exact mul_nonneg (mul_nonneg hL0 (by linarith)) a3
    obtain ⟨b, hb'⟩ := C71_returns turned (qs.map fibre) bars ms th n hms hms1 lu ops hops hun hid hne hext hmesh hlip hlim hflat hb hgov'
      hL0 hLp' hK hspan (by
        rw [hrig]
        have ha : |-1e-13 - st 1| ≤ 1e5 := by
          rw [abs_le]
          constructor <;> norm_num at * <;> linarith
        calc totalModulus (qs.map MeshedConcrete.part) bars L * H * |-1e-13 - st 1| ≤ 1e22 * 1e5 :=
              mul_le_mul hstiff ha (abs_nonneg _) (by norm_num)
          _ ≤ _ := by norm_num) hcheck hlow hhigh
    exact ⟨b, hb', fun hnC => (hmain n ops b hops hun hb').2.2.2.2 hnC hlow hhigh⟩

end SC
