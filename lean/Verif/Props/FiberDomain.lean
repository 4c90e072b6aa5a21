import Verif.Props.FiberDesign
import Verif.Props.OrdinaryDomain3D

/-! # C91: interaction domains with the fibre integrator

The strain profiles of a domain do not depend on the integrator; under every profile the fibre integrator returns the forces of its
fibres, which differ from those of the section by at most the mesh error of C57. -/

set_option autoImplicit false

namespace SC

open Spec MeasureTheory MeshedConcrete

/-- **C91** (any laws, any strain profiles). The fibre integrator returns one point per profile, in order, and every point differs from
the forces of the section under its profile by at most the mesh error of C57, if the laws have a slope over the strains of the
profiles. -/
theorem C91_points (turned : ℝ → List MeshSurf) (parts : List FibrePart) (bars : List Bar) (ms : ℝ) (hms : 0 < ms) (hms1 : ms ≤ 1)
    (lu : Matrix (Fin 3) (Fin 3) ℝ → (Fin 3 → ℝ) → (Fin 3 → ℝ)) (hid : SameIds (bars.map Bar.law)) (hne : parts ≠ [] ∨ bars ≠ [])
    (planes : List (Fin 3 → ℝ)) (hgood : ∀ v ∈ planes, ∀ p ∈ parts, p.mesh.Good v ms) (ops : List Op) (hops : ops = [] ∨ ms = defaultMesh)
    (hun : Undisturbed (fibreSectionEngine turned parts bars ms) lu ops .fresh) :
    ∃ pts : List (Fin 3 → ℝ),
      (nmDomain (fibreSectionEngine turned parts bars ms) (.ok planes) (history (fibreSectionEngine turned parts bars ms) lu ops .fresh)).2 =
        .ok (pts.map .forces) ∧
      (ms = defaultMesh → (nmmDomain (fibreSectionEngine turned parts bars ms) (.ok planes)
        (history (fibreSectionEngine turned parts bars ms) lu ops .fresh)).2 = .ok (pts.map .forces)) ∧
      List.Forall₂ (fun v f => ∀ i, |(meshedSection parts bars).forces v i - f i| ≤ meshError parts ms v i) planes pts := by
  have hE := fibre_lawful turned parts bars ms
  have hD := meshData_base turned parts bars ms hms hms1
  have hcan : Canonical (fibreSectionEngine turned parts bars ms) (fun m => triangulate
      ((fun a => if a = 0 then parts.map fun p => p.mesh.surf else turned a) 0) bars m)
      (history (fibreSectionEngine turned parts bars ms) lu ops .fresh) := by
    rcases hops with rfl | hm
    · exact .fresh
    · refine canonical_history lu hE ?_ ops _ .fresh hun
      rw [← hm]
      rfl
  have hans : ∀ (m : ℝ), ∀ v ∈ planes, (fibreSectionEngine turned parts bars ms).integ 0 v .stress (some (meshData parts bars ms)) m =
      .ok (.forces ((fibreSection (meshData parts bars ms)).forces v), meshData parts bars ms) := by
    intro m v _
    rw [fibreSection_forces]
    exact C18_forces ((fun a => if a = 0 then parts.map fun p => p.mesh.surf else turned a) 0) (bars.map (Bar.rotate 0)) _
      (meshData_ne hid ms hne) v m
  refine ⟨planes.map (fibreSection (meshData parts bars ms)).forces, ?_, fun hm => ?_, ?_⟩
  · have := integrateAll_exact hE hD (fibreSection (meshData parts bars ms)).forces planes (hans _) _ (canonical_data hD hcan)
    simp only [List.map_map, Function.comp_def]
    exact this
  · subst hm
    have := integrateAll_exact hE hD (fibreSection (meshData parts bars defaultMesh)).forces planes (hans _) _ (canonical_data hD hcan)
    simp only [List.map_map, Function.comp_def]
    exact this
  · rw [List.forall₂_map_right_iff, List.forall₂_same]
    exact fun v hv i => fibre_error parts bars hid ms hms v (hgood v hv) i

/-- The curvature of a profile of an ordinary section. -/
theorem profile_curvature {th ecu eu H : ℝ} {parts : List ConcretePart} {bars : List Bar} (h : OrdinaryRC th parts bars ecu eu H)
    {v : Fin 3 → ℝ} (hpar : v 1 * Real.sin th = v 2 * Real.cos th) (hc : v 1 * Real.cos th + v 2 * Real.sin th ≤ 0)
    (ha : (concreteSection parts bars).Admissible v) {D : ℝ} (hD0 : 0 < D)
    (hD : ∃ b ∈ bars, ∃ p ∈ parts, ∃ w ∈ p.polygon.ext, D ≤ height th w - height th (b.x, b.y)) :
    √(v 1 ^ 2 + v 2 ^ 2) ≤ (ecu + eu) / D := by
  set c := v 1 * Real.cos th + v 2 * Real.sin th with hcd
  have h1 : v 1 = c * Real.cos th := by
    rw [hcd]; linear_combination (-v 1) * Real.sin_sq_add_cos_sq th + Real.sin th * hpar
  have h2 : v 2 = c * Real.sin th := by
    rw [hcd]; linear_combination (-v 2) * Real.sin_sq_add_cos_sq th - Real.cos th * hpar
  have hv : v = planeThrough th 0 (v 0) c := by
    ext i
    fin_cases i <;> simp [planeThrough, h1, h2]
  rw [hv] at ha
  rw [hv, curvature_norm, le_div_iff₀ hD0]
  obtain ⟨b, hb, p, hp, w, hw, hle⟩ := hD
  exact h.curvature_bound hc ha hb hp hw hle

variable {lower : String → String}

/-- One direction of a domain: the curvature of its profiles, and the assumptions of C57 under them. -/
theorem RCDirection.fibre {th lo hi fc eu ey ms ms' : ℝ} {split : Polygon → ℝ → ℝ → ShapelyResult}
    {shapes : List (Polygon × Set (ℝ × ℝ))} {bars : List Bar} {L : LawObj}
    (h : RCDirection th shapes (bars.map fun b => (b.x, b.y)) lo hi) (hb : ∀ b ∈ bars, b.law = L) (hu : L.law.ult false = (-eu, eu))
    (hy : (L.law.ult true).2 = ey) (heu : 0.0035 ≤ eu) (heu' : eu ≤ 0.09) (hey : 1e-4 ≤ ey) (hey' : ey ≤ eu)
    (henc : ∀ p ∈ shapes, Encloses p.1.ext p.1.ints p.2) (hull : ∀ p ∈ shapes, p.2 ⊆ convexHull ℝ {v | v ∈ p.1.ext})
    (hcut : CutsExactly split th shapes) {num : Fin 6 → ℤ} {ty : Fin 6 → Spacing} (hnum : ProfileArgs num ty)
    {D : ℝ} (hD0 : 0 < D) (hD : ∃ b ∈ bars, ∃ p ∈ shapes, ∃ w ∈ p.1.ext, D ≤ height th w - height th (b.x, b.y))
    (idc : ℕ) (mesh : Polygon × Set (ℝ × ℝ) → ℝ → List ((ℝ × ℝ) × (ℝ × ℝ) × (ℝ × ℝ)))
    (hmesh : ∀ p ∈ shapes, Triangulates (mesh p (areaMoment 0 0 p.2 * ms)) p.2 ∧
      Quality (areaMoment 0 0 p.2 * ms) (mesh p (areaMoment 0 0 p.2 * ms)))
    {planes : List (Fin 3 → ℝ)} {labels : List ℕ}
    (hrun : ultimateProfiles ((sectionEngine split ((normalParts fc shapes).map ConcretePart.solid) bars ms').balanced (-th))
      (sectionMinY ((normalParts fc shapes).map ConcretePart.polygon) (-th)) true th num ty = .ok (planes, labels)) :
    ∀ v ∈ planes, (concreteSection (normalParts fc shapes) bars).Admissible v ∧ √(v 1 ^ 2 + v 2 ^ 2) ≤ (0.0035 + eu) / D ∧
      ∀ p ∈ (normalMeshed fc shapes idc mesh).map MeshedConcrete.fibre, p.mesh.Good v ms := by
  obtain ⟨⟨yp, hord⟩, hok, -⟩ := h.profiles (fc := fc) (ms := ms') hb hu hy heu heu' hey hey' henc hull hcut hnum
  have hRC := h.geometry.ordinary (fc := fc) hb hu heu heu'
  obtain ⟨k1, -⟩ := hRC.profiles hok hrun hord
  have hok' : ∀ q ∈ normalMeshed fc shapes idc mesh, q.part.Sound ∧ q.Fine ms := by
    intro q hq
    obtain ⟨p, hp, rfl⟩ := List.mem_map.1 hq
    exact ⟨⟨henc p hp, hull p hp, by norm_num, by norm_num [abs_of_pos]⟩, (hmesh p hp).1, (hmesh p hp).2⟩
  intro v hv
  obtain ⟨c1, c2⟩ := k1 v hv
  refine ⟨c2, profile_curvature hRC (profile_parallel hrun hv) c1 c2 hD0 ?_, ?_⟩
  · obtain ⟨b, hb, p, hp, w, hw, hle⟩ := hD
    exact ⟨b, hb, _, List.mem_map_of_mem hp, w, hw, hle⟩
  · refine meshed_good (bars := bars) (meshed (fun q hq => (hok' q hq).1) fun q hq => (hok' q hq).2)
      (lipschitz fun q hq => (hok' q hq).1) ?_
    rw [section_eq, normalMeshed_part]
    exact c2

/-- **C91** (design; partial: normal strength concrete with the parabola-rectangle law, bars of one perfectly plastic steel). From the
arguments of the material constructors and the geometry: `calculate_nm_interaction_domain` returns with both integrators, on the same
strain profiles, none of which exceeds a limit strain; the points of the Marin integrator are exactly `(N, My, Mz)` of the section, and
those of the fibre integrator differ from them by at most an error that vanishes with the square root of the relative triangle size. -/
theorem C91_design_partial (hl : PyLower lower) (ccls : ConcClass) (ca : ConcArgs) (c : Built Conc)
    (hc : newConcrete lower ccls ca = some (.ok c)) (hcn : ca.law = .name "parabolarectangle")
    (hci : ca.initialStrain = none ∧ ca.initialStress = none) (hce : ca.eps_c2 = none ∧ ca.eps_cu2 = none ∧ ca.n = none)
    (hcf : ccls ≠ .ec2_2023 → |ca.fck| ≤ 50)
    (scls : SteelClass) (sa : SteelArgs) (s : Built Steel)
    (hs : newSteel lower scls sa = some (.ok s)) (hsn : sa.law = .name "elasticperfectlyplastic")
    (hsi : sa.initialStrain = none ∧ sa.initialStress = none)
    (hgap : designYield sa + 1e-6 + 1e-5 * designUltimate scls sa ≤ designUltimate scls sa) (hey : 1e-4 ≤ designYield sa)
    (heu : 0.0035 ≤ designUltimate scls sa ∧ designUltimate scls sa ≤ 0.09)
    (split : Polygon → ℝ → ℝ → ShapelyResult) (turned : ℝ → List MeshSurf) {ms : ℝ} (hms : 0 < ms) (hms1 : ms ≤ 1) (ms' th : ℝ)
    (lu lu' : Matrix (Fin 3) (Fin 3) ℝ → (Fin 3 → ℝ) → (Fin 3 → ℝ))
    (shapes : List (Polygon × Set (ℝ × ℝ))) (bars : List Bar) (id : ℕ) (hbars : ∀ b ∈ bars, b.law = ⟨id, s.mat.law⟩)
    (idc : ℕ) (mesh : Polygon × Set (ℝ × ℝ) → ℝ → List ((ℝ × ℝ) × (ℝ × ℝ) × (ℝ × ℝ)))
    (hmesh : ∀ p ∈ shapes, Triangulates (mesh p (areaMoment 0 0 p.2 * ms)) p.2 ∧
      Quality (areaMoment 0 0 p.2 * ms) (mesh p (areaMoment 0 0 p.2 * ms)))
    (henc : ∀ p ∈ shapes, Encloses p.1.ext p.1.ints p.2) (hull : ∀ p ∈ shapes, p.2 ⊆ convexHull ℝ {v | v ∈ p.1.ext})
    (hcut : CutsExactly split th shapes) {lo hi : ℝ} (hdir : RCDirection th shapes (bars.map fun b => (b.x, b.y)) lo hi)
    (complete : Bool) {lo' hi' : ℝ}
    (hdir' : complete = true → RCDirection (th + Real.pi) shapes (bars.map fun b => (b.x, b.y)) lo' hi')
    {D : ℝ} (hD0 : 0 < D) (hD : ∃ b ∈ bars, ∃ p ∈ shapes, ∃ w ∈ p.1.ext, D ≤ height th w - height th (b.x, b.y))
    (hD' : complete = true → ∃ b ∈ bars, ∃ p ∈ shapes, ∃ w ∈ p.1.ext, D ≤ height th (b.x, b.y) - height th w)
    (num : Fin 6 → ℤ) (ty : Fin 6 → Spacing) (hnum : ProfileArgs num ty)
    (fc : ℝ) (hfc : fc = designConcrete ccls ca) (S : CrossSection) (hS : S = concreteSection (normalParts fc shapes) bars)
    (E E' : Engine) (hE : E = engine turned (normalMeshed fc shapes idc mesh) bars ms)
    (hE' : E' = sectionEngine split ((normalParts fc shapes).map ConcretePart.solid) bars ms')
    (ops ops' : List Op) (hops : ops = [] ∨ ms = defaultMesh) (hun : Undisturbed E lu ops .fresh) (hun' : Undisturbed E' lu' ops' .fresh) :
    (∀ q ∈ normalMeshed fc shapes idc mesh, q.part.law.law = c.mat.law) ∧
    ∃ planes labels pts,
      nmProfiles E.balanced (sectionMinY (shapes.map Prod.fst)) true th num ty complete = .ok (planes, labels) ∧
      nmProfiles E'.balanced (sectionMinY (shapes.map Prod.fst)) true th num ty complete = .ok (planes, labels) ∧
      (nmDomain E ((nmProfiles E.balanced (sectionMinY (shapes.map Prod.fst)) true th num ty complete).map Prod.fst)
        (history E lu ops .fresh)).2 = .ok (pts.map .forces) ∧
      (nmDomain E' ((nmProfiles E'.balanced (sectionMinY (shapes.map Prod.fst)) true th num ty complete).map Prod.fst)
        (history E' lu' ops' .fresh)).2 = .ok (planes.map fun v => .forces (S.forces v)) ∧
      List.Forall₂ (fun v f => S.Admissible v ∧ ∀ i, |S.forces v i - f i| ≤
        (0.0035 + designUltimate scls sa) / D * √ms * weight (normalParts fc shapes) i) planes pts := by
  obtain ⟨hult, -, -⟩ := C73_steel hl scls sa s hs hsn hsi.1 hsi.2 hgap
  have hyield := steel_yield hl scls sa s hs hsn hsi.1 hsi.2
  have hey' : designYield sa ≤ designUltimate scls sa := by
    have := heu.1
    norm_num at *
    linarith
  have hbal : E.balanced = E'.balanced := by
    funext a y
    rw [hE, hE', balanced_eq turned split _ bars ms ms', normalMeshed_part]
  have hpoly : shapes.map Prod.fst = (normalParts fc shapes).map ConcretePart.polygon := by
    simp only [normalParts, List.map_map, Function.comp_def]
  obtain ⟨hlaw, planes, labels, hprof, hrun', -, hadm, -⟩ := C67_design_partial hl ccls ca c hc hcn hci hce hcf scls sa s hs hsn hsi hgap hey heu
    split ms' th lu' shapes bars id hbars henc hull hcut hdir complete hdir' num ty hnum fc hfc S hS E' hE' ops' hun'
  have hall : ∀ v ∈ planes, √(v 1 ^ 2 + v 2 ^ 2) ≤ (0.0035 + designUltimate scls sa) / D ∧
      ∀ p ∈ (normalMeshed fc shapes idc mesh).map MeshedConcrete.fibre, p.mesh.Good v ms := by
    have hp := hprof
    rw [hpoly] at hp
    simp only [nmProfiles] at hp
    cases h1 : ultimateProfiles (E'.balanced (-th)) (sectionMinY ((normalParts fc shapes).map ConcretePart.polygon) (-th)) true th num ty with
    | error er => rw [h1] at hp; cases hp
    | ok r =>
      obtain ⟨q, k⟩ := r
      rw [h1] at hp
      simp only at hp
      rw [hE'] at h1
      have hq := hdir.fibre hbars hult hyield heu.1 heu.2 hey hey' henc hull hcut hnum hD0 hD idc mesh hmesh h1
      cases hcomp : complete with
      | false =>
        simp only [hcomp, Bool.false_eq_true, if_false, Except.ok.injEq, Prod.mk.injEq] at hp
        rw [← hp.1]
        exact fun v hv => (hq v hv).2
      | true =>
        simp only [hcomp, if_true] at hp
        cases h2 : ultimateProfiles (E'.balanced (-(th + Real.pi)))
            (sectionMinY ((normalParts fc shapes).map ConcretePart.polygon) (-(th + Real.pi))) true (th + Real.pi) num ty with
        | error er => rw [h2] at hp; cases hp
        | ok r' =>
          obtain ⟨q', k'⟩ := r'
          rw [h2] at hp
          simp only [Except.ok.injEq, Prod.mk.injEq] at hp
          rw [hE'] at h2
          have hq' := (hdir' hcomp).fibre hbars hult hyield heu.1 heu.2 hey hey' henc hull hcut.half_turn hnum hD0 (by
            obtain ⟨b, hb, p, hp, w, hw, hle⟩ := hD' hcomp
            refine ⟨b, hb, p, hp, w, hw, ?_⟩
            have e : ∀ x : ℝ × ℝ, height (th + Real.pi) x = -height th x := by
              intro x
              simp only [height, Real.cos_add_pi, Real.sin_add_pi]
              ring
            rw [e, e]
            linarith) idc mesh hmesh h2
          rw [← hp.1]
          intro v hv
          rcases List.mem_append.1 hv with hv | hv
          · exact (hq v hv).2
          · exact (hq' v (mem_dropEndsRev hv)).2
  rw [hE] at hun
  obtain ⟨pts, hpts, -, herr⟩ := C91_points turned ((normalMeshed fc shapes idc mesh).map MeshedConcrete.fibre) bars ms hms hms1 lu
    (single_ids hbars) (Or.inr (by obtain ⟨b, hb, -⟩ := hD; exact List.ne_nil_of_mem hb)) planes (fun v hv => (hall v hv).2) ops hops hun
  refine ⟨fun q hq => ?_, planes, labels, pts, by rw [hbal]; exact hprof, hprof, ?_, hrun', ?_⟩
  · obtain ⟨p, hp, rfl⟩ := List.mem_map.1 hq
    exact hlaw _ (List.mem_map_of_mem hp)
  · rw [hbal, hprof, hE]
    exact hpts
  · rw [section_eq, normalMeshed_part, ← hS] at herr
    rw [List.forall₂_iff_get] at herr ⊢
    refine ⟨herr.1, fun i h1 h2 => ⟨hadm _ (List.get_mem _ _), fun j => (herr.2 i h1 h2 j).trans ?_⟩⟩
    rw [error_eq _ hms.le, normalMeshed_part]
    exact mul_le_mul_of_nonneg_right (mul_le_mul_of_nonneg_right (hall _ (List.get_mem _ _)).1 (Real.sqrt_nonneg _)) (weight_nonneg _ _)

/-- **C91** (N-My-Mz domain; partial: as `C91_design_partial`, default triangle size). `calculate_nmm_interaction_domain` of the fibre
integrator returns one point per profile of the Marin integrator, in order, and every point differs from `(N, My, Mz)` of the section
under its profile by at most the same error. -/
theorem C91_nmm_partial (hl : PyLower lower)
    (scls : SteelClass) (sa : SteelArgs) (s : Built Steel)
    (hs : newSteel lower scls sa = some (.ok s)) (hsn : sa.law = .name "elasticperfectlyplastic")
    (hsi : sa.initialStrain = none ∧ sa.initialStress = none)
    (hgap : designYield sa + 1e-6 + 1e-5 * designUltimate scls sa ≤ designUltimate scls sa) (hey : 1e-4 ≤ designYield sa)
    (heu : 0.0035 ≤ designUltimate scls sa ∧ designUltimate scls sa ≤ 0.09)
    (split : Polygon → ℝ → ℝ → ShapelyResult) (turned : ℝ → List MeshSurf) (ms' : ℝ)
    (lu lu' : Matrix (Fin 3) (Fin 3) ℝ → (Fin 3 → ℝ) → (Fin 3 → ℝ))
    (shapes : List (Polygon × Set (ℝ × ℝ))) (bars : List Bar) (id : ℕ) (hbars : ∀ b ∈ bars, b.law = ⟨id, s.mat.law⟩)
    (idc : ℕ) (mesh : Polygon × Set (ℝ × ℝ) → ℝ → List ((ℝ × ℝ) × (ℝ × ℝ) × (ℝ × ℝ)))
    (hmesh : ∀ p ∈ shapes, Triangulates (mesh p (areaMoment 0 0 p.2 * defaultMesh)) p.2 ∧
      Quality (areaMoment 0 0 p.2 * defaultMesh) (mesh p (areaMoment 0 0 p.2 * defaultMesh)))
    (henc : ∀ p ∈ shapes, Encloses p.1.ext p.1.ints p.2) (hull : ∀ p ∈ shapes, p.2 ⊆ convexHull ℝ {v | v ∈ p.1.ext})
    (numTheta : ℕ) (hth : 1 ≤ numTheta)
    (hcut : ∀ th ∈ linspace 0 (Real.pi * 2) numTheta true, CutsExactly split th shapes)
    (hdir : ∀ th ∈ linspace 0 (Real.pi * 2) numTheta true, ∃ lo hi, RCDirection th shapes (bars.map fun b => (b.x, b.y)) lo hi)
    {D : ℝ} (hD0 : 0 < D) (hD : ∀ th ∈ linspace 0 (Real.pi * 2) numTheta true,
      ∃ b ∈ bars, ∃ p ∈ shapes, ∃ w ∈ p.1.ext, D ≤ height th w - height th (b.x, b.y))
    (num : Fin 6 → ℤ) (ty : Fin 6 → Spacing) (hnum : ProfileArgs num ty)
    (fc : ℝ) (S : CrossSection) (hS : S = concreteSection (normalParts fc shapes) bars)
    (E E' : Engine) (hE : E = engine turned (normalMeshed fc shapes idc mesh) bars defaultMesh)
    (hE' : E' = sectionEngine split ((normalParts fc shapes).map ConcretePart.solid) bars ms')
    (ops ops' : List Op) (hun : Undisturbed E lu ops .fresh) (hun' : Undisturbed E' lu' ops' .fresh) :
    ∃ planes labels pts,
      nmmProfiles E.balanced (sectionMinY (shapes.map Prod.fst)) true numTheta num ty = .ok (planes, labels) ∧
      (nmmDomain E ((nmmProfiles E.balanced (sectionMinY (shapes.map Prod.fst)) true numTheta num ty).map Prod.fst)
        (history E lu ops .fresh)).2 = .ok (pts.map .forces) ∧
      (nmmDomain E' ((nmmProfiles E'.balanced (sectionMinY (shapes.map Prod.fst)) true numTheta num ty).map Prod.fst)
        (history E' lu' ops' .fresh)).2 = .ok (planes.map fun v => .forces (S.forces v)) ∧
      List.Forall₂ (fun v f => S.Admissible v ∧ ∀ i, |S.forces v i - f i| ≤
        (0.0035 + designUltimate scls sa) / D * √defaultMesh * weight (normalParts fc shapes) i) planes pts := by
  obtain ⟨hult, -, -⟩ := C73_steel hl scls sa s hs hsn hsi.1 hsi.2 hgap
  have hyield := steel_yield hl scls sa s hs hsn hsi.1 hsi.2
  have hey' : designYield sa ≤ designUltimate scls sa := by
    have := heu.1
    norm_num at *
    linarith
  have hms : (0:ℝ) < defaultMesh := by norm_num [defaultMesh]
  have hms1 : defaultMesh ≤ (1:ℝ) := by norm_num [defaultMesh]
  have hbal : E.balanced = E'.balanced := by
    funext a y
    rw [hE, hE', balanced_eq turned split _ bars defaultMesh ms', normalMeshed_part]
  have hpoly : shapes.map Prod.fst = (normalParts fc shapes).map ConcretePart.polygon := by
    simp only [normalParts, List.map_map, Function.comp_def]
  obtain ⟨chunks, labels, hprof, hrun', hf⟩ := C67_design_nmm_partial hl scls sa s hs hsn hsi hgap hey heu split ms' lu' shapes bars id hbars
    henc hull numTheta hth hcut hdir num ty hnum fc S hS E' hE' ops' hun'
  have hall : ∀ v ∈ chunks.flatten, S.Admissible v ∧ √(v 1 ^ 2 + v 2 ^ 2) ≤ (0.0035 + designUltimate scls sa) / D ∧
      ∀ p ∈ (normalMeshed fc shapes idc mesh).map MeshedConcrete.fibre, p.mesh.Good v defaultMesh := by
    intro v hv
    obtain ⟨q, hq, hvq⟩ := List.mem_flatten.1 hv
    obtain ⟨i, hi, rfl⟩ := List.mem_iff_getElem.1 hq
    have hlen := hf.length_eq
    have hi' : i < (linspace 0 (Real.pi * 2) numTheta true).length := by rw [hlen]; exact hi
    obtain ⟨hp, -, -⟩ := (List.forall₂_iff_get.1 hf).2 i hi' hi
    simp only [List.get_eq_getElem] at hp
    set th := (linspace 0 (Real.pi * 2) numTheta true)[i] with hthd
    have hmem : th ∈ linspace 0 (Real.pi * 2) numTheta true := List.getElem_mem hi'
    obtain ⟨lo, hi2, hd⟩ := hdir th hmem
    rw [hpoly] at hp
    simp only [nmProfiles] at hp
    cases h1 : ultimateProfiles (E'.balanced (-th)) (sectionMinY ((normalParts fc shapes).map ConcretePart.polygon) (-th)) true th num ty with
    | error er => rw [h1] at hp; cases hp
    | ok r =>
      obtain ⟨q', k'⟩ := r
      rw [h1] at hp
      simp only [Bool.false_eq_true, if_false, Except.ok.injEq, Prod.mk.injEq] at hp
      rw [hE', hp.1] at h1
      have := hd.fibre hbars hult hyield heu.1 heu.2 hey hey' henc hull (hcut th hmem) hnum hD0 (hD th hmem) idc mesh hmesh h1 v hvq
      rw [hS]
      exact this
  rw [hE] at hun
  have hne : bars ≠ [] := by
    have h0 : (linspace 0 (Real.pi * 2) numTheta true) ≠ [] := by
      intro h0
      have := congrArg List.length h0
      simp [linspace] at this
      omega
    obtain ⟨t, ht⟩ := List.exists_mem_of_ne_nil _ h0
    obtain ⟨b, hb, -⟩ := hD t ht
    exact List.ne_nil_of_mem hb
  obtain ⟨pts, -, hpts, herr⟩ := C91_points turned ((normalMeshed fc shapes idc mesh).map MeshedConcrete.fibre) bars defaultMesh hms hms1 lu
    (single_ids hbars) (Or.inr hne) chunks.flatten (fun v hv => (hall v hv).2.2) ops (Or.inr rfl) hun
  refine ⟨chunks.flatten, labels, pts, by rw [hbal]; exact hprof, ?_, hrun', ?_⟩
  · rw [hbal, hprof, hE]
    exact hpts rfl
  · rw [section_eq, normalMeshed_part, ← hS] at herr
    rw [List.forall₂_iff_get] at herr ⊢
    refine ⟨herr.1, fun i h1 h2 => ⟨(hall _ (List.get_mem _ _)).1, fun j => (herr.2 i h1 h2 j).trans ?_⟩⟩
    rw [error_eq _ hms.le, normalMeshed_part]
    exact mul_le_mul_of_nonneg_right (mul_le_mul_of_nonneg_right (hall _ (List.get_mem _ _)).2.1 (Real.sqrt_nonneg _)) (weight_nonneg _ _)

/-- **C91** (My-Mz domain; partial: the loads of C80, default triangle size). For every load within the limit loads (up to the margin)
`calculate_mm_interaction_domain` of the fibre integrator returns one point per angle, in order; the plane of each point has the
requested inclination, is at a limit strain and exceeds none; the forces of the section in it differ from the returned ones by at most
the mesh error, and the axial force of the fibres from the requested one by at most 0.01 (but for countably many loads). -/
theorem C91_mm_partial (turned : ℝ → List MeshSurf) (qs : List MeshedConcrete) {bars : List Bar} {ecu eu H H0 : ℝ}
    (lu : Matrix (Fin 3) (Fin 3) ℝ → (Fin 3 → ℝ) → (Fin 3 → ℝ)) (thetas : List ℝ)
    (h0 : OrdinaryRC 0 (qs.map MeshedConcrete.part) bars ecu eu H0)
    (h : ∀ th ∈ thetas, OrdinaryRC th (qs.map MeshedConcrete.part) bars ecu eu H)
    (hs : ∀ q ∈ qs, q.part.Sound) (hf : ∀ q ∈ qs, q.Fine defaultMesh)
    (hid : SameIds (bars.map Bar.law)) {L : ℝ} (hL0 : 0 ≤ L) (hLp : ∀ q ∈ qs, 2 * |q.part.fc| / |q.part.eps_0| ≤ L)
    (hK : ∀ b ∈ bars, ∀ x ∈ Set.Icc (b.law.law.ult false).1 (b.law.law.ult false).2,
      ∀ y ∈ Set.Icc (b.law.law.ult false).1 (b.law.law.ult false).2, |b.law.law.stress x - b.law.law.stress y| ≤ L * |x - y|)
    (hmono : ∀ b ∈ bars, MonotoneOn b.law.law.stress (Set.Icc (b.law.law.ult false).1 (b.law.law.ult false).2))
    (hstiff : totalModulus (qs.map MeshedConcrete.part) bars L * H ≤ 1e22)
    {D : ℝ} (hD0 : 0 < D)
    (hD : ∀ th ∈ thetas, ∃ b ∈ bars, ∃ q ∈ qs, ∃ w ∈ q.part.polygon.ext, D ≤ height th w - height th (b.x, b.y))
    {S : CrossSection} (hS : S = concreteSection (qs.map MeshedConcrete.part) bars)
    {δ : ℝ} (hδ : δ = totalModulus (qs.map MeshedConcrete.part) bars L * H + 2 * (√defaultMesh * weight (qs.map MeshedConcrete.part) 0))
    {E : Engine} (hE : E = engine turned qs bars defaultMesh) :
    ∃ C : Set ℝ, C.Countable ∧ ∀ (n : ℝ) (ops : List Op), Undisturbed E lu ops .fresh →
      S.forces ![-ecu, 0, 0] 0 + δ * 1e-13 < n → n < S.forces ![eu, 0, 0] 0 - δ * 1e-13 →
      ∃ bs : List BendingResult, (mmDomain E n thetas (history E lu ops .fresh)).2 = .ok bs ∧
        List.Forall₂ (fun th b => ∃ c < 0, ![b.eps_a, b.chi.1, b.chi.2] = planeThrough th 0 b.eps_a c ∧
          S.AtLimit (planeThrough th 0 b.eps_a c) ∧ S.Admissible (planeThrough th 0 b.eps_a c) ∧
          (∀ i, |S.forces (planeThrough th 0 b.eps_a c) i - ![b.n, b.m.1, b.m.2] i| ≤
            (ecu + eu) / D * √defaultMesh * weight (qs.map MeshedConcrete.part) i) ∧
          (n ∉ C → |b.n - n| ≤ 1e-2)) thetas bs := by
  have hms : (0:ℝ) < defaultMesh := by norm_num [defaultMesh]
  have hms1 : defaultMesh ≤ (1:ℝ) := by norm_num [defaultMesh]
  induction thetas with
  | nil =>
    refine ⟨∅, Set.countable_empty, fun n ops _ _ _ => ⟨[], ?_, .nil⟩⟩
    simp only [mmDomain, CalcM.pure_def]
  | cons th rest ih =>
    obtain ⟨C1, hC1, h1⟩ := ih (fun t ht => h t (by simp [ht])) (fun t ht => hD t (by simp [ht]))
    obtain ⟨-, C2, hC2, h2⟩ := C80_strength_partial turned qs hms hms1 lu h0 (h th (by simp)) hs hf hid hL0 hLp hK hstiff hS hδ hE
    refine ⟨C1 ∪ C2, hC1.union hC2, fun n ops hops hlo hhi => ?_⟩
    obtain ⟨b, hb, htol⟩ := (h2 n ops (Or.inr rfl) hops).2 hlo hhi
    obtain ⟨c, hc, e, had, hal, -, herr⟩ := fibre_plane hms hms1 (h th (by simp)) hs hf hid hmono hD0 (hD th (by simp)) n ops b (Or.inr rfl)
      (by rw [← hE]; exact hops) (by rw [← hE]; exact hb)
    rw [← hS] at had hal herr
    obtain ⟨s1, hb'⟩ : ∃ s1, bendingStrength E th n (history E lu ops .fresh) = (s1, .ok b) := ⟨_, Prod.ext rfl hb⟩
    have hrun : (Op.bending th n).run E lu (history E lu ops .fresh) = (s1, .ok (.bending b)) := by
      simp only [Op.run]
      rw [CalcM.bind_ok hb']
      rfl
    have hs1 : history E lu (ops ++ [.bending th n]) .fresh = s1 := by rw [history_append, hrun]
    obtain ⟨bs, hbs, hfl⟩ := h1 n (ops ++ [.bending th n]) (undisturbed_append hops ⟨_, by rw [hrun]⟩) hlo hhi
    rw [hs1] at hbs
    obtain ⟨s2, hbs'⟩ : ∃ s2, mmDomain E n rest s1 = (s2, .ok bs) := ⟨_, Prod.ext rfl hbs⟩
    refine ⟨b :: bs, ?_, .cons ⟨c, hc, e, hal, had, herr, fun hn => htol fun h' => hn (Or.inr h')⟩ (hfl.imp fun t b' hb'' => ?_)⟩
    · simp only [mmDomain]
      rw [CalcM.bind_ok hb', CalcM.bind_ok hbs']
      rfl
    · obtain ⟨c', a1, a2, a3, a4, a5, a6⟩ := hb''
      exact ⟨c', a1, a2, a3, a4, a5, fun hn => a6 fun h' => hn (Or.inl h')⟩

end SC
