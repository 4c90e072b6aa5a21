import Verif.Props.RCConcrete
import Verif.Props.FiberError
import Verif.Props.RCCurvature

/-! # C71: strength and moment-curvature with the fibre integrator

The fibre integrator answers with the forces of the section of its fibres, for every plane; the equilibrium searches therefore end
at a plane on which the fibres balance the load.  By C57 the forces of the section itself differ by at most the mesh error of that
plane. -/

set_option autoImplicit false

namespace SC

open Spec MeasureTheory

/-- A surface of a section meshed by the fibre integrator. -/
structure FibrePart where
  mesh : MeshPart
  polygon : Polygon
  concrete : Bool

/-- What the balanced failure search reads of it; the Marin functions are not used. -/
noncomputable def FibrePart.solid (p : FibrePart) : Solid :=
  ⟨⟨⟨p.polygon, fun _ _ => (.error .valueError, 0), fun _ _ => (.error .valueError, 0)⟩, p.mesh.region, p.mesh.surf.law.law.stress⟩,
    p.concrete, p.mesh.surf.law.law.ult⟩

/-- A section of surfaces and bars with the fibre integrator; `turned a` is what a mesher would see of the section turned by `a`
(only used for `a = 0`: the fibres are turned, not meshed again). -/
noncomputable def fibreSectionEngine (turned : ℝ → List MeshSurf) (parts : List FibrePart) (bars : List Bar) (ms : ℝ) : Engine :=
  fiberEngine (fun a => if a = 0 then parts.map fun p => p.mesh.surf else turned a)
    (fun a => (parts.map FibrePart.solid).map (Solid.part a)) bars (parts.any FibrePart.concrete) ms

/-- The section itself: regions with their stress-strain laws, and bars. -/
noncomputable def meshedSection (parts : List FibrePart) (bars : List Bar) : CrossSection :=
  crossSection (parts.map FibrePart.solid) bars

/-- Mesh error of the force `i` in the plane `e` (C57). -/
noncomputable def meshError (parts : List FibrePart) (ms : ℝ) (e : Fin 3 → ℝ) (i : Fin 3) : ℝ :=
  2 / 3 * √(e 1 ^ 2 + e 2 ^ 2) * (parts.map fun p =>
    p.mesh.slope * √(8 * p.mesh.surf.area * ms) * ∫ x in p.mesh.region, |lever x.1 x.2 i|).sum

/-- The fibres. -/
noncomputable def meshData (parts : List FibrePart) (bars : List Bar) (ms : ℝ) : List Group :=
  (parts.map fun p => (⟨(p.mesh.surf.mesh (p.mesh.surf.area * ms)).map triFibre, p.mesh.surf.law⟩ : Group)) ++ groupBars bars

/-- The section of the fibres. -/
noncomputable def fibreSection (D : List Group) : CrossSection where
  plates := []
  rods := (fibres Law.stress D).map fun f => ⟨f, 0, 0⟩

theorem fibreSection_forces (D : List Group) (e : Fin 3 → ℝ) : (fibreSection D).forces e = resultants (fibres Law.stress D) e := by
  simp only [CrossSection.forces, fibreSection, List.map_nil, List.sum_nil, List.map_map, Function.comp_def, List.map_id', zero_add]

theorem meshData_base (turned : ℝ → List MeshSurf) (parts : List FibrePart) (bars : List Bar) (ms : ℝ) {m : ℝ} (h0 : 0 < m) (h1 : m ≤ 1) :
    triangulate ((fun a => if a = 0 then parts.map fun p => p.mesh.surf else turned a) 0) bars m = .ok (meshData parts bars m) := by
  simp only [if_true, triangulate, if_neg (show ¬ (m ≤ 0 ∨ m > 1) by push Not; exact ⟨h0, h1⟩), meshData, List.map_map,
    Function.comp_def]

theorem fibre_lawful (turned : ℝ → List MeshSurf) (parts : List FibrePart) (bars : List Bar) (ms : ℝ) :
    (fibreSectionEngine turned parts bars ms).Lawful
      fun m => triangulate ((fun a => if a = 0 then parts.map fun p => p.mesh.surf else turned a) 0) bars m :=
  fiberEngine_lawful _ _ _ _ _

theorem meshData_ne {parts : List FibrePart} {bars : List Bar} (hid : SameIds (bars.map Bar.law)) (ms : ℝ)
    (hne : parts ≠ [] ∨ bars ≠ []) : meshData parts bars ms ≠ [] := by
  have hgb : bars ≠ [] → groupBars bars ≠ [] := by
    intro hb hg
    have := (C18_grouping Law.stress bars hid).length_eq
    rw [hg] at this
    simp [fibres] at this
    exact hb (List.length_eq_zero_iff.1 this.symm)
  unfold meshData
  rcases hne with h | h
  · simp [h]
  · simp [hgb h]

/-- The fibre integrator answers with the forces of the fibres, in every plane. -/
theorem fibre_answers (turned : ℝ → List MeshSurf) (parts : List FibrePart) (bars : List Bar) (ms : ℝ) {D : List Group} (hD : D ≠ [])
    (th chi : ℝ) : (fibreSectionEngine turned parts bars ms).AnswersAt D (fibreSection D) th chi := by
  intro e m
  have h := C18_forces ((fun a => if a = 0 then parts.map fun p => p.mesh.surf else turned a) (-th)) (bars.map (Bar.rotate (-th)))
    (D.map (rotGroup (-th))) (by simpa using hD) ![e, chi, 0] m
  refine ⟨_, h, ?_⟩
  have hv : rotPt th (chi, 0) = (chi * Real.cos th, chi * Real.sin th) := by
    simp only [rotPt, Prod.mk.injEq]; constructor <;> ring
  have h2 := resultants_rot (fibres Law.stress D) th e chi 0
  rw [← fibres_rot, hv] at h2
  simp only [fibreSection_forces]
  exact h2

/-- Fibres and section differ by at most the mesh error (C57). -/
theorem fibre_error (parts : List FibrePart) (bars : List Bar) (hid : SameIds (bars.map Bar.law)) (ms : ℝ) (hms : 0 < ms)
    (e : Fin 3 → ℝ) (h : ∀ p ∈ parts, p.mesh.Good e ms) (i : Fin 3) :
    |(meshedSection parts bars).forces e i - (fibreSection (meshData parts bars ms)).forces e i| ≤ meshError parts ms e i := by
  rw [fibreSection_forces, meshData, (C18_additive _ _ e).1, resultants_perm (C18_grouping Law.stress bars hid)]
  have hf : fibres Law.stress (parts.map fun p => (⟨(p.mesh.surf.mesh (p.mesh.surf.area * ms)).map triFibre, p.mesh.surf.law⟩ : Group)) =
      parts.flatMap fun p => fibres Law.stress [⟨(p.mesh.surf.mesh (p.mesh.surf.area * ms)).map triFibre, p.mesh.surf.law⟩] := by
    simp only [fibres, List.flatMap_map, List.flatMap_cons, List.flatMap_nil, List.append_nil]
  have hr : resultants (fibres Law.stress (parts.map fun p =>
      (⟨(p.mesh.surf.mesh (p.mesh.surf.area * ms)).map triFibre, p.mesh.surf.law⟩ : Group))) e i =
      (parts.map fun p => resultants (fibres Law.stress
        [⟨(p.mesh.surf.mesh (p.mesh.surf.area * ms)).map triFibre, p.mesh.surf.law⟩]) e i).sum := by
    rw [hf]
    clear hf h
    induction parts with
    | nil => simp [resultants]
    | cons p l ih =>
      simp only [List.flatMap_cons, List.map_cons, List.sum_cons, ← ih]
      simp only [resultants, List.map_append, List.sum_append]
  have hS : (meshedSection parts bars).forces e i = (parts.map fun p => regionResultants p.mesh.region p.mesh.surf.law.law.stress e i).sum +
      resultants (bars.map (Bar.fibre Law.stress)) e i := by
    simp only [meshedSection, CrossSection.forces, crossSection, List.map_map, Function.comp_def, Pi.add_apply, list_sum_apply,
      FibrePart.solid]
  rw [hS, Pi.add_apply, hr, add_sub_add_right_eq_sub]
  refine (list_abs_sum_sub parts _ _ (fun p => 2 / 3 * √(e 1 ^ 2 + e 2 ^ 2) *
    (p.mesh.slope * √(8 * p.mesh.surf.area * ms) * ∫ x in p.mesh.region, |lever x.1 x.2 i|)) fun p hp => ?_).trans_eq ?_
  · rw [abs_sub_comm]
    exact part_error p.mesh e ms (h p hp) hms i
  · rw [meshError, ← List.sum_map_mul_left]

/-- **C71** (strength; partial as C66: the limits of the other materials and the countable set of loads).  A bending strength
returned with the fibre integrator belongs to a plane with the requested inclination at a limit strain and beyond none; the axial
force and the moments of the section in that plane differ from the returned ones by at most the mesh error of C57, and the returned
axial force from the load by at most 0.01. -/
theorem C71_strength_partial (turned : ℝ → List MeshSurf) (parts : List FibrePart) (bars : List Bar) (ms th : ℝ) (hms : 0 < ms)
    (hms1 : ms ≤ 1) (lu : Matrix (Fin 3) (Fin 3) ℝ → (Fin 3 → ℝ) → (Fin 3 → ℝ))
    (hid : SameIds (bars.map Bar.law)) (hne : parts ≠ [] ∨ bars ≠ []) (hext : ∀ p ∈ parts, p.polygon.ext ≠ [])
    (hgood : ∀ e, (meshedSection parts bars).Admissible e → ∀ p ∈ parts, p.mesh.Good e ms)
    (hlim : ∀ c ∈ (meshedSection parts bars).corners, c.2.1 ≤ 0 ∧ 0 ≤ c.2.2)
    (hflat : ∀ c ∈ (meshedSection parts bars).corners, ∀ d ∈ (meshedSection parts bars).corners,
      1e-13 * (height th d.1 - height th c.1) ≤ c.2.2 - d.2.1)
    {yn yp : ℝ} {st : Fin 3 → ℝ} (hbal : (fibreSectionEngine turned parts bars ms).balanced (-th) false = .ok (yn, yp, st))
    (hgov : ∀ c ∈ (meshedSection parts bars).corners, planeStrain st 0 yp ≤ c.2.2 ∧ c.2.1 ≤ planeStrain st 0 yn) :
    ∃ C : Set ℝ, C.Countable ∧ ∀ (n : ℝ) (ops : List Op) (b : BendingResult), (ops = [] ∨ ms = defaultMesh) →
      Undisturbed (fibreSectionEngine turned parts bars ms) lu ops .fresh →
      (bendingStrength (fibreSectionEngine turned parts bars ms) th n
        (history (fibreSectionEngine turned parts bars ms) lu ops .fresh)).2 = .ok b →
      (∃ c < 0, b.chi = (c * Real.cos th, c * Real.sin th)) ∧
      (∀ i, |(meshedSection parts bars).forces ![b.eps_a, b.chi.1, b.chi.2] i - ![b.n, b.m.1, b.m.2] i| ≤
        meshError parts ms ![b.eps_a, b.chi.1, b.chi.2] i) ∧
      (meshedSection parts bars).AtLimit ![b.eps_a, b.chi.1, b.chi.2] ∧
      (meshedSection parts bars).Admissible ![b.eps_a, b.chi.1, b.chi.2] ∧
      (n ∉ C →
        (meshedSection parts bars).forces (planeThrough th yn (planeStrain st 0 yn) (-1e-13)) 0 +
          meshError parts ms (planeThrough th yn (planeStrain st 0 yn) (-1e-13)) 0 < n →
        n < (meshedSection parts bars).forces (planeThrough th yp (planeStrain st 0 yp) (-1e-13)) 0 -
          meshError parts ms (planeThrough th yp (planeStrain st 0 yp) (-1e-13)) 0 →
        |b.n - n| ≤ 1e-2) := by
  have hE : (fibreSectionEngine turned parts bars ms).Lawful
      fun m => triangulate ((fun a => if a = 0 then parts.map fun p => p.mesh.surf else turned a) 0) bars m :=
    fiberEngine_lawful _ _ _ _ _
  have hD := meshData_base turned parts bars ms hms hms1
  have hext' : ∀ s ∈ parts.map FibrePart.solid, s.spec.surf.polygon.ext ≠ [] := by
    intro s hs
    obtain ⟨p, hp, rfl⟩ := List.mem_map.1 hs
    exact hext p hp
  have hany : (fibreSectionEngine turned parts bars ms).balanced (-th) false =
      balancedFailure (sectionParts (parts.map FibrePart.solid) bars (-th)) (parts.any FibrePart.concrete) false := rfl
  obtain ⟨C, hC, h⟩ := strength_generic hE hD (fun chi _ => fibre_answers turned parts bars ms (meshData_ne hid ms hne) th chi)
    (solids := parts.map FibrePart.solid) (bars := bars) hany hext' hlim hflat hbal
  refine ⟨C, hC, fun n ops b hops hun hrun => ?_⟩
  have hcan : Canonical (fibreSectionEngine turned parts bars ms) (fun m => triangulate
      ((fun a => if a = 0 then parts.map fun p => p.mesh.surf else turned a) 0) bars m)
      (history (fibreSectionEngine turned parts bars ms) lu ops .fresh) := by
    rcases hops with rfl | hm
    · exact .fresh
    · refine canonical_history lu hE ?_ ops _ .fresh hun
      rw [← hm]
      rfl
  obtain ⟨h1, h2, h3, h4, h5⟩ := h n _ b hcan hrun
  have hadm := h4 hgov
  have hsteep := steep_balanced hext' hlim hflat (hany.symm.trans hbal)
  have hend : ∀ y0, y0 = yp ∨ y0 = yn →
      (meshedSection parts bars).Admissible (planeThrough th y0 (planeStrain st 0 y0) (-1e-13)) :=
    fun y0 hy0 => search_admissible hext' hlim (hany.symm.trans hbal) hgov hy0 hsteep (by norm_num)
  refine ⟨h1, fun i => ?_, h3, hadm, fun hn hlow hhigh => h5 hn ?_ ?_⟩
  · rw [← h2]
    exact fibre_error parts bars hid ms hms _ (hgood _ hadm) i
  · have := (abs_le.1 (fibre_error parts bars hid ms hms _ (hgood _ (hend yn (Or.inr rfl))) 0)).1
    linarith
  · have := (abs_le.1 (fibre_error parts bars hid ms hms _ (hgood _ (hend yp (Or.inl rfl))) 0)).2
    linarith

/-- **C71** (moment-curvature, given curvatures; partial as C70).  For all but countably many loads every point returned with the
fibre integrator has the requested curvature, and in every plane in which the laws have the given slopes its moments differ from
those of the section by at most the mesh error, and the axial force of the section from the load by at most the mesh error and
0.01, unless the search on the fibres was driven away. -/
theorem C71_curvature_partial (turned : ℝ → List MeshSurf) (parts : List FibrePart) (bars : List Bar) (ms th : ℝ) (hms : 0 < ms)
    (hms1 : ms ≤ 1) (lu : Matrix (Fin 3) (Fin 3) ℝ → (Fin 3 → ℝ) → (Fin 3 → ℝ))
    (hid : SameIds (bars.map Bar.law)) (hne : parts ≠ [] ∨ bars ≠ []) (hmd : ms = defaultMesh) (chis : List ℝ) :
    ∃ C : Set ℝ, C.Countable ∧ ∀ n ∉ C, ∀ (c : ℝ) (a b : ℕ) (ops : List Op) (pts : List MCPoint),
      Undisturbed (fibreSectionEngine turned parts bars ms) lu ops .fresh →
      (momentCurvature (fibreSectionEngine turned parts bars ms) th n c a b (some chis)
        (history (fibreSectionEngine turned parts bars ms) lu ops .fresh)).2 = .ok pts →
      pts.map (fun p => p.2.2) = chis.map (fun c => (c * Real.cos th, c * Real.sin th)) ∧
      (∀ p ∈ pts, (∀ q ∈ parts, q.mesh.Good p.plane ms) →
        |(meshedSection parts bars).forces p.plane 1 - p.2.1.1| ≤ meshError parts ms p.plane 1 ∧
        |(meshedSection parts bars).forces p.plane 2 - p.2.1.2| ≤ meshError parts ms p.plane 2) ∧
      ∀ q ∈ (0 :: pts.map Prod.fst).zip pts, (∀ r ∈ parts, r.mesh.Good q.2.plane ms) →
        |(meshedSection parts bars).forces q.2.plane 0 - n| ≤ 1e-2 + meshError parts ms q.2.plane 0 ∨
        DrivenAway (fibreSection (meshData parts bars ms)) n q.2 q.1 := by
  have hE : (fibreSectionEngine turned parts bars ms).Lawful
      fun m => triangulate ((fun a => if a = 0 then parts.map fun p => p.mesh.surf else turned a) 0) bars m :=
    fiberEngine_lawful _ _ _ _ _
  obtain ⟨C, hC, h⟩ := C70_given_partial hE (by rw [← hmd]; rfl) (meshData_base turned parts bars ms hms hms1) lu (th := th) chis
    (fun c _ => fibre_answers turned parts bars ms (meshData_ne hid ms hne) th c)
  refine ⟨C, hC, fun n hn c a b ops pts hops hrun => ?_⟩
  obtain ⟨h1, h2, h3⟩ := h n hn c a b ops pts hops hrun
  refine ⟨h1, fun p hp hg => ?_, fun q hq hg => ?_⟩
  · have := h2 p hp
    rw [← this]
    exact ⟨fibre_error parts bars hid ms hms _ hg 1, fibre_error parts bars hid ms hms _ hg 2⟩
  · rcases h3 q hq with h | h
    · left
      have := fibre_error parts bars hid ms hms _ hg 0
      rw [abs_le] at this h ⊢
      constructor <;> linarith [this.1, this.2, h.1, h.2]
    · exact Or.inr h

/-- The axial force of the fibres in planes through one point. -/
theorem fibres_lipschitz {L th y0 v c c' : ℝ} (fs : List Fibre)
    (h : ∀ f ∈ fs, |f.resp (planeStrain (planeThrough th y0 v c) f.y f.z) - f.resp (planeStrain (planeThrough th y0 v c') f.y f.z)| ≤
      L * |planeStrain (planeThrough th y0 v c) f.y f.z - planeStrain (planeThrough th y0 v c') f.y f.z|) :
    |resultants fs (planeThrough th y0 v c) 0 - resultants fs (planeThrough th y0 v c') 0| ≤
      (fs.map fun f => L * |f.A| * |height th (f.y, f.z) - y0|).sum * |c - c'| := by
  have hr : ∀ e, resultants fs e 0 = (fs.map fun f => f.A * f.resp (planeStrain e f.y f.z)).sum := by
    intro e
    simp only [resultants, lever, Matrix.cons_val, mul_one]
  rw [hr, hr, ← list_sum_mul_const]
  refine list_abs_sum_sub _ _ _ _ fun f hf => ?_
  rw [← mul_sub, abs_mul]
  refine (mul_le_mul_of_nonneg_left (h f hf) (abs_nonneg _)).trans_eq ?_
  have e1 := planeThrough_height th y0 v c (f.y, f.z)
  have e2 := planeThrough_height th y0 v c' (f.y, f.z)
  simp only at e1 e2
  rw [e1, e2]
  have : v + c * (height th (f.y, f.z) - y0) - (v + c' * (height th (f.y, f.z) - y0)) =
    (c - c') * (height th (f.y, f.z) - y0) := by ring
  rw [this, abs_mul]
  ring

/-- Total area of the fibres of a mesh. -/
theorem mesh_area {mesh : List ((ℝ × ℝ) × (ℝ × ℝ) × (ℝ × ℝ))} {R : Set (ℝ × ℝ)} (mR : MeasurableSet R) (h : Triangulates mesh R) :
    (mesh.map fun t => (triFibre t).2.2).sum = areaMoment 0 0 R := by
  have c := covers_integral h.covers mR (by
    intro T hT
    obtain ⟨t, -, rfl⟩ := List.mem_map.1 hT
    exact triangle_measurable _ _ _) (fun _ => (1:ℝ)) (by
    intro T hT
    obtain ⟨t, -, rfl⟩ := List.mem_map.1 hT
    exact continuous_integrableOn continuous_const (triangle_bounded _ _ _))
  rw [List.map_map] at c
  simp only [areaMoment, pow_zero, mul_one]
  rw [← c]
  congr 1
  refine List.map_congr_left fun t ht => ?_
  have := fibre_constant t (h.proper t ht) 1 0
  simpa [lever] using this

/-- A search for the fixed pivot returns when the force is Lipschitz along the admissible planes. -/
theorem returns_generic {E : Engine} {base : ℝ → Except PyErr (List Group)} (hE : E.Lawful base) {D : List Group}
    (hD : base E.meshSize = .ok D) {S : CrossSection} {th n : ℝ} (hA : E.Answers D S th) {s : CalcState} (hs : Canonical E base s)
    {solids : List Solid} {bars : List Bar}
    (hany : E.balanced (-th) false = balancedFailure (sectionParts solids bars (-th)) (solids.any Solid.concrete) false)
    (hne : ∀ q ∈ solids, q.spec.surf.polygon.ext ≠ [])
    (hlim : ∀ c ∈ (crossSection solids bars).corners, c.2.1 ≤ 0 ∧ 0 ≤ c.2.2)
    (hflat : ∀ c ∈ (crossSection solids bars).corners, ∀ d ∈ (crossSection solids bars).corners,
      1e-13 * (height th d.1 - height th c.1) ≤ c.2.2 - d.2.1)
    {yn yp : ℝ} {st : Fin 3 → ℝ} (hbal : E.balanced (-th) false = .ok (yn, yp, st))
    (hgov : ∀ c ∈ (crossSection solids bars).corners, planeStrain st 0 yp ≤ c.2.2 ∧ c.2.1 ≤ planeStrain st 0 yn)
    {slope : ℝ → ℝ} (hstiff : ∀ y, y = yp ∨ y = yn → slope y * |-1e-13 - st 1| ≤ 2 ^ 99 * 1e-2)
    (hslope : ∀ y, y = yp ∨ y = yn → ∀ v c c', c < 0 → c' < 0 → (crossSection solids bars).Admissible (planeThrough th y v c) →
      (crossSection solids bars).Admissible (planeThrough th y v c') →
      |S.forces (planeThrough th y v c) 0 - S.forces (planeThrough th y v c') 0| ≤ slope y * |c - c'|)
    (hcheck : (checkAxialLoad E n .fresh).2 = .ok ())
    (hlow : S.forces (planeThrough th yn (planeStrain st 0 yn) (-1e-13)) 0 < n)
    (hhigh : n < S.forces (planeThrough th yp (planeStrain st 0 yp) (-1e-13)) 0) :
    ∃ b, (bendingStrength E th n s).2 = .ok b := by
  have hb := hany.symm.trans hbal
  have hsteep := steep_balanced hne hlim hflat hb
  have hln : ∀ g ∈ sectionParts solids bars (-th), compressionLimit false (solids.any Solid.concrete) g ≤ 0 := by
    intro g hg'
    obtain ⟨c, hc, -, h2⟩ := (part_corner hne hg').1
    rw [compressionLimit_ultimate, ← h2]
    exact (hlim c hc).1
  have hlp : ∀ g ∈ sectionParts solids bars (-th), 0 ≤ tensionLimit false g := by
    intro g hg'
    obtain ⟨c, hc, -, h2⟩ := (part_corner hne hg').1
    rw [tensionLimit, ← h2]
    exact (hlim c hc).2
  have hst2 := (C22_balanced _ _ _ hln hlp _ _ _ hb).2.2.2
  have hpl : ∀ x y, planeStrain st x y = st 0 + st 1 * y := by intro x y; simp [planeStrain, hst2]
  have hneg : st 1 < 0 := by linarith [show (0:ℝ) < 1e-13 by norm_num]
  have hadm : ∀ y, y = yp ∨ y = yn → ∀ chi, st 1 ≤ chi → chi ≤ 0 →
      (crossSection solids bars).Admissible (planeThrough th y (planeStrain st 0 y) chi) :=
    fun y hy chi h1 h2 => search_admissible hne hlim hb hgov hy h1 h2
  have hN : ∀ y chi, S.forces ![st 0 + st 1 * y - chi * y, chi * Real.cos th, chi * Real.sin th] 0 =
        S.forces (planeThrough th y (planeStrain st 0 y) chi) 0 := by
    intro y chi
    rw [hpl]
    rfl
  have hpos : (0:ℝ) < 1e-13 := by norm_num
  have hrange : ∀ t ∈ Set.Icc (0:ℝ) 1, st 1 ≤ st 1 + t * (-1e-13 - st 1) ∧ st 1 + t * (-1e-13 - st 1) ≤ -1e-13 := by
    rintro t ⟨t0, t1⟩
    have h1 : 0 ≤ t * (-1e-13 - st 1) := mul_nonneg t0 (by linarith)
    have h2 : t * (-1e-13 - st 1) ≤ 1 * (-1e-13 - st 1) := mul_le_mul_of_nonneg_right t1 (by linarith)
    constructor <;> linarith
  obtain ⟨e, c, k, hrun⟩ := fixedPivotFrom_returns
    (fun e c => S.forces ![e, c * Real.cos th, c * Real.sin th] 0) n yn yp st (by
      intro y hy
      refine ⟨slope y, hstiff y hy, fun t u ht hu => ?_⟩
      obtain ⟨a1, a2⟩ := hrange t ht
      obtain ⟨b1, b2⟩ := hrange u hu
      rw [hN, hN]
      refine (hslope y hy _ _ _ (by linarith) (by linarith) (hadm y hy _ a1 (by linarith))
        (hadm y hy _ b1 (by linarith))).trans_eq ?_
      have : st 1 + t * (-1e-13 - st 1) - (st 1 + u * (-1e-13 - st 1)) = (t - u) * (-1e-13 - st 1) := by ring
      rw [this, abs_mul]
      ring)
    (by
      rw [hN]
      exact hlow)
    (by
      rw [hN]
      exact hhigh)
  have hc0 : c < 0 := by
    obtain ⟨-, hcase⟩ := fixedPivotFrom_spec _ n yn yp st e c 0 k hrun
    rcases hcase with ⟨-, rfl, -⟩ | ⟨y, -, -, ⟨t, ht, rfl⟩, -⟩
    · exact hneg
    · have := (hrange t ht.mem_Icc).2
      linarith
  have hcheck' : (checkAxialLoad E n s).2 = .ok () := by
    have h1 := (limits_canonical hE hs).1
    have h2 := (limits_canonical hE (.fresh : Canonical E _ .fresh)).1
    simp only [checkAxialLoad, CalcM.bind_def] at hcheck ⊢
    rcases hl : limits E s with ⟨s', r⟩
    rcases hl' : limits E .fresh with ⟨s'', r'⟩
    rw [hl] at h1
    rw [hl'] at h2 hcheck
    simp only at h1 h2
    rw [← h2] at h1
    subst h1
    cases r with
    | error er => simp at hcheck
    | ok l =>
      simp only at hcheck ⊢
      split_ifs at hcheck ⊢ with hc
      · simp [liftE] at hcheck
      · simp [CalcM.pure_def]
  exact bending_returns hE hD hA hs hbal hneg hst2 hcheck' hc0 hrun

/-- The mesh of a part is good, whatever the strain plane. -/
structure FibrePart.Meshed (p : FibrePart) (ms : ℝ) : Prop where
  measurable : MeasurableSet p.mesh.region
  area : p.mesh.surf.area = areaMoment 0 0 p.mesh.region
  mesh : Triangulates (p.mesh.surf.mesh (p.mesh.surf.area * ms)) p.mesh.region
  quality : Quality (p.mesh.surf.area * ms) (p.mesh.surf.mesh (p.mesh.surf.area * ms))
  law : Measurable p.mesh.surf.law.law.stress
  slope_nonneg : 0 ≤ p.mesh.slope
  inHull : p.mesh.region ⊆ convexHull ℝ {v | v ∈ p.polygon.ext}

/-- The law of a part has the slope of the part between the limit strains. -/
def FibrePart.Lipschitz (p : FibrePart) : Prop :=
  ∀ x ∈ Set.Icc (p.mesh.surf.law.law.ult false).1 (p.mesh.surf.law.law.ult false).2,
    ∀ y ∈ Set.Icc (p.mesh.surf.law.law.ult false).1 (p.mesh.surf.law.law.ult false).2,
      |p.mesh.surf.law.law.stress x - p.mesh.surf.law.law.stress y| ≤ p.mesh.slope * |x - y|

theorem admissible_part {parts : List FibrePart} {bars : List Bar} {e : Fin 3 → ℝ} (ha : (meshedSection parts bars).Admissible e)
    {p : FibrePart} (hp : p ∈ parts) {ms : ℝ} (hm : p.Meshed ms) {x : ℝ × ℝ} (hx : x ∈ p.mesh.region) :
    planeStrain e x.1 x.2 ∈ Set.Icc (p.mesh.surf.law.law.ult false).1 (p.mesh.surf.law.law.ult false).2 := by
  have q : (⟨p.mesh.region, p.polygon.ext, p.mesh.surf.law.law.stress, (p.mesh.surf.law.law.ult false).1,
      (p.mesh.surf.law.law.ult false).2⟩ : Plate) ∈ (meshedSection parts bars).plates := by
    simp only [meshedSection, crossSection, List.map_map, List.mem_map]
    exact ⟨p, hp, rfl⟩
  exact ha.1 _ q x (hm.inHull hx)

/-- In every admissible plane the assumptions of C57 hold. -/
theorem meshed_good {parts : List FibrePart} {bars : List Bar} {ms : ℝ} (hm : ∀ p ∈ parts, p.Meshed ms)
    (hL : ∀ p ∈ parts, p.Lipschitz) {e : Fin 3 → ℝ} (ha : (meshedSection parts bars).Admissible e) :
    ∀ p ∈ parts, p.mesh.Good e ms := fun p hp =>
  ⟨(hm p hp).measurable, (hm p hp).area, (hm p hp).mesh, (hm p hp).quality, (hm p hp).law, (hm p hp).slope_nonneg,
    fun _ hx _ hy => hL p hp _ (admissible_part ha hp (hm p hp) hx) _ (admissible_part ha hp (hm p hp) hy)⟩

/-- Under a uniform strain as well, for any law. -/
theorem meshed_uniform {parts : List FibrePart} {ms : ℝ} (hm : ∀ p ∈ parts, p.Meshed ms) (e : ℝ) :
    ∀ p ∈ parts, p.mesh.Good ![e, 0, 0] ms := fun p hp =>
  ⟨(hm p hp).measurable, (hm p hp).area, (hm p hp).mesh, (hm p hp).quality, (hm p hp).law, (hm p hp).slope_nonneg,
    fun _ _ _ _ => by simp [planeStrain]⟩

/-- **C71** (limit axial loads). `n_min` and `n_max` of the fibre integrator are exactly the axial forces of the section under the
two uniform limit strains of the balanced failure: under a uniform strain there is no mesh error. -/
theorem C71_limits (turned : ℝ → List MeshSurf) (parts : List FibrePart) (bars : List Bar) (ms : ℝ) (hms : 0 < ms) (hms1 : ms ≤ 1)
    (hid : SameIds (bars.map Bar.law)) (hne : parts ≠ [] ∨ bars ≠ []) (hm : ∀ p ∈ parts, p.Meshed ms)
    {yn yp : ℝ} {st : Fin 3 → ℝ} (hbal : (fibreSectionEngine turned parts bars ms).balanced 0 false = .ok (yn, yp, st)) :
    (limits (fibreSectionEngine turned parts bars ms) .fresh).2 =
      .ok ((meshedSection parts bars).forces ![st 0 + st 1 * yn, 0, 0] 0,
        (meshedSection parts bars).forces ![st 0 + st 1 * yp, 0, 0] 0) := by
  have hE : (fibreSectionEngine turned parts bars ms).Lawful
      fun m => triangulate ((fun a => if a = 0 then parts.map fun p => p.mesh.surf else turned a) 0) bars m :=
    fiberEngine_lawful _ _ _ _ _
  have hD := meshData_base turned parts bars ms hms hms1
  have hDne := meshData_ne hid ms hne
  have hforce : ∀ e, (meshedSection parts bars).forces ![e, 0, 0] 0 = (fibreSection (meshData parts bars ms)).forces ![e, 0, 0] 0 := by
    intro e
    have := fibre_error parts bars hid ms hms ![e, 0, 0] (meshed_uniform hm e) 0
    have h0 : meshError parts ms ![e, 0, 0] 0 = 0 := by simp [meshError]
    rw [h0] at this
    linarith [abs_nonpos_iff.1 this]
  have hint : ∀ e m, ∃ F, (fibreSectionEngine turned parts bars ms).integ 0 ![e, 0, 0] .stress (some (meshData parts bars ms)) m =
      .ok (.forces F, meshData parts bars ms) ∧ F 0 = (meshedSection parts bars).forces ![e, 0, 0] 0 := by
    intro e m
    have h := C18_forces ((fun a => if a = 0 then parts.map fun p => p.mesh.surf else turned a) 0) (bars.map (Bar.rotate 0))
      (meshData parts bars ms) hDne ![e, 0, 0] m
    refine ⟨_, h, ?_⟩
    rw [hforce, fibreSection_forces]
  have hfirst : ∀ e, (fibreSectionEngine turned parts bars ms).integ 0 e .stress none ms =
      (fibreSectionEngine turned parts bars ms).integ 0 e .stress (some (meshData parts bars ms)) ms := by
    intro e
    rw [hE.first, hD]
  have hlim : ∃ s, limitAxialLoad (fibreSectionEngine turned parts bars ms) .fresh =
      (s, .ok ((meshedSection parts bars).forces ![st 0 + st 1 * yn, 0, 0] 0,
        (meshedSection parts bars).forces ![st 0 + st 1 * yp, 0, 0] 0)) := by
    obtain ⟨F1, h1, h1'⟩ := hint (st 0 + st 1 * yn) ms
    obtain ⟨F2, h2, h2'⟩ := hint (st 0 + st 1 * yp) defaultMesh
    simp only [limitAxialLoad, hbal, CalcState.fresh]
    rw [show (fibreSectionEngine turned parts bars ms).meshSize = ms from rfl, hfirst, h1]
    simp only
    rw [h2]
    simp only [Response.N, h1', h2']
    exact ⟨_, rfl⟩
  obtain ⟨s, hl⟩ := hlim
  have h2 : (CalcState.fresh).lim = none := rfl
  simp only [limits, h2, hl]

/-- Bound for the change of the axial force of the fibres per unit change of curvature: `L` bounds the moduli, `d` the distances
from the pivot. -/
theorem fibre_force_lipschitz {parts : List FibrePart} {bars : List Bar} {ms : ℝ} (hid : SameIds (bars.map Bar.law))
    (hm : ∀ p ∈ parts, p.Meshed ms) (hL : ∀ p ∈ parts, p.Lipschitz) {L : ℝ} (hL0 : 0 ≤ L) (hLp : ∀ p ∈ parts, p.mesh.slope ≤ L)
    (hK : ∀ b ∈ bars, ∀ x ∈ Set.Icc (b.law.law.ult false).1 (b.law.law.ult false).2,
      ∀ y ∈ Set.Icc (b.law.law.ult false).1 (b.law.law.ult false).2, |b.law.law.stress x - b.law.law.stress y| ≤ L * |x - y|)
    {th y0 d : ℝ} (hd : ∀ p ∈ parts, ∀ x ∈ p.mesh.region, |height th x - y0| ≤ d)
    (hdb : ∀ b ∈ bars, |height th (b.x, b.y) - y0| ≤ d) {v c c' : ℝ}
    (ha : (meshedSection parts bars).Admissible (planeThrough th y0 v c))
    (ha' : (meshedSection parts bars).Admissible (planeThrough th y0 v c')) :
    |(fibreSection (meshData parts bars ms)).forces (planeThrough th y0 v c) 0 -
      (fibreSection (meshData parts bars ms)).forces (planeThrough th y0 v c') 0| ≤
      L * d * ((parts.map fun p => areaMoment 0 0 p.mesh.region).sum + (bars.map fun b => |b.area|).sum) * |c - c'| := by
  have hmem : ∀ p ∈ parts, ∀ t ∈ p.mesh.surf.mesh (p.mesh.surf.area * ms),
      ((triFibre t).1, (triFibre t).2.1) ∈ p.mesh.region := fun p hp t ht =>
    (hm p hp).mesh.inside t ht (centroid_mem t.1 t.2.1 t.2.2)
  have hf : ∀ e, (fibreSection (meshData parts bars ms)).forces e 0 =
      resultants (parts.flatMap fun p => (p.mesh.surf.mesh (p.mesh.surf.area * ms)).map fun t =>
        (⟨(triFibre t).1, (triFibre t).2.1, (triFibre t).2.2, p.mesh.surf.law.law.stress⟩ : Fibre)) e 0 +
      resultants (bars.map (Bar.fibre Law.stress)) e 0 := by
    intro e
    rw [fibreSection_forces, meshData, (C18_additive _ _ e).1, resultants_perm (C18_grouping Law.stress bars hid), Pi.add_apply]
    simp only [fibres, List.flatMap_map, List.map_map, Function.comp_def]
  rw [hf, hf]
  have h1 := fibres_lipschitz (L := L) (th := th) (y0 := y0) (v := v) (c := c) (c' := c')
    (parts.flatMap fun p => (p.mesh.surf.mesh (p.mesh.surf.area * ms)).map fun t =>
        (⟨(triFibre t).1, (triFibre t).2.1, (triFibre t).2.2, p.mesh.surf.law.law.stress⟩ : Fibre)) (by
    intro f hf
    obtain ⟨p, hp, hf⟩ := List.mem_flatMap.1 hf
    obtain ⟨t, ht, rfl⟩ := List.mem_map.1 hf
    exact (hL p hp _ (admissible_part ha hp (hm p hp) (hmem p hp t ht)) _ (admissible_part ha' hp (hm p hp) (hmem p hp t ht))).trans
      (mul_le_mul_of_nonneg_right (hLp p hp) (abs_nonneg _)))
  have h2 := fibres_lipschitz (L := L) (th := th) (y0 := y0) (v := v) (c := c) (c' := c') (bars.map (Bar.fibre Law.stress)) (by
    intro f hf
    obtain ⟨b, hb, rfl⟩ := List.mem_map.1 hf
    have q : (⟨b.fibre Law.stress, (b.law.law.ult false).1, (b.law.law.ult false).2⟩ : Rod) ∈ (meshedSection parts bars).rods := by
      simp only [meshedSection, crossSection, List.mem_map]
      exact ⟨b, hb, rfl⟩
    exact hK b hb _ (ha.2 _ q) _ (ha'.2 _ q))
  have s1 : ((parts.flatMap fun p => (p.mesh.surf.mesh (p.mesh.surf.area * ms)).map fun t =>
        (⟨(triFibre t).1, (triFibre t).2.1, (triFibre t).2.2, p.mesh.surf.law.law.stress⟩ : Fibre)).map
        fun f => L * |f.A| * |height th (f.y, f.z) - y0|).sum ≤ L * d * (parts.map fun p => areaMoment 0 0 p.mesh.region).sum := by
    rw [← List.sum_map_mul_left]
    clear h1 hf ha ha' h2
    induction parts with
    | nil => simp
    | cons p l ih =>
      simp only [List.flatMap_cons, List.map_append, List.sum_append, List.map_cons, List.sum_cons]
      refine add_le_add ?_ (ih (fun q hq => hm q (by simp [hq])) (fun q hq => hL q (by simp [hq])) (fun q hq => hLp q (by simp [hq]))
        (fun q hq => hd q (by simp [hq])) (fun q hq => hmem q (by simp [hq])))
      rw [← mesh_area (hm p (by simp)).measurable (hm p (by simp)).mesh, ← List.sum_map_mul_left, List.map_map]
      refine List.sum_le_sum fun t ht => ?_
      have h0 : 0 ≤ (triFibre t).2.2 := by simp only [triFibre]; positivity
      have h1 := hd p (by simp) _ (hmem p (by simp) t ht)
      simp only [Function.comp_def]
      rw [abs_of_nonneg h0]
      calc L * (triFibre t).2.2 * |height th ((triFibre t).1, (triFibre t).2.1) - y0| ≤ L * (triFibre t).2.2 * d :=
            mul_le_mul_of_nonneg_left h1 (mul_nonneg hL0 h0)
        _ = L * d * (triFibre t).2.2 := by ring
  have s2 : ((bars.map (Bar.fibre Law.stress)).map fun f => L * |f.A| * |height th (f.y, f.z) - y0|).sum ≤
      L * d * (bars.map fun b => |b.area|).sum := by
    rw [← List.sum_map_mul_left, List.map_map]
    refine List.sum_le_sum fun b hb => ?_
    have h1 := hdb b hb
    simp only [Function.comp_def, Bar.fibre]
    calc L * |b.area| * |height th (b.x, b.y) - y0| ≤ L * |b.area| * d :=
            mul_le_mul_of_nonneg_left h1 (mul_nonneg hL0 (abs_nonneg _))
        _ = L * d * |b.area| := by ring
  have e : ∀ a b a' b' : ℝ, a + b - (a' + b') = (a - a') + (b - b') := by intros; ring
  rw [e]
  refine (abs_add_le _ _).trans ((add_le_add h1 h2).trans ?_)
  rw [← add_mul]
  refine mul_le_mul_of_nonneg_right ?_ (abs_nonneg _)
  rw [mul_add]
  exact add_le_add s1 s2

/-- **C71** (the calculation returns).  If the load lies strictly between the axial forces of the section in the two nearly uniform
limit planes by more than their mesh error, and the load is accepted, the strength is returned. -/
theorem C71_returns (turned : ℝ → List MeshSurf) (parts : List FibrePart) (bars : List Bar) (ms th n : ℝ) (hms : 0 < ms)
    (hms1 : ms ≤ 1) (lu : Matrix (Fin 3) (Fin 3) ℝ → (Fin 3 → ℝ) → (Fin 3 → ℝ)) (ops : List Op)
    (hops : ops = [] ∨ ms = defaultMesh)
    (hun : Undisturbed (fibreSectionEngine turned parts bars ms) lu ops .fresh)
    (hid : SameIds (bars.map Bar.law)) (hne : parts ≠ [] ∨ bars ≠ []) (hext : ∀ p ∈ parts, p.polygon.ext ≠ [])
    (hm : ∀ p ∈ parts, p.Meshed ms) (hL : ∀ p ∈ parts, p.Lipschitz)
    (hlim : ∀ c ∈ (meshedSection parts bars).corners, c.2.1 ≤ 0 ∧ 0 ≤ c.2.2)
    (hflat : ∀ c ∈ (meshedSection parts bars).corners, ∀ d ∈ (meshedSection parts bars).corners,
      1e-13 * (height th d.1 - height th c.1) ≤ c.2.2 - d.2.1)
    {yn yp : ℝ} {st : Fin 3 → ℝ} (hbal : (fibreSectionEngine turned parts bars ms).balanced (-th) false = .ok (yn, yp, st))
    (hgov : ∀ c ∈ (meshedSection parts bars).corners, planeStrain st 0 yp ≤ c.2.2 ∧ c.2.1 ≤ planeStrain st 0 yn)
    {L d : ℝ} (hL0 : 0 ≤ L) (hLp : ∀ p ∈ parts, p.mesh.slope ≤ L)
    (hK : ∀ b ∈ bars, ∀ x ∈ Set.Icc (b.law.law.ult false).1 (b.law.law.ult false).2,
      ∀ y ∈ Set.Icc (b.law.law.ult false).1 (b.law.law.ult false).2, |b.law.law.stress x - b.law.law.stress y| ≤ L * |x - y|)
    (hd : ∀ y, y = yp ∨ y = yn → (∀ p ∈ parts, ∀ x ∈ p.mesh.region, |height th x - y| ≤ d) ∧
      ∀ b ∈ bars, |height th (b.x, b.y) - y| ≤ d)
    (hstiff : L * d * ((parts.map fun p => areaMoment 0 0 p.mesh.region).sum + (bars.map fun b => |b.area|).sum) * |-1e-13 - st 1| ≤
      2 ^ 99 * 1e-2)
    (hcheck : (checkAxialLoad (fibreSectionEngine turned parts bars ms) n .fresh).2 = .ok ())
    (hlow : (meshedSection parts bars).forces (planeThrough th yn (planeStrain st 0 yn) (-1e-13)) 0 +
      meshError parts ms (planeThrough th yn (planeStrain st 0 yn) (-1e-13)) 0 < n)
    (hhigh : n < (meshedSection parts bars).forces (planeThrough th yp (planeStrain st 0 yp) (-1e-13)) 0 -
      meshError parts ms (planeThrough th yp (planeStrain st 0 yp) (-1e-13)) 0) :
    ∃ b, (bendingStrength (fibreSectionEngine turned parts bars ms) th n
        (history (fibreSectionEngine turned parts bars ms) lu ops .fresh)).2 = .ok b := by
  have hE : (fibreSectionEngine turned parts bars ms).Lawful
      fun m => triangulate ((fun a => if a = 0 then parts.map fun p => p.mesh.surf else turned a) 0) bars m :=
    fiberEngine_lawful _ _ _ _ _
  have hD := meshData_base turned parts bars ms hms hms1
  have hext' : ∀ s ∈ parts.map FibrePart.solid, s.spec.surf.polygon.ext ≠ [] := by
    intro s hs
    obtain ⟨p, hp, rfl⟩ := List.mem_map.1 hs
    exact hext p hp
  have hany : (fibreSectionEngine turned parts bars ms).balanced (-th) false =
      balancedFailure (sectionParts (parts.map FibrePart.solid) bars (-th)) ((parts.map FibrePart.solid).any Solid.concrete) false := by
    have : (parts.map FibrePart.solid).any Solid.concrete = parts.any FibrePart.concrete := by
      simp only [List.any_map]; rfl
    rw [this]
    rfl
  have hcan : Canonical (fibreSectionEngine turned parts bars ms) (fun m => triangulate
      ((fun a => if a = 0 then parts.map fun p => p.mesh.surf else turned a) 0) bars m)
      (history (fibreSectionEngine turned parts bars ms) lu ops .fresh) := by
    rcases hops with rfl | hm
    · exact .fresh
    · refine canonical_history lu hE ?_ ops _ .fresh hun
      rw [← hm]
      rfl
  have hsteep := steep_balanced hext' hlim hflat (hany.symm.trans hbal)
  have hend : ∀ y0, y0 = yp ∨ y0 = yn →
      (meshedSection parts bars).Admissible (planeThrough th y0 (planeStrain st 0 y0) (-1e-13)) :=
    fun y0 hy0 => search_admissible hext' hlim (hany.symm.trans hbal) hgov hy0 hsteep (by norm_num)
  refine returns_generic hE hD (fun chi _ => fibre_answers turned parts bars ms (meshData_ne hid ms hne) th chi) hcan hany hext'
    hlim hflat hbal hgov (slope := fun _ => L * d * ((parts.map fun p => areaMoment 0 0 p.mesh.region).sum +
      (bars.map fun b => |b.area|).sum)) (fun _ _ => hstiff) ?_ hcheck ?_ ?_
  · intro y hy v c c' _ _ ha ha'
    exact fibre_force_lipschitz hid hm hL hL0 hLp hK (hd y hy).1 (hd y hy).2 ha ha'
  · have := (abs_le.1 (fibre_error parts bars hid ms hms _ (meshed_good hm hL (hend yn (Or.inr rfl))) 0)).1
    linarith
  · have := (abs_le.1 (fibre_error parts bars hid ms hms _ (meshed_good hm hL (hend yp (Or.inl rfl))) 0)).2
    linarith

end SC
