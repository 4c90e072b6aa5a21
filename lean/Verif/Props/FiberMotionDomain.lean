import Verif.Props.FiberMotionDesign
import Verif.Props.FiberDomain

/-! # C93: interaction domains of the fibre integrator for moved sections -/

set_option autoImplicit false

namespace SC

open Spec MeasureTheory MeshedConcrete

variable {lower : String → String}

theorem forces_error (m : Motion) {F f : Fin 3 → ℝ} {e : Fin 3 → ℝ} (h : ∀ i, |F i - f i| ≤ e i) (i : Fin 3) :
    |m.forces F i - m.forces f i| ≤ e 1 + e 2 + (1 + |m.shift.1| + |m.shift.2|) * e 0 := by
  have e0 := (abs_nonneg _).trans (h 0)
  have e1 := (abs_nonneg _).trans (h 1)
  have e2 := (abs_nonneg _).trans (h 2)
  have hs : |m.sign| = 1 := by unfold Motion.sign; split_ifs <;> simp
  have c1 := Real.abs_cos_le_one m.angle
  have s1 := Real.abs_sin_le_one m.angle
  have p1 : 0 ≤ |m.shift.1| * e 0 := mul_nonneg (abs_nonneg _) e0
  have p2 : 0 ≤ |m.shift.2| * e 0 := mul_nonneg (abs_nonneg _) e0
  have q : ∀ (a : ℝ) (j : Fin 3), |a| ≤ 1 → |a * (F j - f j)| ≤ e j := by
    intro a j ha
    rw [abs_mul]
    exact (mul_le_mul ha (h j) (abs_nonneg _) zero_le_one).trans_eq (one_mul _)
  have q0 : ∀ a : ℝ, |(F 0 - f 0) * a| ≤ |a| * e 0 := by
    intro a
    rw [abs_mul, mul_comm]
    exact mul_le_mul_of_nonneg_left (h 0) (abs_nonneg _)
  have cs : |Real.cos m.angle * m.sign| ≤ 1 := by rw [abs_mul, hs, mul_one]; exact c1
  have ss : |Real.sin m.angle * m.sign| ≤ 1 := by rw [abs_mul, hs, mul_one]; exact s1
  fin_cases i
  · have : |F 0 - f 0| ≤ e 0 := h 0
    simp only [Motion.forces, Fin.zero_eta, Matrix.cons_val]
    linarith
  · simp only [Motion.forces, Motion.turn, Fin.mk_one, Matrix.cons_val]
    have e : Real.cos m.angle * F 1 - Real.sin m.angle * (m.sign * F 2) + F 0 * m.shift.2 -
        (Real.cos m.angle * f 1 - Real.sin m.angle * (m.sign * f 2) + f 0 * m.shift.2) =
        Real.cos m.angle * (F 1 - f 1) - Real.sin m.angle * m.sign * (F 2 - f 2) + (F 0 - f 0) * m.shift.2 := by ring
    rw [e]
    have := (abs_add_le (Real.cos m.angle * (F 1 - f 1) - Real.sin m.angle * m.sign * (F 2 - f 2)) ((F 0 - f 0) * m.shift.2)).trans
      (add_le_add ((abs_sub _ _).trans (add_le_add (q _ 1 c1) (q _ 2 ss))) (q0 m.shift.2))
    linarith
  · simp only [Motion.forces, Motion.turn, Fin.reduceFinMk, Matrix.cons_val]
    have e : Real.sin m.angle * F 1 + Real.cos m.angle * (m.sign * F 2) - F 0 * m.shift.1 -
        (Real.sin m.angle * f 1 + Real.cos m.angle * (m.sign * f 2) - f 0 * m.shift.1) =
        Real.sin m.angle * (F 1 - f 1) + Real.cos m.angle * m.sign * (F 2 - f 2) - (F 0 - f 0) * m.shift.1 := by ring
    rw [e]
    have := (abs_sub (Real.sin m.angle * (F 1 - f 1) + Real.cos m.angle * m.sign * (F 2 - f 2)) ((F 0 - f 0) * m.shift.1)).trans
      (add_le_add ((abs_add_le _ _).trans (add_le_add (q _ 1 s1) (q _ 2 cs))) (q0 m.shift.1))
    linarith

theorem forall2_join {α β γ : Type*} {P : α → β → Prop} {Q : α → γ → Prop} {l : List α} {l1 : List β} {l2 : List γ}
    (h1 : List.Forall₂ P l l1) (h2 : List.Forall₂ Q l l2) : List.Forall₂ (fun b c => ∃ a ∈ l, P a b ∧ Q a c) l1 l2 := by
  induction h1 generalizing l2 with
  | nil => cases h2; exact .nil
  | cons h _ ih =>
    cases h2 with
    | cons h' ht =>
      refine .cons ⟨_, List.mem_cons_self, h, h'⟩ ((ih ht).imp ?_)
      rintro b c ⟨a, ha, r⟩
      exact ⟨a, List.mem_cons_of_mem _ ha, r⟩

set_option maxHeartbeats 1000000 in
/-- **C93** (N-M interaction domain; partial: as `C91_design_partial`). The domain of the fibre integrator for the moved section about the
moved axis consists, point by point, of the moved points of the domain of the section, up to the errors of the two meshes. -/
theorem C93_domain_partial (hl : PyLower lower) (ccls : ConcClass) (ca : ConcArgs) (c : Built Conc)
    (hc : newConcrete lower ccls ca = some (.ok c)) (hcn : ca.law = .name "parabolarectangle")
    (hci : ca.initialStrain = none ∧ ca.initialStress = none) (hce : ca.eps_c2 = none ∧ ca.eps_cu2 = none ∧ ca.n = none)
    (hcf : ccls ≠ .ec2_2023 → |ca.fck| ≤ 50)
    (scls : SteelClass) (sa : SteelArgs) (s : Built Steel)
    (hs : newSteel lower scls sa = some (.ok s)) (hsn : sa.law = .name "elasticperfectlyplastic")
    (hsi : sa.initialStrain = none ∧ sa.initialStress = none)
    (hgap : designYield sa + 1e-6 + 1e-5 * designUltimate scls sa ≤ designUltimate scls sa) (hey : 1e-4 ≤ designYield sa)
    (heu : 0.0035 ≤ designUltimate scls sa ∧ designUltimate scls sa ≤ 0.09)
    (split split' : Polygon → ℝ → ℝ → ShapelyResult) (turned turned' : ℝ → List MeshSurf) {ms ms' : ℝ} (hms : 0 < ms) (hms1 : ms ≤ 1)
    (hms' : 0 < ms') (hms1' : ms' ≤ 1) (th : ℝ) (lu lu' : Matrix (Fin 3) (Fin 3) ℝ → (Fin 3 → ℝ) → (Fin 3 → ℝ)) (m : Motion)
    (shapes : List (Polygon × Set (ℝ × ℝ))) (bars : List Bar) (id : ℕ) (hbars : ∀ b ∈ bars, b.law = ⟨id, s.mat.law⟩)
    (idc idc' : ℕ) (mesh mesh' : Polygon × Set (ℝ × ℝ) → ℝ → List ((ℝ × ℝ) × (ℝ × ℝ) × (ℝ × ℝ)))
    (hmesh : ∀ p ∈ shapes, Triangulates (mesh p (areaMoment 0 0 p.2 * ms)) p.2 ∧
      Quality (areaMoment 0 0 p.2 * ms) (mesh p (areaMoment 0 0 p.2 * ms)))
    (hmesh' : ∀ p ∈ shapes.map (movedShape m), Triangulates (mesh' p (areaMoment 0 0 p.2 * ms')) p.2 ∧
      Quality (areaMoment 0 0 p.2 * ms') (mesh' p (areaMoment 0 0 p.2 * ms')))
    (henc : ∀ p ∈ shapes, Encloses p.1.ext p.1.ints p.2) (hull : ∀ p ∈ shapes, p.2 ⊆ convexHull ℝ {v | v ∈ p.1.ext})
    (hcut : CutsExactly split th shapes) (hcut' : CutsExactly split' (m.inclination th) (shapes.map (movedShape m)))
    {lo hi : ℝ} (hdir : RCDirection th shapes (bars.map fun b => (b.x, b.y)) lo hi)
    (hpos : lo + height (m.inclination th) m.shift ≤ 1e16) (complete : Bool) {lo' hi' : ℝ}
    (hdir' : complete = true → RCDirection (th + Real.pi) shapes (bars.map fun b => (b.x, b.y)) lo' hi' ∧
      lo' - height (m.inclination th) m.shift ≤ 1e16)
    {D : ℝ} (hD0 : 0 < D) (hD : ∃ b ∈ bars, ∃ p ∈ shapes, ∃ w ∈ p.1.ext, D ≤ height th w - height th (b.x, b.y))
    (hD' : complete = true → ∃ b ∈ bars, ∃ p ∈ shapes, ∃ w ∈ p.1.ext, D ≤ height th (b.x, b.y) - height th w)
    (num : Fin 6 → ℤ) (ty : Fin 6 → Spacing) (hnum : ProfileArgs num ty)
    (fc : ℝ) (hfc : fc = designConcrete ccls ca)
    (E E' : Engine) (hE : E = engine turned (normalMeshed fc shapes idc mesh) bars ms)
    (hE' : E' = engine turned' (normalMeshed fc (shapes.map (movedShape m)) idc' mesh') (bars.map (Bar.moved m)) ms')
    (ops ops' : List Op) (hops : ops = [] ∨ ms = defaultMesh) (hops' : ops' = [] ∨ ms' = defaultMesh)
    (hun : Undisturbed E lu ops .fresh) (hun' : Undisturbed E' lu' ops' .fresh)
    (e e' : Fin 3 → ℝ) (he : e = fun i => (0.0035 + designUltimate scls sa) / D * √ms * weight (normalParts fc shapes) i)
    (he' : e' = fun i => (0.0035 + designUltimate scls sa) / D * √ms' * weight (normalParts fc (shapes.map (movedShape m))) i) :
    ∃ planes labels pts pts',
      nmProfiles E.balanced (sectionMinY (shapes.map Prod.fst)) true th num ty complete = .ok (planes, labels) ∧
      nmProfiles E'.balanced (sectionMinY ((shapes.map (movedShape m)).map Prod.fst)) true (m.inclination th) num ty complete =
        .ok (planes.map m.plane, labels) ∧
      (nmDomain E ((nmProfiles E.balanced (sectionMinY (shapes.map Prod.fst)) true th num ty complete).map Prod.fst)
        (history E lu ops .fresh)).2 = .ok (pts.map .forces) ∧
      (nmDomain E' ((nmProfiles E'.balanced (sectionMinY ((shapes.map (movedShape m)).map Prod.fst)) true (m.inclination th) num ty
        complete).map Prod.fst) (history E' lu' ops' .fresh)).2 = .ok (pts'.map .forces) ∧
      pts.length = planes.length ∧
      List.Forall₂ (fun f f' => ∀ i, |f' i - m.forces f i| ≤ e' i + (e 1 + e 2 + (1 + |m.shift.1| + |m.shift.2|) * e 0)) pts pts' := by
  obtain ⟨hult, -, -⟩ := C73_steel hl scls sa s hs hsn hsi.1 hsi.2 hgap
  have hyield := steel_yield hl scls sa s hs hsn hsi.1 hsi.2
  have hey' : designYield sa ≤ designUltimate scls sa := by
    have := heu.1
    norm_num at *
    linarith
  set L : LawObj := ⟨id, s.mat.law⟩ with hL
  set M := sectionEngine split ((normalParts fc shapes).map ConcretePart.solid) bars ms with hM
  set M' := sectionEngine split' ((normalParts fc (shapes.map (movedShape m))).map ConcretePart.solid) (bars.map (Bar.moved m)) ms' with hM'
  have hb' : ∀ b ∈ bars.map (Bar.moved m), b.law = L := by
    intro b hb
    obtain ⟨b, hb1, rfl⟩ := List.mem_map.1 hb
    exact hbars b hb1
  have hpts : (bars.map (Bar.moved m)).map (fun b => (b.x, b.y)) = (bars.map fun b => (b.x, b.y)).map m.point := by
    rw [List.map_map, List.map_map]
    rfl
  have g1 : ∀ x, height (m.inclination th) (m.point x) = 1 * height th x + height (m.inclination th) m.shift := by
    intro x; rw [m.height_point, one_mul]
  have hdirm : RCDirection (m.inclination th) (shapes.map (movedShape m)) ((bars.map (Bar.moved m)).map fun b => (b.x, b.y))
      (1 * lo + height (m.inclination th) m.shift) (1 * hi + height (m.inclination th) m.shift) :=
    hdir.mapped m.point (movedShape m) (fun _ => rfl) one_pos g1 (hull_moved m) hpts (by rw [one_mul]; exact hdir.size)
      (by rw [one_mul]; exact hpos)
  obtain ⟨k1, k2⟩ := turned_inclination m th
  have hh : ∀ x, height (m.inclination (th + Real.pi)) x = height (m.inclination th + Real.pi) x := by
    intro x; simp only [height, k1, k2]
  have g2 : ∀ x, height (m.inclination th + Real.pi) (m.point x) =
      1 * height (th + Real.pi) x + height (m.inclination th + Real.pi) m.shift := by
    intro x; rw [← hh, ← hh, m.height_point, one_mul]
  have hdirm' : complete = true → RCDirection (m.inclination th + Real.pi) (shapes.map (movedShape m))
      ((bars.map (Bar.moved m)).map fun b => (b.x, b.y)) (1 * lo' + height (m.inclination th + Real.pi) m.shift)
      (1 * hi' + height (m.inclination th + Real.pi) m.shift) := by
    intro hcm
    have h2 := (hdir' hcm).2
    refine (hdir' hcm).1.mapped m.point (movedShape m) (fun _ => rfl) one_pos g2 (hull_moved m) hpts
      (by rw [one_mul]; exact (hdir' hcm).1.size) ?_
    rw [one_mul, height_turn]
    linarith
  -- the profiles of the two sections correspond
  obtain ⟨planes, labels, hp, hp', -, -⟩ := C72_domain_partial (fc := fc) m hult hyield heu.1 heu.2 hey hey' split split' ms ms' th lu lu'
    shapes bars hbars henc hull hcut hcut' hdir hpos complete hdir' num ty hnum _ rfl M M'
    hM hM' [] [] trivial trivial
  -- the points of the two domains
  obtain ⟨-, P, l, pts, h1, h2, h3, -, h4⟩ := C91_design_partial hl ccls ca c hc hcn hci hce hcf scls sa s hs hsn hsi hgap hey heu split
    turned hms hms1 ms th lu lu shapes bars id hbars idc mesh hmesh henc hull hcut hdir complete (fun h => (hdir' h).1) hD0 hD
    hD' num ty hnum fc hfc _ rfl E M hE hM ops [] hops hun trivial
  obtain ⟨-, P', l', pts', h1', h2', h3', -, h4'⟩ := C91_design_partial hl ccls ca c hc hcn hci hce hcf scls sa s hs hsn hsi hgap hey heu
    split' turned' hms' hms1' ms' (m.inclination th) lu' lu' (shapes.map (movedShape m)) (bars.map (Bar.moved m)) id hb' idc' mesh' hmesh' (by
      intro p hp
      obtain ⟨q, hq, rfl⟩ := List.mem_map.1 hp
      exact encloses_moved m (henc q hq)) (by
      intro p hp
      obtain ⟨q, hq, rfl⟩ := List.mem_map.1 hp
      have hset : ∀ l : List (ℝ × ℝ), {v | v ∈ l.map m.point} = m.point '' {v | v ∈ l} := by
        intro l; ext v; simp
      simp only [movedShape, hset]
      exact (Set.image_mono (hull q hq)).trans (hull_moved m _)) hcut' hdirm complete hdirm' hD0 (by
      obtain ⟨x, hx, p, hp, w, hw, hd⟩ := hD
      refine ⟨_, List.mem_map_of_mem hx, _, List.mem_map_of_mem hp, _, List.mem_map_of_mem hw, ?_⟩
      have e' : height (m.inclination th) ((x.moved m).x, (x.moved m).y) = height (m.inclination th) (m.point (x.x, x.y)) := rfl
      rw [e', m.height_point, m.height_point]
      linarith) (by
      intro hcm
      obtain ⟨x, hx, p, hp, w, hw, hd⟩ := hD' hcm
      refine ⟨_, List.mem_map_of_mem hx, _, List.mem_map_of_mem hp, _, List.mem_map_of_mem hw, ?_⟩
      have e' : height (m.inclination th) ((x.moved m).x, (x.moved m).y) = height (m.inclination th) (m.point (x.x, x.y)) := rfl
      rw [e', m.height_point, m.height_point]
      linarith) num ty hnum fc hfc _ rfl E' M' hE' hM' ops' [] hops' hun' trivial
  have q := h2.symm.trans hp
  have q' := h2'.symm.trans hp'
  simp only [Except.ok.injEq, Prod.mk.injEq] at q q'
  obtain ⟨rfl, rfl⟩ := q
  obtain ⟨rfl, rfl⟩ := q'
  refine ⟨_, _, pts, pts', h1, h1', h3, h3', h4.length_eq.symm, ?_⟩
  rw [List.forall₂_map_left_iff] at h4'
  refine (forall2_join h4 h4').imp ?_
  rintro f f' ⟨v, -, ⟨-, k⟩, -, k'⟩ i
  have hF : (concreteSection (normalParts fc (shapes.map (movedShape m))) (bars.map (Bar.moved m))).forces (m.plane v) =
      m.forces ((concreteSection (normalParts fc shapes) bars).forces v) := by
    have hparts : (normalParts fc (shapes.map (movedShape m))) = (normalParts fc shapes).map (ConcretePart.moved m) := by
      simp only [normalParts, List.map_map]
      rfl
    rw [hparts, concreteSection_moved, moved_forces]
    · intro p hp
      simp only [concreteSection, normalParts, List.map_map, List.mem_map] at hp
      obtain ⟨q, hq, rfl⟩ := hp
      exact (henc q hq).measurable
    · intro p hp i
      simp only [concreteSection, normalParts, List.map_map, List.mem_map] at hp
      obtain ⟨q, hq, rfl⟩ := hp
      refine integrable_law (fc := |fc|) (measurable_parabola _) (fun x => ?_) v (henc q hq).bounded (w := fun x => lever x.1 x.2 i) ?_
      · exact pr_stress_range fc _ _ (by norm_num) x
      · fin_cases i <;> simp only [lever, Matrix.cons_val, Fin.zero_eta, Fin.mk_one, Fin.reduceFinMk] <;> fun_prop
  have a1 := k' i
  rw [hF, abs_sub_comm] at a1
  have a2 := forces_error m (e := e) (by intro j; rw [he]; exact k j) i
  have e3 : f' i - m.forces f i = (f' i - m.forces ((concreteSection (normalParts fc shapes) bars).forces v) i) +
      (m.forces ((concreteSection (normalParts fc shapes) bars).forces v) i - m.forces f i) := by ring
  rw [e3]
  refine (abs_add_le _ _).trans (add_le_add ?_ a2)
  rw [he']
  exact a1

end SC
