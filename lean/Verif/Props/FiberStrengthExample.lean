import Verif.Props.FiberStrength
import Verif.Props.FiberExample
import Verif.Props.CurvatureExample

/-! # C71: the beam of C66 meshed with 60 cells, each cut into two triangles

All hypotheses of `C71_strength_partial`, `C71_limits` and `C71_returns` hold for the 300 x 500 beam in pure bending. -/

set_option autoImplicit false

namespace SC

open Spec MeasureTheory

namespace RCBeam

/-- The concrete of the beam, meshed by 6 x 10 squares of side 50 (maximum triangle area asked for: `0.01 * 150000 = 1500`). -/
noncomputable def meshed : FibrePart :=
  ⟨⟨⟨150000, fun _ => cellGrid (-150) (-250) 50 5 9, ⟨0, concrete.law.law⟩⟩, concrete.region, 20000⟩, concrete.polygon, true⟩

noncomputable def fibreEngine : Engine := fibreSectionEngine (fun _ => []) [meshed] bars 0.01

theorem meshed_area : areaMoment 0 0 concrete.region = 150000 := by
  simp only [areaMoment, pow_zero, mul_one, concrete]
  rw [setIntegral_const, smul_eq_mul, mul_one, Measure.real, Measure.volume_eq_prod, Measure.prod_prod, Real.volume_Icc,
    Real.volume_Icc, ← ENNReal.ofReal_mul (by norm_num), ENNReal.toReal_ofReal (by norm_num)]
  norm_num

theorem meshed_region : concrete.region = box (-150) (-250) (((5:ℕ) + 1) * 50) (((9:ℕ) + 1) * 50) := by
  simp only [concrete, box]
  norm_num

theorem meshed_ok : meshed.Meshed 0.01 := by
  refine ⟨ok.encloses.measurable, meshed_area.symm, ?_, ?_, measurable_parabola _, by norm_num [meshed], ok.inHull⟩
  · change Triangulates (cellGrid (-150) (-250) 50 5 9) concrete.region
    rw [meshed_region]
    exact cellGrid_triangulates _ _ _ (by norm_num) 5 9
  · exact cellGrid_quality _ _ _ _ (by norm_num) (by norm_num [meshed]) 5 9

theorem meshed_lipschitz : meshed.Lipschitz := by
  have hl : meshed.mesh.surf.law.law.ult false = (-0.0035, 100) := limits_concrete
  rintro x ⟨hx, -⟩ y ⟨hy, -⟩
  rw [hl] at hx hy
  have hu : |(0.0035:ℝ)| = 0.0035 := abs_of_pos (by norm_num)
  have hplateau : |(0.002:ℝ)| + 1e-6 + 1e-5 * |0.0035| < |0.0035| := ok.plateau
  change |(ParabolaRectangle.new 20 0.002 0.0035 2).stress x - (ParabolaRectangle.new 20 0.002 0.0035 2).stress y| ≤ 20000 * |x - y|
  rw [pr_stress_core _ _ _ hplateau (by rw [hu]; exact hx), pr_stress_core _ _ _ hplateau (by rw [hu]; exact hy)]
  have := pr_core_lipschitz 20 0.002 0.0035 (by norm_num [abs_of_pos]) (by norm_num [abs_of_pos]) (x := x) (y := y)
    (by rw [hu]; exact hx) (by rw [hu]; exact hy)
  rwa [show (2:ℝ) * |20| / |0.002| = 20000 by norm_num [abs_of_pos]] at this

theorem meshed_section : meshedSection [meshed] bars = concreteSection [concrete] bars := rfl

theorem meshed_balanced : fibreEngine.balanced 0 false = .ok (250, -200, ![0.0215, -1e-4, 0]) := balanced

theorem meshed_mem {P : FibrePart → Prop} (h : P meshed) : ∀ p ∈ [meshed], P p := by
  intro p hp
  rwa [List.mem_singleton.1 hp]

theorem meshed_accepted : (checkAxialLoad fibreEngine 0 .fresh).2 = .ok () := by
  have hl := C71_limits (fun _ => []) [meshed] bars 0.01 (by norm_num) (by norm_num) ids (Or.inl (by simp)) (meshed_mem meshed_ok)
    meshed_balanced
  have hp : ∀ a x y : ℝ, planeStrain ![a, 0, 0] x y = a := by
    intro a x y; simp [planeStrain]
  have e1 : (![0.0215, -1e-4, 0] : Fin 3 → ℝ) 0 + (![0.0215, -1e-4, 0] : Fin 3 → ℝ) 1 * 250 = -0.0035 := by norm_num
  have e2 : (![0.0215, -1e-4, 0] : Fin 3 → ℝ) 0 + (![0.0215, -1e-4, 0] : Fin 3 → ℝ) 1 * (-200) = 0.0415 := by norm_num
  rw [e1, e2, meshed_section] at hl
  have h1 : (concreteSection [concrete] bars).forces ![-0.0035, 0, 0] 0 < 0 := by
    apply force_neg
    intro x y _ _
    rw [hp]; norm_num
  have h2 : 0 < (concreteSection [concrete] bars).forces ![0.0415, 0, 0] 0 := by
    apply force_pos
    · intro x y _ _; rw [hp]; norm_num
    · intro x y _ _; rw [hp]
  simp only [checkAxialLoad, CalcM.bind_def]
  rcases h : limits fibreEngine .fresh with ⟨s, r⟩
  rw [show limits (fibreSectionEngine (fun _ => []) [meshed] bars 0.01) .fresh = (s, r) from h] at hl
  simp only at hl
  subst hl
  simp only
  rw [if_neg (by push Not; exact ⟨h1.le, h2.le⟩)]
  rfl

/-- In the nearly uniform planes the mesh error of the axial force is below one. -/
theorem meshed_error (y v : ℝ) : meshError [meshed] 0.01 (planeThrough 0 y v (-1e-13)) 0 ≤ 1 := by
  have hA : (∫ x in concrete.region, |lever x.1 x.2 0|) = 150000 := by
    rw [← meshed_area]
    simp [lever, areaMoment]
  have hs : √(8 * 150000 * 0.01) ≤ 110 := by
    rw [show (110:ℝ) = √(110 ^ 2) from (Real.sqrt_sq (by norm_num)).symm]
    exact Real.sqrt_le_sqrt (by norm_num)
  have hk : √((planeThrough 0 y v (-1e-13)) 1 ^ 2 + (planeThrough 0 y v (-1e-13)) 2 ^ 2) = 1e-13 := by
    simp only [planeThrough, Matrix.cons_val, Real.cos_zero, Real.sin_zero, mul_zero, mul_one]
    rw [show ((-1e-13:ℝ)) ^ 2 + 0 ^ 2 = (1e-13) ^ 2 by norm_num]
    exact Real.sqrt_sq (by norm_num)
  simp only [meshError, List.map_cons, List.map_nil, List.sum_cons, List.sum_nil, add_zero, meshed]
  rw [hk, hA]
  have : (20000:ℝ) * √(8 * 150000 * 0.01) * 150000 ≤ 20000 * 110 * 150000 := by gcongr
  have h2 := mul_le_mul_of_nonneg_left this (show (0:ℝ) ≤ 2 / 3 * 1e-13 by norm_num)
  refine h2.trans (by norm_num)

/-- Upper bound of the axial force in compression of all fibres: the bars at least at -0.0025. -/
theorem force_crushed {e : Fin 3 → ℝ} (h : ∀ x y : ℝ, -250 ≤ y → y ≤ 250 → -0.0415 ≤ planeStrain e x y ∧ planeStrain e x y ≤ -0.0025) :
    (concreteSection [concrete] bars).forces e 0 ≤ -1000000 := by
  rw [force]
  have h1 : (∫ x in concrete.region, concrete.law.stress (planeStrain e x.1 x.2)) ≤ 0 :=
    integral_nonpos fun x => (concrete_law _).1
  have h2 : ∀ x y : ℝ, -250 ≤ y → y ≤ 250 → steel.law.stress (planeStrain e x y) = -500 := by
    intro x y ha hb
    obtain ⟨p, q⟩ := h x y ha hb
    rw [steel_stress p (by linarith), min_eq_left (by linarith), max_eq_left q]
    norm_num
  linarith [h2 (-110) (-200) (by norm_num) (by norm_num), h2 110 (-200) (by norm_num) (by norm_num),
    h2 (-110) 200 (by norm_num) (by norm_num), h2 110 200 (by norm_num) (by norm_num)]

theorem force_torn {e : Fin 3 → ℝ} (h : ∀ x y : ℝ, -250 ≤ y → y ≤ 250 → 0.0025 ≤ planeStrain e x y)
    (hs : ∀ x y : ℝ, -200 ≤ y → y ≤ 200 → planeStrain e x y ≤ 0.0415) :
    1000000 ≤ (concreteSection [concrete] bars).forces e 0 := by
  rw [force]
  have h1 : (∫ x in concrete.region, concrete.law.stress (planeStrain e x.1 x.2)) = 0 := by
    rw [setIntegral_congr_fun (g := fun _ => 0) ok.encloses.measurable fun x hx => ?_]
    · simp
    · exact (concrete_law _).2 (by have := h x.1 x.2 hx.2.1 hx.2.2; linarith)
  have h2 : ∀ x y : ℝ, -200 ≤ y → y ≤ 200 → steel.law.stress (planeStrain e x y) = 500 := by
    intro x y ha hb
    have p := h x y (by linarith) (by linarith)
    rw [steel_stress (by linarith) (hs x y ha hb), min_eq_right p, max_eq_right (by norm_num)]
    norm_num
  rw [h1]
  linarith [h2 (-110) (-200) (by norm_num) (by norm_num), h2 110 (-200) (by norm_num) (by norm_num),
    h2 (-110) 200 (by norm_num) (by norm_num), h2 110 200 (by norm_num) (by norm_num)]

theorem meshed_low : (meshedSection [meshed] bars).forces
      (planeThrough 0 250 (planeStrain ![0.0215, -1e-4, 0] 0 250) (-1e-13)) 0 +
    meshError [meshed] 0.01 (planeThrough 0 250 (planeStrain ![0.0215, -1e-4, 0] 0 250) (-1e-13)) 0 < 0 := by
  have h1 : (concreteSection [concrete] bars).forces
      (planeThrough 0 250 (planeStrain ![0.0215, -1e-4, 0] 0 250) (-1e-13)) 0 ≤ -1000000 := by
    apply force_crushed
    intro x y h1 h2
    have := planeThrough_height 0 250 (planeStrain ![0.0215, -1e-4, 0] 0 250) (-1e-13) (x, y)
    simp only [height_zero] at this
    rw [this]
    norm_num [planeStrain]
    constructor <;> linarith
  have h2 := meshed_error 250 (planeStrain ![0.0215, -1e-4, 0] 0 250)
  rw [meshed_section]
  linarith

theorem meshed_high : 0 < (meshedSection [meshed] bars).forces
      (planeThrough 0 (-200) (planeStrain ![0.0215, -1e-4, 0] 0 (-200)) (-1e-13)) 0 -
    meshError [meshed] 0.01 (planeThrough 0 (-200) (planeStrain ![0.0215, -1e-4, 0] 0 (-200)) (-1e-13)) 0 := by
  have hh : ∀ x y, planeStrain (planeThrough 0 (-200) (planeStrain ![0.0215, -1e-4, 0] 0 (-200)) (-1e-13)) x y =
      0.0415 - 1e-13 * (y + 200) := by
    intro x y
    have := planeThrough_height 0 (-200) (planeStrain ![0.0215, -1e-4, 0] 0 (-200)) (-1e-13) (x, y)
    simp only [height_zero] at this
    rw [this]
    norm_num [planeStrain]
    ring
  have h1 : 1000000 ≤ (concreteSection [concrete] bars).forces
      (planeThrough 0 (-200) (planeStrain ![0.0215, -1e-4, 0] 0 (-200)) (-1e-13)) 0 := by
    apply force_torn
    · intro x y h1 h2
      rw [hh]; norm_num; linarith
    · intro x y h1 h2
      rw [hh]; norm_num; linarith
  have h2 := meshed_error (-200) (planeStrain ![0.0215, -1e-4, 0] 0 (-200))
  rw [meshed_section]
  linarith

/-- The bending strength of the meshed beam is returned, and has the properties of `C71_strength_partial`. -/
example (lu : Matrix (Fin 3) (Fin 3) ℝ → (Fin 3 → ℝ) → (Fin 3 → ℝ)) :
    ∃ b, (bendingStrength fibreEngine 0 0 .fresh).2 = .ok b ∧
      (∀ i, |(concreteSection [concrete] bars).forces ![b.eps_a, b.chi.1, b.chi.2] i - ![b.n, b.m.1, b.m.2] i| ≤
        meshError [meshed] 0.01 ![b.eps_a, b.chi.1, b.chi.2] i) ∧
      (concreteSection [concrete] bars).AtLimit ![b.eps_a, b.chi.1, b.chi.2] ∧
      (concreteSection [concrete] bars).Admissible ![b.eps_a, b.chi.1, b.chi.2] := by
  have hbal : (fibreSectionEngine (fun _ => []) [meshed] bars 0.01).balanced (-0) false =
      .ok (250, -200, ![0.0215, -1e-4, 0]) := by
    rw [neg_zero]; exact meshed_balanced
  have hext : ∀ p ∈ [meshed], p.polygon.ext ≠ [] := meshed_mem (by simp [meshed, concrete, rectRing, closeRing])
  obtain ⟨b, hb⟩ := C71_returns (fun _ => []) [meshed] bars 0.01 0 0 (by norm_num) (by norm_num) lu [] (Or.inl rfl) trivial ids
    (Or.inl (by simp)) hext (meshed_mem meshed_ok) (meshed_mem meshed_lipschitz) lim flat hbal gov (L := 200000) (d := 500)
    (by norm_num) (meshed_mem (by norm_num [meshed])) K (by
      intro y hy
      refine ⟨meshed_mem ?_, ?_⟩
      · intro x hx
        have hx2 : x.2 ∈ Set.Icc (-250:ℝ) 250 := hx.2
        rw [height_zero, abs_le]
        rcases hy with rfl | rfl <;> constructor <;> linarith [hx2.1, hx2.2]
      · intro b hb
        simp only [bars, bar, List.mem_cons, List.not_mem_nil, or_false] at hb
        rcases hb with rfl | rfl | rfl | rfl <;> rcases hy with rfl | rfl <;> norm_num [height_zero, abs_le])
    (by
      have h4 : |-1e-13 - (![0.0215, -1e-4, 0] : Fin 3 → ℝ) 1| ≤ 1 := by norm_num [abs_le]
      have hA : areaMoment 0 0 meshed.mesh.region = 150000 := meshed_area
      simp only [List.map_cons, List.map_nil, List.sum_cons, List.sum_nil, bars, bar, hA]
      refine (mul_le_mul_of_nonneg_left h4 (by positivity)).trans ?_
      norm_num)
    meshed_accepted meshed_low meshed_high
  obtain ⟨C, -, hC⟩ := C71_strength_partial (fun _ => []) [meshed] bars 0.01 0 (by norm_num) (by norm_num) lu ids (Or.inl (by simp))
    hext (fun e he => meshed_good (meshed_mem meshed_ok) (meshed_mem meshed_lipschitz) he) lim flat hbal gov
  obtain ⟨-, h1, h2, h3, -⟩ := hC 0 [] b (Or.inl rfl) trivial hb
  exact ⟨b, hb, h1, h2, h3⟩

/-- Under a uniform elongation below yielding the bars carry the force. -/
theorem force_elongated {e : ℝ} (h0 : 0 ≤ e) (h1 : e ≤ 0.0025) : (concreteSection [concrete] bars).forces ![e, 0, 0] 0 = 4e8 * e := by
  have hp : ∀ a x y : ℝ, planeStrain ![a, 0, 0] x y = a := by
    intro a x y; simp [planeStrain]
  have hc : concrete.law.stress e = 0 := by
    rcases h0.lt_or_eq with h | rfl
    · exact (concrete_law e).2 h
    · have := pr_stress_core 20 0.002 0.0035 ok.plateau (x := 0) (by norm_num)
      change (ParabolaRectangle.new 20 0.002 0.0035 2).stress 0 = 0
      rw [this]
      norm_num [ParabolaRectangle.core, ParabolaRectangle.new, abs_of_pos]
  rw [force]
  simp only [hp]
  rw [hc, steel_stress (by linarith) (by linarith), min_eq_left h1, max_eq_right (by linarith)]
  simp
  ring

theorem meshed_accepted_tension {n : ℝ} (h0 : 0 ≤ n) (h1 : n ≤ 1) : (checkAxialLoad fibreEngine n .fresh).2 = .ok () := by
  have hl := C71_limits (fun _ => []) [meshed] bars 0.01 (by norm_num) (by norm_num) ids (Or.inl (by simp)) (meshed_mem meshed_ok)
    meshed_balanced
  have hp : ∀ a x y : ℝ, planeStrain ![a, 0, 0] x y = a := by
    intro a x y; simp [planeStrain]
  have e1 : (![0.0215, -1e-4, 0] : Fin 3 → ℝ) 0 + (![0.0215, -1e-4, 0] : Fin 3 → ℝ) 1 * 250 = -0.0035 := by norm_num
  have e2 : (![0.0215, -1e-4, 0] : Fin 3 → ℝ) 0 + (![0.0215, -1e-4, 0] : Fin 3 → ℝ) 1 * (-200) = 0.0415 := by norm_num
  rw [e1, e2, meshed_section] at hl
  have hc : (concreteSection [concrete] bars).forces ![-0.0035, 0, 0] 0 < 0 := by
    apply force_neg
    intro x y _ _
    rw [hp]; norm_num
  simp only [checkAxialLoad, CalcM.bind_def]
  rcases h : limits fibreEngine .fresh with ⟨s, r⟩
  rw [show limits (fibreSectionEngine (fun _ => []) [meshed] bars 0.01) .fresh = (s, r) from h] at hl
  simp only at hl
  subst hl
  simp only
  rw [if_neg (by rw [tension]; push Not; exact ⟨by linarith, by norm_num; linarith⟩)]
  rfl

/-- For any tension between 0 and 1 N the point of the diagram without curvature is returned. -/
theorem meshed_diagram {n : ℝ} (h0 : 0 < n) (h1 : n ≤ 1) :
    ∃ pts, (momentCurvature fibreEngine 0 n 1e-8 10 10 (some [0]) .fresh).2 = .ok pts := by
  have hA := fibre_answers (fun _ => []) [meshed] bars 0.01 
    (meshData_ne (parts := [meshed]) ids 0.01 (Or.inl (by simp))) 0 0
  have hf : ∀ e, 0 ≤ e → e ≤ 0.0025 →
      (fibreSection (meshData [meshed] bars 0.01)).forces ![e, 0 * Real.cos 0, 0 * Real.sin 0] 0 = 4e8 * e := by
    intro e a b
    have := fibre_error [meshed] bars ids 0.01 (by norm_num) ![e, 0, 0] (meshed_uniform (meshed_mem meshed_ok) e) 0
    have hz : meshError [meshed] 0.01 ![e, 0, 0] 0 = 0 := by simp [meshError]
    rw [hz] at this
    have h2 := abs_nonpos_iff.1 this
    rw [meshed_section, force_elongated a b] at h2
    rw [zero_mul, zero_mul]
    linarith
  have hneg : (fibreSection (meshData [meshed] bars 0.01)).forces ![0, 0 * Real.cos 0, 0 * Real.sin 0] 0 - n < 0 := by
    rw [hf 0 le_rfl (by norm_num)]
    linarith
  obtain ⟨e, k, hrun⟩ := fixedCurvature_returns
    (fun e c => (fibreSection (meshData [meshed] bars 0.01)).forces ![e, c * Real.cos 0, c * Real.sin 0] 0) n 0 0 4e8
    (i := 0) (by norm_num) (by
      rw [preSign_neg hneg]
      refine mul_neg_of_neg_of_pos hneg ?_
      rw [hf _ (by norm_num) (by norm_num)]
      norm_num
      linarith) (by norm_num) (by
      intro x y hx hy hx' hy'
      rw [preSign_neg hneg] at hx' hy'
      have e1 : (1e-3:ℝ) * 2 ^ 0 = 0.001 := by norm_num
      rw [e1, abs_le] at hx hy
      rw [hf x (by linarith) (by linarith [hx.2]), hf y (by linarith) (by linarith [hy.2]), ← mul_sub, abs_mul, abs_of_pos (by norm_num)])
      (by norm_num)
  have hD := meshData_base (fun _ => []) [meshed] bars 0.01 (m := 0.01) (by norm_num) (by norm_num)
  obtain ⟨m, hm⟩ := mc_single_returns (fibre_lawful (fun _ => []) [meshed] bars 0.01) hD hA (s := .fresh)
    .fresh (meshed_accepted_tension h0.le h1) hrun 1e-8 10 10
  exact ⟨_, hm⟩

/-- All hypotheses of `C71_curvature_partial` hold together for some load, and the diagram is returned. -/
example (lu : Matrix (Fin 3) (Fin 3) ℝ → (Fin 3 → ℝ) → (Fin 3 → ℝ)) :
    ∃ n ∈ Set.Ioc (0:ℝ) 1, ∃ p, (momentCurvature fibreEngine 0 n 1e-8 10 10 (some [0]) .fresh).2 = .ok [p] ∧ p.2.2 = (0, 0) := by
  obtain ⟨C, hC, h⟩ := C71_curvature_partial (fun _ => []) [meshed] bars 0.01 0 (by norm_num) (by norm_num) lu ids (Or.inl (by simp))
    (by norm_num [defaultMesh]) [0]
  obtain ⟨n, hn, hnC⟩ : (Set.Ioc (0:ℝ) 1 \ C).Nonempty := by
    have hnc : ¬ (Set.Ioc (0:ℝ) 1).Countable := fun h => by
      have := h.measure_zero volume
      rw [Real.volume_Ioc] at this
      norm_num at this
    by_contra hcon
    rw [Set.not_nonempty_iff_eq_empty, Set.sdiff_eq_empty] at hcon
    exact hnc (hC.mono hcon)
  obtain ⟨pts, hp⟩ := meshed_diagram hn.1 hn.2
  obtain ⟨h1, -⟩ := h n hnC 1e-8 10 10 [] pts trivial hp
  match pts, hp, h1 with
  | [], _, h1 => simp at h1
  | [p], hp, h1 => exact ⟨n, hn, p, hp, by simpa using h1⟩
  | _ :: _ :: _, _, h1 => simp at h1

end RCBeam

end SC
