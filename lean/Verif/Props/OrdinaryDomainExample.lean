import Verif.Props.OrdinaryDomain3D
import Verif.Props.OrdinaryExample
import Verif.Props.DomainExample

/-! # C67, C74: the beam of `OrdinaryExample` -/

set_option autoImplicit false

namespace SC

open Spec MeasureTheory

variable {lower : String → String}

/-- **C74** (interaction domain of a designed section; partial: as `C67_design_partial`). Every point of the N-M domain lies within
the bending strengths, and the points of fields 1 to 5 lie on them, up to the difference of the axial forces times `R`. -/
theorem C74_design_domain_partial (hl : PyLower lower)
    (scls : SteelClass) (sa : SteelArgs) (s : Built Steel)
    (hs : newSteel lower scls sa = some (.ok s)) (hsn : sa.law = .name "elasticperfectlyplastic")
    (hsi : sa.initialStrain = none ∧ sa.initialStress = none)
    (hgap : designYield sa + 1e-6 + 1e-5 * designUltimate scls sa ≤ designUltimate scls sa) (hey : 1e-4 ≤ designYield sa)
    (heu : 0.0035 ≤ designUltimate scls sa ∧ designUltimate scls sa ≤ 0.09)
    (split : Polygon → ℝ → ℝ → ShapelyResult) (ms th : ℝ) (lu : Matrix (Fin 3) (Fin 3) ℝ → (Fin 3 → ℝ) → (Fin 3 → ℝ))
    (shapes : List (Polygon × Set (ℝ × ℝ))) (bars : List Bar) (id : ℕ) (hbars : ∀ b ∈ bars, b.law = ⟨id, s.mat.law⟩)
    (hA : ∀ b ∈ bars, 0 ≤ b.area)
    (henc : ∀ p ∈ shapes, Encloses p.1.ext p.1.ints p.2) (hull : ∀ p ∈ shapes, p.2 ⊆ convexHull ℝ {v | v ∈ p.1.ext})
    (hcut : CutsExactly split th shapes) {lo hi : ℝ} (hdir : RCDirection th shapes (bars.map fun b => (b.x, b.y)) lo hi)
    (num : Fin 6 → ℤ) (ty : Fin 6 → Spacing) (hnum : ProfileArgs num ty)
    (fc : ℝ) (E : Engine) (hE : E = sectionEngine split ((normalParts fc shapes).map ConcretePart.solid) bars ms)
    (ops ops' : List Op) (hops : Undisturbed E lu ops .fresh) (hops' : Undisturbed E lu ops' .fresh)
    (n : ℝ) (r : BendingResult) (hrun : (bendingStrength E th n (history E lu ops' .fresh)).2 = .ok r)
    (R : ℝ) (hR : |lo| ≤ R ∧ |hi| ≤ R) :
    ∃ (pts : List (Fin 3 → ℝ)) (labels : List ℕ) (planes : List (Fin 3 → ℝ)),
      nmProfiles E.balanced (sectionMinY (shapes.map Prod.fst)) true th num ty false = .ok (planes, labels) ∧
      pts.length = labels.length ∧
      (nmDomain E ((nmProfiles E.balanced (sectionMinY (shapes.map Prod.fst)) true th num ty false).map Prod.fst)
        (history E lu ops .fresh)).2 = .ok (pts.map .forces) ∧
      (∀ f ∈ pts, bendingMoment th f ≤ bendingMoment th ![r.n, r.m.1, r.m.2] + R * |f 0 - r.n|) ∧
      ∀ q ∈ pts.zip labels, q.2 ≤ 5 → |bendingMoment th q.1 - bendingMoment th ![r.n, r.m.1, r.m.2]| ≤ R * |q.1 0 - r.n| := by
  obtain ⟨hult, hst, -⟩ := C73_steel hl scls sa s hs hsn hsi.1 hsi.2 hgap
  have hyield := steel_yield hl scls sa s hs hsn hsi.1 hsi.2
  have hey' : designYield sa ≤ designUltimate scls sa := by
    have := heu.1
    norm_num at *
    linarith
  have hpoly : shapes.map Prod.fst = (normalParts fc shapes).map ConcretePart.polygon := by
    simp only [normalParts, List.map_map, Function.comp_def]
  rw [hpoly]
  subst hE
  obtain ⟨⟨yp, hord⟩, hok, q, k, hprof, -⟩ := hdir.profiles (fc := fc) (ms := ms) hbars hult hyield heu.1 heu.2 hey hey' henc hull hcut hnum
  have hsplit : ∀ p ∈ normalParts fc shapes, ∀ v : Fin 3 → ℝ, v 1 * Real.sin th = v 2 * Real.cos th → v 1 ≠ 0 ∨ v 2 ≠ 0 →
      SplitsExactly split (p.polygon.rotate (neutralAngle v)) (rotPt (neutralAngle v) '' p.region) := by
    intro p hp v h1 h2
    obtain ⟨r, hr, rfl⟩ := List.mem_map.1 hp
    exact hcut r hr _ (neutral_direction h1 h2)
  have hprof' : nmProfiles (sectionEngine split ((normalParts fc shapes).map ConcretePart.solid) bars ms).balanced
      (sectionMinY ((normalParts fc shapes).map ConcretePart.polygon)) true th num ty false = .ok (q, k) := by
    simp only [nmProfiles, hprof, Bool.false_eq_true, if_false]
  have hO := hdir.geometry.ordinary (fc := fc) hbars hult heu.1 heu.2
  obtain ⟨pts, h1, h2, h3, h4⟩ := C74_domain_partial split ms lu ops ops' hops hops' hO hok (single_ids hbars) (single_sizes hbars) hA (by
      intro b hb x hx y hy hxy
      rw [hbars b hb] at hx hy ⊢
      rw [hult] at hx hy
      simp only
      rw [hst x (abs_le.2 hx), hst y (abs_le.2 hy)]
      exact mul_le_mul_of_nonneg_left (max_le_max le_rfl (min_le_min hxy le_rfl)) (abs_nonneg _)) (R := R) (by
      intro p hp v hv
      obtain ⟨p', hp', rfl⟩ := List.mem_map.1 hp
      have a1 := hdir.high.2 ⟨p', hp', v, hv, rfl⟩
      have a2 := hdir.low.2 ⟨p', hp', v, hv, rfl⟩
      rw [abs_le]
      constructor
      · linarith [neg_abs_le lo, hR.1]
      · linarith [le_abs_self hi, hR.2]) (fun p hp =>
      ⟨(hok p hp).encloses, (hok p hp).inHull, (hok p hp).peak, (hok p hp).plateau⟩) true num ty hprof' hord hsplit n r hrun
  exact ⟨pts, k, q, hprof', h1, h2, h3, h4⟩

namespace OrdinaryBeam

theorem turn_cases {a : ℝ} (h : Real.sin a = 0) : rotPt a = rotPt 0 ∨ rotPt a = rotPt (-Real.pi) := by
  have hc := Real.sin_sq_add_cos_sq a
  rw [h] at hc
  have : (Real.cos a - 1) * (Real.cos a + 1) = 0 := by nlinarith
  rcases mul_eq_zero.1 this with h1 | h1
  · left
    funext x
    have : Real.cos a = 1 := by linarith
    simp [rotPt, h, this]
  · right
    funext x
    have : Real.cos a = -1 := by linarith
    simp [rotPt, h, this]

theorem cuts : CutsExactly RCBeam.split 0 shapes := by
  intro p hp a ha
  rw [List.mem_singleton.1 hp]
  rw [add_zero] at ha
  rcases turn_cases ha with h | h <;> simp only [Polygon.rotate, h]
  · have e := polygon_rotate_zero (⟨rectRing (-150) 150 (-250) 250, []⟩ : Polygon)
    simp only [Polygon.rotate] at e
    rw [e, show rotPt 0 = id from funext rotPt_zero, Set.image_id]
    exact rectSplit_exact (by norm_num) _
  · have := RCBeam.ok.splits
    rw [neg_zero, polygon_rotate_zero, show rotPt 0 = id from funext rotPt_zero, Set.image_id] at this
    exact this

theorem height_flip (x : ℝ × ℝ) : height (0 + Real.pi) x = -x.2 := by simp [height]

theorem ring_mem (v : ℝ × ℝ) (h : v = (-150, -250) ∨ v = (150, -250) ∨ v = (150, 250) ∨ v = (-150, 250)) :
    v ∈ rectRing (-150) 150 (-250) 250 := by
  simp only [rectRing, closeRing, List.cons_append, List.nil_append,
        List.take_succ_cons, List.take_zero, List.mem_cons, List.not_mem_nil, or_false]
  tauto

theorem mem_bars {L : Law} {b : ℝ × ℝ} (h : b ∈ (bars L).map fun b => (b.x, b.y)) :
    b = (-110, -200) ∨ b = (110, -200) ∨ b = (-110, 200) ∨ b = (110, 200) := by
  simpa only [bars, bar, List.map_cons, List.map_nil, List.mem_cons, List.not_mem_nil, or_false] using h

/-- Both faces of the beam. -/
theorem direction (L : Law) (up : Bool) : RCDirection (if up then 0 else 0 + Real.pi) shapes ((bars L).map fun b => (b.x, b.y)) (-250) 250 := by
  have hh : ∃ k : ℝ, (k = 1 ∨ k = -1) ∧ ∀ x : ℝ × ℝ, height (if up then 0 else 0 + Real.pi) x = k * x.2 := by
    cases up
    · exact ⟨-1, Or.inr rfl, fun x => by simp [height]⟩
    · exact ⟨1, Or.inl rfl, fun x => by simp [height]⟩
  obtain ⟨k, hk, hh⟩ := hh
  refine ⟨(geometry L).inside, ⟨⟨_, List.mem_singleton.2 rfl, (-150, -250 * k), ?_, ?_⟩, ?_⟩, ⟨⟨_, List.mem_singleton.2 rfl, (-150, 250 * k), ?_, ?_⟩, ?_⟩,
    by norm_num, by norm_num, ?_, ?_, ?_⟩
  · apply ring_mem; rcases hk with rfl | rfl <;> norm_num
  · rw [hh]; rcases hk with rfl | rfl <;> norm_num
  · rintro y ⟨s, hs, v, hv, rfl⟩
    rw [List.mem_singleton.1 hs] at hv
    rw [hh]
    rcases mem_ring hv with rfl | rfl | rfl | rfl <;> rcases hk with rfl | rfl <;> norm_num
  · apply ring_mem; rcases hk with rfl | rfl <;> norm_num
  · rw [hh]; rcases hk with rfl | rfl <;> norm_num
  · rintro y ⟨s, hs, v, hv, rfl⟩
    rw [List.mem_singleton.1 hs] at hv
    rw [hh]
    rcases mem_ring hv with rfl | rfl | rfl | rfl <;> rcases hk with rfl | rfl <;> norm_num
  · refine ⟨(-110, -200), by simp [bars, bar], ?_⟩
    rw [hh]
    rcases hk with rfl | rfl <;> norm_num
  · intro b hb
    rw [hh]
    rcases mem_bars hb with rfl | rfl | rfl | rfl <;> rcases hk with rfl | rfl <;> norm_num
  · intro b hb _
    rw [hh]
    rcases mem_bars hb with rfl | rfl | rfl | rfl <;> rcases hk with rfl | rfl <;> norm_num

theorem default_args : ProfileArgs defaultNum ![.linear, .linear, .geometric, .linear, .linear, .linear] := by
  refine ⟨?_, ?_, ?_, ?_⟩
  · intro i; fin_cases i <;> simp [defaultNum]
  · simp [defaultNum]
  · intro i; fin_cases i <;> simp
  · intro i; fin_cases i <;> simp [defaultNum]

/-- Every combination of concrete and steel class, C30 and B500: the complete domain of the beam has 68 points. -/
example (hl : PyLower lower) (ccls : ConcClass) (scls : SteelClass) (lu : Matrix (Fin 3) (Fin 3) ℝ → (Fin 3 → ℝ) → (Fin 3 → ℝ)) :
    ∃ c s, newConcrete lower ccls (defaultArgs 30) = some (.ok c) ∧ newSteel lower scls sargs = some (.ok s) ∧
    ∃ E : Engine, E = sectionEngine RCBeam.split ((normalParts (designConcrete ccls (defaultArgs 30)) shapes).map ConcretePart.solid)
        (bars s.mat.law) 0.01 ∧
    ∃ planes labels, nmProfiles E.balanced (sectionMinY (shapes.map Prod.fst)) true 0 defaultNum
        ![.linear, .linear, .geometric, .linear, .linear, .linear] true = .ok (planes, labels) ∧ planes.length = 68 ∧
      planes.head? = some ![designUltimate scls sargs, 0, 0] := by
  obtain ⟨c, s, hc, hs⟩ := accepted hl ccls scls
  have hu := ultimate_range scls
  have hy := yield_range
  refine ⟨c, s, hc, hs, _, rfl, ?_⟩
  obtain ⟨-, planes, labels, h1, -, h3, -, -, h4, -⟩ := C67_design_partial hl ccls (defaultArgs 30) c hc rfl ⟨rfl, rfl⟩ ⟨rfl, rfl, rfl⟩
    (fun _ => by norm_num [defaultArgs, abs_of_pos]) scls sargs s hs rfl ⟨rfl, rfl⟩ (gap scls) (by norm_num at *; linarith)
    ⟨by norm_num at *; linarith, by norm_num at *; linarith⟩ RCBeam.split 0.01 0 lu shapes (bars s.mat.law) 1
    (by intro b hb; simp only [bars, bar, List.mem_cons, List.not_mem_nil, or_false] at hb; rcases hb with rfl | rfl | rfl | rfl <;> rfl)
    (by intro p hp; rw [List.mem_singleton.1 hp]; exact RCBeam.ok.encloses)
    (by intro p hp; rw [List.mem_singleton.1 hp]; exact hull)
    cuts (by simpa using direction s.mat.law true) true (fun _ => by simpa using direction s.mat.law false)
    defaultNum ![.linear, .linear, .geometric, .linear, .linear, .linear] default_args _ rfl _ rfl _ rfl [] trivial
  refine ⟨planes, labels, h1, ?_, h4 rfl (by simp [defaultNum])⟩
  rw [h3]
  simp [Fin.sum_univ_succ, defaultNum]

/-- Two angles of the N-My-Mz domain. -/
example (hl : PyLower lower) (ccls : ConcClass) (scls : SteelClass) (lu : Matrix (Fin 3) (Fin 3) ℝ → (Fin 3 → ℝ) → (Fin 3 → ℝ)) :
    ∃ c s, newConcrete lower ccls (defaultArgs 30) = some (.ok c) ∧ newSteel lower scls sargs = some (.ok s) ∧
    ∃ E : Engine, E = sectionEngine RCBeam.split ((normalParts (designConcrete ccls (defaultArgs 30)) shapes).map ConcretePart.solid)
        (bars s.mat.law) 0.01 ∧
    ∃ chunks labels, nmmProfiles E.balanced (sectionMinY (shapes.map Prod.fst)) true 2 defaultNum
        ![.linear, .linear, .geometric, .linear, .linear, .linear] = .ok (List.flatten chunks, labels) ∧ chunks.length = 2 := by
  obtain ⟨c, s, hc, hs⟩ := accepted hl ccls scls
  have hu := ultimate_range scls
  have hy := yield_range
  refine ⟨c, s, hc, hs, _, rfl, ?_⟩
  have hturn : ∀ th ∈ linspace 0 (Real.pi * 2) 2 true, Real.sin th = 0 ∧ Real.cos th = 1 := by
    rw [RCBeam.angles]
    simp only [List.mem_cons, List.not_mem_nil, or_false]
    rintro th (rfl | rfl)
    · simp
    · rw [mul_comm, Real.sin_two_pi, Real.cos_two_pi]; simp
  obtain ⟨chunks, labels, h1, -, h2⟩ := C67_design_nmm_partial hl scls sargs s hs rfl ⟨rfl, rfl⟩ (gap scls) (by norm_num at *; linarith)
    ⟨by norm_num at *; linarith, by norm_num at *; linarith⟩ RCBeam.split 0.01 lu shapes (bars s.mat.law) 1 (one_steel _)
    (by intro p hp; rw [List.mem_singleton.1 hp]; exact RCBeam.ok.encloses)
    (by intro p hp; rw [List.mem_singleton.1 hp]; exact hull) 2 (by norm_num)
    (by
      intro th hth p hp a ha
      obtain ⟨t1, t2⟩ := hturn th hth
      refine cuts p hp a ?_
      rwa [Real.sin_add, t1, t2, mul_one, mul_zero, add_zero, ← add_zero a] at ha)
    (by
      intro th hth
      obtain ⟨t1, t2⟩ := hturn th hth
      have hh : ∀ x : ℝ × ℝ, height th x = height 0 x := by intro x; simp [height, t1, t2]
      obtain ⟨a1, a2, a3, a4, a5, a6, a7, a8⟩ := direction s.mat.law true
      refine ⟨-250, 250, ?_⟩
      simp only [if_true] at a2 a3 a6 a7 a8
      have hh' : height th = height 0 := funext hh
      refine ⟨a1, ?_, ?_, a4, a5, ?_, ?_, ?_⟩ <;> rw [hh'] <;> first | exact a2 | exact a3 | exact a6 | exact a7 | exact a8)
    defaultNum ![.linear, .linear, .geometric, .linear, .linear, .linear] default_args (designConcrete ccls (defaultArgs 30)) _ rfl _ rfl []
    trivial
  refine ⟨chunks, labels, h1, ?_⟩
  rw [← h2.length_eq, RCBeam.angles]
  rfl

/-- The My-Mz domain in pure bending, upper and lower face compressed. -/
example (hl : PyLower lower) (ccls : ConcClass) (scls : SteelClass) (lu : Matrix (Fin 3) (Fin 3) ℝ → (Fin 3 → ℝ) → (Fin 3 → ℝ)) :
    ∃ c s, newConcrete lower ccls (defaultArgs 30) = some (.ok c) ∧ newSteel lower scls sargs = some (.ok s) ∧
    ∃ bs, (mmDomain (sectionEngine RCBeam.split ((normalParts (designConcrete ccls (defaultArgs 30)) shapes).map ConcretePart.solid)
      (bars s.mat.law) 0.01) 0 [0, 0 + Real.pi] .fresh).2 = .ok bs ∧ bs.length = 2 := by
  obtain ⟨c, s, hc, hs⟩ := accepted hl ccls scls
  have hu := ultimate_range scls
  refine ⟨c, s, hc, hs, ?_⟩
  have d0 := direction s.mat.law true
  have d1 := direction s.mat.law false
  simp only [if_true, Bool.false_eq_true, if_false] at d0 d1
  have g0 := d0.geometry
  have g1 := d1.geometry
  rw [show (250:ℝ) - -250 = 500 by norm_num] at g0 g1
  obtain ⟨m1, m2, m3⟩ := margins hl ccls scls s hs _ rfl _ rfl
  obtain ⟨C, -, h⟩ := C67_design_mm_partial hl ccls (defaultArgs 30) c hc rfl ⟨rfl, rfl⟩ ⟨rfl, rfl, rfl⟩
    (fun _ => by norm_num [defaultArgs, abs_of_pos]) scls sargs s hs rfl ⟨rfl, rfl⟩ (gap scls)
    ⟨by norm_num at *; linarith, by norm_num at *; linarith⟩ RCBeam.split 0.01 lu shapes (bars s.mat.law) 1 (one_steel _)
    (by intro p hp; rw [List.mem_singleton.1 hp]; exact RCBeam.ok.encloses)
    (by intro p hp; rw [List.mem_singleton.1 hp]; exact hull) g0 [0, 0 + Real.pi]
    (by
      simp only [List.mem_cons, List.not_mem_nil, or_false]
      rintro th (rfl | rfl)
      · exact cuts
      · exact cuts.half_turn)
    (by
      simp only [List.mem_cons, List.not_mem_nil, or_false]
      rintro th (rfl | rfl)
      · exact g0
      · exact g1) _ rfl _ rfl (m1.trans (by norm_num)) _ rfl _ rfl
  obtain ⟨bs, hb, hf⟩ := h 0 [] trivial m2 m3
  exact ⟨bs, hb, hf.length_eq.symm⟩

/-- Domain and pure bending. -/
example (hl : PyLower lower) (ccls : ConcClass) (scls : SteelClass) :
    ∃ c s, newConcrete lower ccls (defaultArgs 30) = some (.ok c) ∧ newSteel lower scls sargs = some (.ok s) ∧
    ∃ E : Engine, E = sectionEngine RCBeam.split ((normalParts (designConcrete ccls (defaultArgs 30)) shapes).map ConcretePart.solid)
        (bars s.mat.law) 0.01 ∧
    ∃ (r : BendingResult) (pts : List (Fin 3 → ℝ)), (bendingStrength E 0 0 .fresh).2 = .ok r ∧
      (nmDomain E ((nmProfiles E.balanced (sectionMinY (shapes.map Prod.fst)) true 0 defaultNum
        ![.linear, .linear, .geometric, .linear, .linear, .linear] false).map Prod.fst) .fresh).2 = .ok (pts.map .forces) ∧
      ∀ f ∈ pts, bendingMoment 0 f ≤ bendingMoment 0 ![r.n, r.m.1, r.m.2] + 250 * |f 0 - r.n| := by
  obtain ⟨c, s, hc, hs, r, hr, -⟩ := pure_bending hl ccls scls
  have hu := ultimate_range scls
  have hy := yield_range
  obtain ⟨pts, labels, planes, -, -, h1, h2, -⟩ := C74_design_domain_partial hl scls sargs s hs rfl ⟨rfl, rfl⟩ (gap scls)
    (by norm_num at *; linarith) ⟨by norm_num at *; linarith, by norm_num at *; linarith⟩ RCBeam.split 0.01 0 (fun _ _ => 0) shapes
    (bars s.mat.law) 1 (one_steel _) (by
      intro b hb; simp only [bars, bar, List.mem_cons, List.not_mem_nil, or_false] at hb; rcases hb with rfl | rfl | rfl | rfl <;> norm_num)
    (by intro p hp; rw [List.mem_singleton.1 hp]; exact RCBeam.ok.encloses)
    (by intro p hp; rw [List.mem_singleton.1 hp]; exact hull)
    cuts (by simpa using direction s.mat.law true) defaultNum ![.linear, .linear, .geometric, .linear, .linear, .linear] default_args
    (designConcrete ccls (defaultArgs 30)) _ rfl [] [] trivial trivial 0 r hr 250 (by norm_num)
  exact ⟨c, s, hc, hs, _, rfl, r, pts, hr, h1, h2⟩

end OrdinaryBeam

end SC
