import Verif.Props.Cracked

/-! # C63: properties of the cracked section, limits, example -/

set_option autoImplicit false

namespace SC

open Spec MeasureTheory

noncomputable section

variable {split : Polygon → ℝ → ℝ → ShapelyResult} {sh : Shapely} {theta : ℝ}
  {parts : List (RSurf × Set (ℝ × ℝ))} {bars : List GBar}

theorem IsCracked.moments {z : ℝ} {g : GSection} {pieces : List (GSurf × Set (ℝ × ℝ))}
    (h : IsCracked theta z parts bars g pieces) (w : ℝ → ℝ → ℝ) (c : ℝ × ℝ) :
    momentsOf (sectionBody (fun m => w (initialModulus m) m.density) pieces g.bars) c =
      momentsOf (crackedBody w theta z parts bars) c := by
  simp only [momentsOf]
  rw [h.integral w _ (by fun_prop), h.integral w _ (by fun_prop), h.integral w _ (by fun_prop),
    h.integral w _ (by fun_prop), h.integral w _ (by fun_prop)]

theorem cracked_rigidity (hb : ∀ p ∈ parts, 0 < initialModulus p.1.mat) (z : ℝ) :
    (bars.map fun b => initialModulus b.mat * b.area).sum ≤
      (crackedBody (fun E _ => E) theta z parts bars).integral (fun _ => 1) := by
  simp only [Body.integral, crackedBody, List.map_map, Function.comp_def, mul_one]
  have : 0 ≤ (parts.map fun p => initialModulus p.1.mat * ∫ _ in p.2 ∩ upperSide theta z, (1 : ℝ)).sum := by
    refine List.sum_nonneg ?_
    intro x hx
    obtain ⟨p, hp, rfl⟩ := List.mem_map.1 hx
    exact mul_nonneg (hb p hp).le (integral_nonneg fun _ => zero_le_one)
  simp only [integral_const, smul_eq_mul, mul_one] at this ⊢
  linarith

/-- **C63 (properties).** If moreover the remaining surfaces form one polygon, the calculation returns the geometry of
`C63_geometry_partial` together with its properties: area, rigidity, mass, first and second moments about the origin and about
the centroid are the integrals over the compressed parts of the surfaces plus the sums over the bars. -/
theorem C63_properties_partial (h : CrackInput split sh theta parts bars) (hc : ∃ p ∈ parts, p.1.concrete = true)
    (eig : ℝ → ℝ → ℝ → Eig) (union : List Polygon → ShapelyResult) :
    ∃ g z z0 pieces, IsCracked theta z parts bars g pieces ∧
      |axisImbalance theta (parts.map fun p => p.1.member p.2) (bars.map GBar.rigidPoint) z| ≤ 1000 ∧
      (∀ z', axisImbalance theta (parts.map fun p => p.1.member p.2) (bars.map GBar.rigidPoint) z' = 0 ↔ z' = z0) ∧
      |z - z0| * (bars.map fun b => initialModulus b.mat * b.area).sum ≤ 1000 ∧
      ∀ q, union (g.surfs.map GSurf.poly) = .polygon q →
        ∃ gp, crackedProperties (marinCrack split) sh eig union theta (parts.map Prod.fst) bars = .ok (some (gp, g)) ∧
          gp.area = (parts.map fun p => ∫ _ in p.2 ∩ upperSide theta z, (1 : ℝ)).sum ∧
          gp.areaReinf = (bars.map GBar.area).sum ∧
          gp.ea = (crackedBody (fun E _ => E) theta z parts bars).integral (fun _ => 1) ∧
          gp.mass = (crackedBody (fun _ rho => rho * 1e-9) theta z parts bars).integral (fun _ => 1) ∧
          gp.perimeter = perimeter q.ext ∧
          gp.m = momentsOf (crackedBody (fun _ _ => 1) theta z parts bars) 0 ∧
          gp.em = momentsOf (crackedBody (fun E _ => E) theta z parts bars) 0 ∧
          gp.cy = (crackedBody (fun E _ => E) theta z parts bars).integral Prod.fst / gp.ea ∧
          gp.cz = (crackedBody (fun E _ => E) theta z parts bars).integral Prod.snd / gp.ea ∧
          gp.mc = momentsOf (crackedBody (fun _ _ => 1) theta z parts bars) (gp.cy, gp.cz) ∧
          gp.emc = momentsOf (crackedBody (fun E _ => E) theta z parts bars) (gp.cy, gp.cz) := by
  obtain ⟨g, z, z0, pieces, hg, hI, h1, h2, h3⟩ := C63_geometry_partial h
  refine ⟨g, z, z0, pieces, hI, h1, h2, h3, fun q hq => ?_⟩
  have hgs : g = ⟨pieces.map Prod.fst, g.bars⟩ := by
    cases g; simp only [GSection.mk.injEq, and_true]; exact hI.surfs
  have hE := hI.integral (fun E _ => E) (fun _ => 1) continuous_const
  have hrig := cracked_rigidity (bars := bars) h.modulus (theta := theta) z
  have hsteel := h.steel
  have hbm : ∀ b ∈ g.bars, 0 < initialModulus b.mat := by
    intro b hb
    have : initialModulus b.mat ∈ g.bars.map (fun b => initialModulus b.mat) := List.mem_map_of_mem hb
    rw [hI.bar_modulus] at this
    obtain ⟨b', hb', e⟩ := List.mem_map.1 this
    rw [← e]
    exact h.bar_modulus b' hb'
  obtain ⟨gp, e0, e1, e2, e3, e4, e5, e6, e7, e8, e9, e10, e11, -⟩ := C52_marin split eig union pieces g.bars
    (fun p hp => (hI.bounds p hp).1)
    (by
      intro p hp
      obtain ⟨r, hr, e⟩ := hI.modulus p hp
      rw [e]
      exact h.modulus r hr)
    hbm
    (by
      have : (sectionBody initialModulus pieces g.bars).integral (fun _ => 1) =
          (crackedBody (fun E _ => E) theta z parts bars).integral (fun _ => 1) := hE
      rw [this]
      exact (hsteel.trans_le hrig).ne')
    q (by
      rw [hI.surfs, List.map_map] at hq
      exact hq)
  rw [← hgs] at e0
  have hareas : g.bars.map GBar.area = bars.map GBar.area := by
    have := congrArg (List.map Prod.snd) hI.placed
    rw [List.map_map, List.map_map] at this
    exact this
  have hmass := hI.integral (fun _ rho => rho * 1e-9) (fun _ => 1) continuous_const
  have hy := hI.integral (fun E _ => E) Prod.fst continuous_fst
  have hz := hI.integral (fun E _ => E) Prod.snd continuous_snd
  have m1 := hI.moments fun _ _ => 1
  have mE := hI.moments fun E _ => E
  refine ⟨gp, ?_, ?_, ?_, e3.trans hE, e4.trans hmass, e5, e6.trans (m1 0), e7.trans (mE 0), ?_, ?_, e10.trans (m1 _),
    e11.trans (mE _)⟩
  · have : (parts.map Prod.fst).any (fun s => s.concrete) = true := by
      obtain ⟨p, hp, hpc⟩ := hc
      exact List.any_eq_true.2 ⟨p.1, List.mem_map_of_mem hp, hpc⟩
    simp only [crackedProperties, this, if_true, hg, bind, Except.bind, pure, Except.pure]
    rw [show (marinCrack split).elastic = marinElastic split from rfl, e0]
  · have ha := hI.integral (fun _ _ => 1) (fun _ => 1) continuous_const
    simp only [Body.integral, sectionBody, crackedBody, List.map_map, Function.comp_def, one_mul, mul_one] at ha
    have hb : (g.bars.map fun b => b.area).sum = (bars.map fun b => b.area).sum := congrArg List.sum hareas
    rw [e1]
    linarith
  · rw [e2, hareas]
  · rw [e8]; exact congrArg (· / gp.ea) hy
  · rw [e9]; exact congrArg (· / gp.ea) hz

/-! ### Centroid and axis -/

theorem crackedBody_imbalance (h : GoodMembers (parts.map fun p => p.1.member p.2) (bars.map GBar.rigidPoint)) (z : ℝ) :
    (crackedBody (fun E _ => E) theta z parts bars).integral (fun x => height theta x - z) =
      axisImbalance theta (parts.map fun p => p.1.member p.2) (bars.map GBar.rigidPoint) z +
        ((parts.filter fun p => !p.1.concrete).map fun p => initialModulus p.1.mat *
          ∫ x in p.2 \ upperSide theta z, (z - height theta x)).sum := by
  have hmeas : ∀ p ∈ parts, MeasurableSet p.2 := fun p hp => h.measurable _ (List.mem_map_of_mem hp)
  have hbdd : ∀ p ∈ parts, Bornology.IsBounded p.2 := fun p hp => h.bounded _ (List.mem_map_of_mem hp)
  simp only [Body.integral, crackedBody, axisImbalance, List.map_map, Function.comp_def, GBar.rigidPoint]
  have key : ∀ l : List (RSurf × Set (ℝ × ℝ)), (∀ p ∈ l, MeasurableSet p.2 ∧ Bornology.IsBounded p.2) →
      (l.map fun p => initialModulus p.1.mat * ∫ x in p.2 ∩ upperSide theta z, (height theta x - z)).sum =
      (l.map fun p => (p.1.member p.2).E * ∫ x in (p.1.member p.2).working theta z, (height theta x - z)).sum +
        ((l.filter fun p => !p.1.concrete).map fun p => initialModulus p.1.mat *
          ∫ x in p.2 \ upperSide theta z, (z - height theta x)).sum := by
    intro l
    induction l with
    | nil => simp
    | cons p l ih =>
      intro hl
      have ih := ih fun q hq => hl q (List.mem_cons_of_mem _ hq)
      obtain ⟨hm, hb⟩ := hl p List.mem_cons_self
      rw [List.map_cons, List.sum_cons, ih, List.map_cons, List.sum_cons, List.filter_cons]
      cases hc : p.1.concrete with
      | true =>
        have : (p.1.member p.2).working theta z = p.2 ∩ upperSide theta z := by
          simp [Member.working, RSurf.member, hc]
        rw [this]
        simp only [Bool.not_true, Bool.false_eq_true, if_false, RSurf.member]
        ring
      | false =>
        have : (p.1.member p.2).working theta z = p.2 := by simp [Member.working, RSurf.member, hc]
        rw [this]
        simp only [Bool.not_false, if_true, RSurf.member, List.map_cons, List.sum_cons]
        have hi : IntegrableOn (fun x => height theta x - z) p.2 :=
          continuous_integrableOn ((height_continuous theta).sub continuous_const) hb
        have hs := integral_inter_add_sdiff (upperSide_measurable theta z) hi
        have hn : ∫ x in p.2 \ upperSide theta z, (z - height theta x) =
            -∫ x in p.2 \ upperSide theta z, (height theta x - z) := by
          rw [← integral_neg]
          simp
        rw [hn, ← hs]
        ring
  rw [key parts fun p hp => ⟨hmeas p hp, hbdd p hp⟩]
  ring

/-- The integral of the height over a body with bounded regions. -/
theorem body_height (b : Body) (hb : BoundedBody b) (theta z : ℝ) :
    b.integral (fun x => height theta x - z) =
      Real.cos theta * b.integral Prod.snd - Real.sin theta * b.integral Prod.fst - z * b.integral (fun _ => 1) := by
  have e : (fun x : ℝ × ℝ => height theta x - z) =
      fun x => (Real.cos theta * x.2 + -Real.sin theta * x.1) + -z * 1 := by
    funext x; simp only [height]; ring
  rw [e, Body.integral_add' b hb _ _ (by fun_prop) (by fun_prop),
    Body.integral_add' b hb _ _ (by fun_prop) (by fun_prop), Body.integral_smul' b, Body.integral_smul' b,
    Body.integral_smul' b]
  ring

/-- **C63 (centroid).** The neutral axis of bending without axial force passes through the centroid of the cracked section:
when all surfaces are concrete, the reported centroid lies at the height of the axis, up to `1000 / EA`.  In general the
distance times `EA` is the imbalance left by the search plus the tension the surfaces that are not concrete would have carried
below the axis, where they are removed from the geometry although the equilibrium counted on them. -/
theorem C63_centroid (h : CrackInput split sh theta parts bars) (z cy cz ea : ℝ)
    (hz : |axisImbalance theta (parts.map fun p => p.1.member p.2) (bars.map GBar.rigidPoint) z| ≤ 1000)
    (hea : ea = (crackedBody (fun E _ => E) theta z parts bars).integral (fun _ => 1))
    (hcy : cy = (crackedBody (fun E _ => E) theta z parts bars).integral Prod.fst / ea)
    (hcz : cz = (crackedBody (fun E _ => E) theta z parts bars).integral Prod.snd / ea) :
    ((height theta (cy, cz) - z) * ea =
      axisImbalance theta (parts.map fun p => p.1.member p.2) (bars.map GBar.rigidPoint) z +
        ((parts.filter fun p => !p.1.concrete).map fun p => initialModulus p.1.mat *
          ∫ x in p.2 \ upperSide theta z, (z - height theta x)).sum) ∧
    ((∀ p ∈ parts, p.1.concrete = true) → |height theta (cy, cz) - z| * ea ≤ 1000) := by
  have hpos : 0 < ea := by
    rw [hea]
    exact h.steel.trans_le (cracked_rigidity h.modulus z)
  have hb : BoundedBody (crackedBody (fun E _ => E) theta z parts bars) := by
    intro a ha
    simp only [crackedBody, List.mem_map] at ha
    obtain ⟨p, hp, rfl⟩ := ha
    exact (h.bounds p hp).1.bounded.subset Set.inter_subset_left
  have main : (height theta (cy, cz) - z) * ea =
      axisImbalance theta (parts.map fun p => p.1.member p.2) (bars.map GBar.rigidPoint) z +
        ((parts.filter fun p => !p.1.concrete).map fun p => initialModulus p.1.mat *
          ∫ x in p.2 \ upperSide theta z, (z - height theta x)).sum := by
    rw [← crackedBody_imbalance h.members z, body_height _ hb, ← hea]
    have h1 : cy * ea = (crackedBody (fun E _ => E) theta z parts bars).integral Prod.fst := by
      rw [hcy]; field_simp
    have h2 : cz * ea = (crackedBody (fun E _ => E) theta z parts bars).integral Prod.snd := by
      rw [hcz]; field_simp
    rw [← h1, ← h2]
    simp only [height]
    ring
  refine ⟨main, fun hall => ?_⟩
  have : parts.filter (fun p => !p.1.concrete) = [] := by
    rw [List.filter_eq_nil_iff]
    intro p hp
    simp [hall p hp]
  rw [this] at main
  simp only [List.map_nil, List.sum_nil, add_zero] at main
  rw [← abs_of_pos hpos, ← abs_mul, main]
  exact hz

/-! ### Other inputs -/

/-- **C63 (not reinforced concrete).** A section without concrete surfaces gives `None`, whatever the integrator; a section with
concrete never does. -/
theorem C63_none (ci : CrackIntegrator) (sh : Shapely) (eig : ℝ → ℝ → ℝ → Eig) (union : List Polygon → ShapelyResult)
    (theta : ℝ) (surfs : List RSurf) (bars : List GBar) :
    crackedProperties ci sh eig union theta surfs bars = .ok none ↔ ∀ s ∈ surfs, s.concrete = false := by
  unfold crackedProperties
  cases hc : surfs.any fun s => s.concrete with
  | false =>
    simp only [Bool.false_eq_true, if_false, true_iff]
    simpa using hc
  | true =>
    simp only [if_true]
    constructor
    · intro h
      simp only [except_bind_ok, except_pure_ok] at h
      obtain ⟨g, -, gp, -, h⟩ := h
      cases h
    · intro h
      obtain ⟨s, hs, h'⟩ := List.any_eq_true.1 hc
      rw [h s hs] at h'
      cases h'

/-- **C63, violated (surfaces in several pieces).** If what remains above the axis does not form one polygon - the flanges of a
trough, or a section made of separate surfaces - the calculation ends with `AttributeError`. -/
theorem C63_pieces_violated (ci : CrackIntegrator) (sh : Shapely) (eig : ℝ → ℝ → ℝ → Eig)
    (union : List Polygon → ShapelyResult) (theta : ℝ) (surfs : List RSurf) (bars : List GBar)
    (hc : ∃ s ∈ surfs, s.concrete = true) {g : GSection}
    (hg : crackedGeometry ci sh theta surfs bars = .ok g) {ps : List Polygon}
    (hu : union (g.surfs.map GSurf.poly) = .multi ps) :
    crackedProperties ci sh eig union theta surfs bars = .error .attributeError := by
  have : surfs.any (fun s => s.concrete) = true := by
    obtain ⟨s, hs, h⟩ := hc
    exact List.any_eq_true.2 ⟨s, hs, h⟩
  simp only [crackedProperties, this, if_true, hg, bind, Except.bind,
    C52_multipolygon_violated ci.elastic eig union g ps hu]

/-- A response that rises towards zero without crossing it: no bracket is found. -/
theorem prefind_onesided (f : ℝ → ℝ) (epsA : ℝ) (h0 : f epsA < 0) (h : ∀ x, epsA < x → f epsA ≤ f x ∧ f x ≤ 0) :
    ∃ k, prefind f epsA (f epsA) = some (.error .valueError, k) := by
  obtain ⟨r, k, hr, -⟩ := prefind_terminates f epsA (f epsA)
  refine ⟨k, ?_⟩
  have hr' := hr
  unfold prefind at hr'
  rw [Option.map_eq_some_iff] at hr'
  obtain ⟨⟨w, k'⟩, hw, hr'⟩ := hr'
  simp only [Prod.mk.injEq] at hr'
  obtain ⟨hr', rfl⟩ := hr'
  rcases pyWhile_inv (fun s => s.found = false ∧ s.restarts = 0 ∧ 0 < s.delta)
    (fun s s' hI hc hb => by
      obtain ⟨i1, i2, i3⟩ := hI
      have hx : epsA < epsA + preSign (f epsA) * s.delta * 2 ^ s.it := by
        rw [preSign_neg h0]
        have : (0 : ℝ) < 1 * s.delta * 2 ^ s.it := by positivity
        linarith
      obtain ⟨a1, a2⟩ := h _ hx
      have hn1 : ¬ f epsA * f (epsA + preSign (f epsA) * s.delta * 2 ^ s.it) < 0 := by
        rw [not_lt]; exact mul_nonneg_of_nonpos_of_nonpos h0.le a2
      have hn2 : ¬ |f (epsA + preSign (f epsA) * s.delta * 2 ^ s.it)| > |f epsA| := by
        rw [abs_of_nonpos a2, abs_of_neg h0, not_lt]
        linarith
      simp only [preBody, if_neg hn1, if_neg hn2, Except.ok.injEq] at hb
      subst hb
      exact ⟨rfl, i2, i3⟩)
    (show preStart.found = false ∧ preStart.restarts = 0 ∧ 0 < preStart.delta from
      ⟨rfl, rfl, by simp only [preStart]; norm_num⟩) hw with
    ⟨s, rfl, ⟨i1, i2, -⟩, hn⟩ | ⟨s, e, -, -, -, hb⟩
  · simp only [preCond, i1, i2, true_and, not_and_or, not_lt] at hn
    have : 20 ≤ s.it := by
      rcases hn with hn | hn
      · exact hn
      · omega
    simp only at hr'
    rw [if_pos ⟨this, i1⟩] at hr'
    rw [hr, hr']
  · simp only [preBody] at hb
    split_ifs at hb

/-- **C63, violated (plain concrete).** The check for reinforced concrete only looks for concrete surfaces.  A section of
concrete without bars passes it; the search for its neutral axis then raises `ValueError`: in bending without axial force such
a section has no equilibrium.  (`1000 <` imbalance: some concrete lies above the axis through the origin.) -/
theorem C63_plain_violated (split : Polygon → ℝ → ℝ → ShapelyResult) (sh : Shapely) (eig : ℝ → ℝ → ℝ → Eig)
    (union : List Polygon → ShapelyResult) (theta : ℝ) (parts : List (RSurf × Set (ℝ × ℝ))) (hne : parts ≠ [])
    (hconc : ∀ p ∈ parts, p.1.concrete = true) (henc : ∀ p ∈ parts, Encloses p.1.poly.ext p.1.poly.ints p.2)
    (hE : ∀ p ∈ parts, 0 < initialModulus p.1.mat)
    (hclip : ∀ p ∈ parts,
      SplitsExactly split (p.1.poly.rotate (-Real.pi - theta)) (rotPt (-Real.pi - theta) '' p.2))
    (hsize : ∀ p ∈ parts, ∀ x ∈ p.2, |height theta x| ≤ 1e6)
    (hsome : 1000 < axisImbalance theta (parts.map fun p => p.1.member p.2) [] 0) :
    crackedProperties (marinCrack split) sh eig union theta (parts.map Prod.fst) [] = .error .valueError := by
  set F := axisImbalance theta (parts.map fun p => p.1.member p.2) [] with hF
  have hgood : GoodMembers (parts.map fun p => p.1.member p.2) ([] : List (ℝ × (ℝ × ℝ))) := by
    refine ⟨?_, ?_, ?_, by simp⟩ <;> intro m hm <;> obtain ⟨p, hp, rfl⟩ := List.mem_map.1 hm
    · exact (henc p hp).measurable
    · exact (henc p hp).bounded
    · exact (hE p hp).le
  have hanti : Antitone F := axisImb_antitone hgood theta
  have hnn : ∀ z, 0 ≤ F z := by
    intro z
    simp only [hF, axisImbalance, List.map_nil, List.sum_nil, add_zero, List.map_map]
    refine List.sum_nonneg ?_
    intro y hy
    obtain ⟨p, hp, rfl⟩ := List.mem_map.1 hy
    refine mul_nonneg (hE p hp).le ?_
    rw [working_integral (m := p.1.member p.2) (henc p hp).measurable]
    refine integral_nonneg fun x => ?_
    simp [pull, RSurf.member, hconc p hp]
  have hs : ∀ s ∈ parts.map Prod.fst, 0 < initialModulus s.mat := by
    intro s hs
    obtain ⟨p, hp, rfl⟩ := List.mem_map.1 hs
    exact hE p hp
  have hsec := crackSection_ok theta (surfs := parts.map Prod.fst) (bars := []) hs (by simp)
  set N := (marinCrack split).axial ((parts.map Prod.fst).map (tempSurf theta))
    (([] : List GBar).zipIdx.map (tempBar theta)) with hN
  have hag : ∀ e, 0 ≤ e → N e (-1e-5) = -1e-5 * F (1e5 * e) := by
    intro e he
    refine cracked_axial theta henc (fun p hp _ => hclip p hp) fun p hp _ x hx => ?_
    have h2 := (abs_le.1 (hsize p hp x hx)).2
    norm_num at h2 ⊢
    linarith
  set f : ℝ → ℝ := fun e => N e (-1e-5) - 0 with hf
  have hf0 : f 0 = -1e-5 * F 0 := by
    simp only [hf, sub_zero]
    rw [hag 0 le_rfl, mul_zero]
  have hlow : f 0 < -1e-2 := by
    rw [hf0]
    norm_num at hsome ⊢
    linarith
  obtain ⟨k, hk⟩ := prefind_onesided f 0 (by linarith) (by
    intro x hx
    have h1 : f x = -1e-5 * F (1e5 * x) := by
      simp only [hf, sub_zero]
      exact hag x hx.le
    have h2 := hanti (show (0 : ℝ) ≤ 1e5 * x by positivity)
    have h3 := hnn (1e5 * x)
    rw [h1, hf0]
    constructor <;> linarith)
  have haxis : crackAxis N = .error .valueError := by
    have h0 : ¬ |N 0 (-1e-5) - 0| ≤ 1e-2 := by
      rw [show N 0 (-1e-5) - 0 = f 0 from rfl, abs_of_neg (by linarith)]
      linarith
    simp only [crackAxis, fixedCurvature, if_neg h0]
    rw [show N 0 (-1e-5) - 0 = f 0 from rfl, show (fun e => N e (-1e-5) - 0) = f from rfl, hk]
  have hany : (parts.map Prod.fst).any (fun s => s.concrete) = true := by
    obtain ⟨p, hp⟩ := List.exists_mem_of_ne_nil _ hne
    exact List.any_eq_true.2 ⟨p.1, List.mem_map_of_mem hp, hconc p hp⟩
  simp only [crackedProperties, hany, if_true, crackedGeometry, hsec, bind, Except.bind]
  rw [← hN, haxis]

end

end SC
