import Verif.Props.Gross
import Verif.Props.MarinSurfaces

/-! # C52: examples, violations, fibre integrator -/

set_option autoImplicit false

namespace SC

open Spec MeasureTheory

noncomputable section

/-- Area moments of a rectangle. -/
theorem rect_moments {a b c d : ℝ} (hab : a < b) (hcd : c < d) :
    let R : Set (ℝ × ℝ) := Set.Icc a b ×ˢ Set.Icc c d
    areaMoment 0 0 R = (b - a) * (d - c) ∧ areaMoment 1 0 R = (b ^ 2 - a ^ 2) / 2 * (d - c) ∧
    areaMoment 0 1 R = (b - a) * ((d ^ 2 - c ^ 2) / 2) ∧
    areaMoment 2 0 R = (b ^ 3 - a ^ 3) / 3 * (d - c) ∧ areaMoment 0 2 R = (b - a) * ((d ^ 3 - c ^ 3) / 3) ∧
    areaMoment 1 1 R = (b ^ 2 - a ^ 2) / 2 * ((d ^ 2 - c ^ 2) / 2) := by
  intro R
  have henc := encloses_rect hab hcd
  have hm : ∀ m n, signedMoment m n 0 (rectRing a b c d) = marin (rectRing a b c d) m n := by
    intro m n
    have h := C01_signed_moment (rectRing a b c d) henc.ext_proper.1 0 m n
    rw [marinIntegration_ok] at h
    exact (Except.ok.inj h).symm
  have h0 : 0 < marin (rectRing a b c d) 0 0 := by
    rw [(rectMarin a b c d).1]
    exact mul_pos (by linarith) (by linarith)
  have key : ∀ m n, areaMoment m n R = marin (rectRing a b c d) m n := by
    intro m n
    rw [← henc.moments m n]
    simp only [holedMoment, ringMoment, List.map_nil, List.sum_nil, sub_zero, hm, sign_pos h0]
    simp
  simp only [key]
  refine ⟨?_, ?_, ?_, ?_, ?_, ?_⟩ <;>
    simp [rectRing, closeRing, marin_cons_cons, marin_single, edgeTerm_explicit, det2] <;> ring

/-- An elastic material. -/
def elasticMaterial (E density : ℝ) : Material := ⟨density, none, none, none, Elastic.law ⟨E, none⟩⟩

/-- A square `[-1, 1]²` of modulus 1 with two stiff bars on the diagonal. -/
def diagonalParts : List (GSurf × Set (ℝ × ℝ)) :=
  [(⟨⟨rectRing (-1) 1 (-1) 1, []⟩, elasticMaterial 1 2500⟩, Set.Icc (-1) 1 ×ˢ Set.Icc (-1) 1)]

/-- The bars of the diagonal section. -/
def diagonalBars : List GBar :=
  [⟨(1 / 2, 1 / 2), 1, elasticMaterial 6 7850⟩, ⟨(-1 / 2, -1 / 2), 1, elasticMaterial 6 7850⟩]

theorem diagonal_moments :
    (sectionBody initialModulus diagonalParts diagonalBars).integral (fun _ => 1) = 16 ∧
    (sectionBody initialModulus diagonalParts diagonalBars).integral Prod.fst = 0 ∧
    (sectionBody initialModulus diagonalParts diagonalBars).integral Prod.snd = 0 ∧
    (momentsOf (sectionBody initialModulus diagonalParts diagonalBars) 0).iyy = 13 / 3 ∧
    (momentsOf (sectionBody initialModulus diagonalParts diagonalBars) 0).izz = 13 / 3 ∧
    (momentsOf (sectionBody initialModulus diagonalParts diagonalBars) 0).iyz = 3 := by
  obtain ⟨h00, h10, h01, h20, h02, h11⟩ := rect_moments (a := -1) (b := 1) (c := -1) (d := 1)
    (by norm_num) (by norm_num)
  simp only [areaMoment, pow_zero, pow_one, one_mul, mul_one] at h00 h10 h01 h20 h02 h11
  refine ⟨?_, ?_, ?_, ?_, ?_, ?_⟩ <;>
    simp only [momentsOf, sectionBody, diagonalParts, diagonalBars, Body.integral, List.map_cons, List.map_nil,
      List.sum_cons, List.sum_nil, initialModulus, elasticMaterial, Elastic.law, Elastic.tangent, Prod.fst_zero,
      Prod.snd_zero, sub_zero, h00, h10, h01, h20, h02, h11] <;> norm_num

theorem diagonal_enc : ∀ p ∈ diagonalParts, Encloses p.1.poly.ext p.1.poly.ints p.2 := by
  intro p hp
  rw [diagonalParts, List.mem_singleton] at hp
  subst hp
  exact encloses_rect (by norm_num) (by norm_num)

theorem diagonal_pos : (∀ p ∈ diagonalParts, 0 < initialModulus p.1.mat) ∧
    ∀ b ∈ diagonalBars, 0 < initialModulus b.mat := by
  constructor
  · intro p hp
    rw [diagonalParts, List.mem_singleton] at hp
    subst hp
    norm_num [initialModulus, elasticMaterial, Elastic.law, Elastic.tangent]
  · intro b hb
    simp only [diagonalBars, List.mem_cons, List.not_mem_nil, or_false] at hb
    rcases hb with rfl | rfl <;> norm_num [initialModulus, elasticMaterial, Elastic.law, Elastic.tangent]

/-- Eigenvectors `(1, ±1)/√2`, as numpy returns them for `[[a, b], [b, a]]`. -/
def diagonalEig : ℝ → ℝ → ℝ → Eig := fun a b _ =>
  ⟨a + b, a - b, (Real.sqrt 2 / 2, Real.sqrt 2 / 2), (-(Real.sqrt 2 / 2), Real.sqrt 2 / 2)⟩

theorem diagonalEig_ok (a b : ℝ) : IsEig a b a (diagonalEig a b a) := by
  have h : Real.sqrt 2 ^ 2 = 2 := Real.sq_sqrt (by norm_num)
  constructor <;> simp only [diagonalEig] <;> first | ring1 | linear_combination (1 / 2) * h

/-- The hypotheses of `C52_marin` and `C52_principal_partial` are met by this section. -/
example (split : Polygon → ℝ → ℝ → ShapelyResult) :
    ∃ gp, grossProperties (marinElastic split) diagonalEig (fun _ => .polygon ⟨rectRing (-1) 1 (-1) 1, []⟩)
      ⟨diagonalParts.map Prod.fst, diagonalBars⟩ = .ok gp ∧ gp.ea = 16 ∧ gp.cy = 0 ∧ gp.em.iyy = 13 / 3 := by
  obtain ⟨d1, d2, -, d4, -⟩ := diagonal_moments
  obtain ⟨gp, h, -, -, h3, -, -, -, h7, h8, -⟩ := C52_marin split diagonalEig
    (fun _ => .polygon ⟨rectRing (-1) 1 (-1) 1, []⟩) diagonalParts diagonalBars
    diagonal_enc diagonal_pos.1 diagonal_pos.2 (by rw [d1]; norm_num) ⟨rectRing (-1) 1 (-1) 1, []⟩ rfl
  refine ⟨gp, h, by rw [h3, d1], by rw [h8, d2, zero_div], by rw [h7, d4]⟩

/-- **C52 violated** (principal angle).  Square section with two bars on the diagonal: `e_theta` comes out as
45 degrees, but the bending stiffness about the axis at that angle is the smallest one, `e_i22`, not `e_i11`:
the strong axis is at -45 degrees.  (`theta` is an arc cosine, so it cannot be negative, and the matrix passed
to `eig` has `+iyz` where the second moment about an inclined axis has `-iyz`.) -/
theorem C52_theta_violated (split : Polygon → ℝ → ℝ → ShapelyResult) :
    ∃ gp, grossProperties (marinElastic split) diagonalEig (fun _ => .polygon ⟨rectRing (-1) 1 (-1) 1, []⟩)
        ⟨diagonalParts.map Prod.fst, diagonalBars⟩ = .ok gp ∧
      IsEig gp.emc.iyy gp.emc.iyz gp.emc.izz (diagonalEig gp.emc.iyy gp.emc.iyz gp.emc.izz) ∧
      gp.e_theta = Real.pi / 4 ∧
      (sectionBody initialModulus diagonalParts diagonalBars).aboutAxis (gp.cy, gp.cz) gp.e_theta = gp.e_i22 ∧
      (sectionBody initialModulus diagonalParts diagonalBars).aboutAxis (gp.cy, gp.cz) (-gp.e_theta)
        = gp.e_i11 ∧
      gp.e_i22 < gp.e_i11 := by
  obtain ⟨d1, d2, d3, d4, d5, d6⟩ := diagonal_moments
  obtain ⟨gp, h, -, -, h3, -, -, -, h7, h8, h9, -, h11, -, h13⟩ := C52_marin split diagonalEig
    (fun _ => .polygon ⟨rectRing (-1) 1 (-1) 1, []⟩) diagonalParts diagonalBars
    diagonal_enc diagonal_pos.1 diagonal_pos.2 (by rw [d1]; norm_num) ⟨rectRing (-1) 1 (-1) 1, []⟩ rfl
  have hc : ((gp.cy, gp.cz) : ℝ × ℝ) = 0 := by rw [h8, h9, d2, d3]; simp
  have hb := boundedBody_section initialModulus diagonalParts diagonalBars diagonal_enc
  rw [hc] at h11
  rw [h11, d4, d5, d6] at h13
  have hgt : ¬ ((13 / 3 : ℝ) - 3 > 13 / 3 + 3) := by norm_num
  simp only [findPrincipal, diagonalEig] at h13
  have h13 := h13.trans (if_neg hgt)
  simp only [Prod.mk.injEq] at h13
  obtain ⟨t1, t2, t3⟩ := h13
  have hcos : Real.arccos (Real.sqrt 2 / 2) = Real.pi / 4 := by
    rw [← Real.cos_pi_div_four, Real.arccos_cos (by positivity) (by linarith [Real.pi_pos])]
  rw [hcos] at t3
  have hs : (Real.sqrt 2 / 2) ^ 2 = 1 / 2 := by rw [div_pow, Real.sq_sqrt (by norm_num)]; norm_num
  refine ⟨gp, h, ?_, t3, ?_, ?_, ?_⟩
  · rw [h11, d4, d5]; exact diagonalEig_ok _ _
  · rw [hc, t3, t2, aboutAxis_eq _ hb, d4, d5, d6, Real.cos_pi_div_four, Real.sin_pi_div_four, ← sq, hs]
    norm_num
  · rw [hc, t3, t1, aboutAxis_eq _ hb, d4, d5, d6, Real.cos_neg, Real.sin_neg, Real.cos_pi_div_four,
      Real.sin_pi_div_four, neg_mul, neg_sq, ← sq, hs]
    norm_num
  · rw [t1, t2]; norm_num

/-- **C52 violated** (section in several pieces).  If the surfaces do not form one polygon, the gross properties
cannot be computed at all: the code warns, sets the perimeter to zero and then reads the missing attribute. -/
theorem C52_multipolygon_violated (integ : ElasticIntegrator) (eig : ℝ → ℝ → ℝ → Eig)
    (union : List Polygon → ShapelyResult) (s : GSection) (ps : List Polygon)
    (hu : union (s.surfs.map GSurf.poly) = .multi ps) :
    grossProperties integ eig union s = .error .attributeError := by
  simp only [grossProperties, hu]
  rfl

theorem gross_mapM_error {α β : Type} (f : α → Except PyErr β) (e : PyErr) :
    ∀ l : List α, (∀ a ∈ l, f a = .error e ∨ ∃ r, f a = .ok r) → (∃ a ∈ l, f a = .error e) →
      l.mapM f = .error e
  | [], _, h => by simp at h
  | a :: l, h, hex => by
    rw [List.mapM_cons]
    rcases h a List.mem_cons_self with ha | ⟨r, hr⟩
    · rw [ha]; rfl
    · obtain ⟨b, hb, hbe⟩ := hex
      rcases List.mem_cons.1 hb with rfl | hb
      · rw [hr] at hbe; cases hbe
      · rw [hr, gross_mapM_error f e l (fun c hc => h c (List.mem_cons_of_mem _ hc)) ⟨b, hb, hbe⟩]
        rfl

theorem elasticOf_cases (m : Material) :
    (initialModulus m ≤ 0 → elasticOf m = .error .valueError) ∧
    (elasticOf m = .error .valueError ∨ ∃ r, elasticOf m = .ok r) := by
  simp only [elasticOf, Elastic.mk?]
  split_ifs with h <;> simp [h]

/-- **C52 violated** (zero initial stiffness).  If the law of a surface or a bar has a nonpositive tangent at zero
strain, the gross properties raise `ValueError`. -/
theorem C52_modulus_violated (split : Polygon → ℝ → ℝ → ShapelyResult) (eig : ℝ → ℝ → ℝ → Eig)
    (union : List Polygon → ShapelyResult) (parts : List (GSurf × Set (ℝ × ℝ))) (bars : List GBar)
    (henc : ∀ p ∈ parts, Encloses p.1.poly.ext p.1.poly.ints p.2)
    (hE : (∃ p ∈ parts, initialModulus p.1.mat ≤ 0) ∨ ∃ b ∈ bars, initialModulus b.mat ≤ 0)
    (q : Polygon) (hu : union (parts.map fun p => p.1.poly) = .polygon q) :
    grossProperties (marinElastic split) eig union ⟨parts.map Prod.fst, bars⟩ = .error .valueError := by
  have hu' : union (List.map GSurf.poly (List.map Prod.fst parts)) = .polygon q := by
    rw [List.map_map]; exact hu
  have hmk : Elastic.mk? 1 none = .ok ⟨1, none⟩ := by simp [Elastic.mk?]
  have m1 := marin_moments_unit split parts bars henc
  have hsall : ∀ g ∈ parts.map Prod.fst, elasticSurface none g = .error .valueError ∨
      ∃ r, elasticSurface none g = .ok r := by
    intro g _
    rcases (elasticOf_cases g.mat).2 with h | ⟨r, h⟩ <;> simp [elasticSurface, h, Except.map]
  have hball : ∀ b ∈ bars.zipIdx, elasticBar none b = .error .valueError ∨
      ∃ r, elasticBar none b = .ok r := by
    intro b _
    rcases (elasticOf_cases b.1.mat).2 with h | ⟨r, h⟩ <;> simp [elasticBar, h, Except.map]
  have hg : fromGeometry none ⟨parts.map Prod.fst, bars⟩ = .error .valueError := by
    simp only [fromGeometry]
    by_cases hx : ∃ g ∈ parts.map Prod.fst, elasticSurface none g = .error .valueError
    · rw [gross_mapM_error _ _ _ hsall hx]; rfl
    · push Not at hx
      have hok : ∀ g ∈ parts.map Prod.fst, ∃ r, elasticSurface none g = .ok r := by
        intro g hgm
        rcases hsall g hgm with h | h
        · exact absurd h (hx g hgm)
        · exact h
      have hm : ∃ rs, (parts.map Prod.fst).mapM (elasticSurface none) = .ok rs := by
        clear hx hsall hE hu hu' m1 henc
        induction parts with
        | nil => exact ⟨[], rfl⟩
        | cons p parts ih =>
          obtain ⟨r, hr⟩ := hok p.1 (by simp)
          obtain ⟨rs, hrs⟩ := ih fun g hgm => hok g (by
            rw [List.map_cons]; exact List.mem_cons_of_mem _ hgm)
          exact ⟨r :: rs, by rw [List.map_cons, List.mapM_cons, hr, hrs]; rfl⟩
      obtain ⟨rs, hrs⟩ := hm
      have hbad : ∃ b ∈ bars.zipIdx, elasticBar none b = .error .valueError := by
        rcases hE with ⟨p, hp, hpe⟩ | ⟨b, hb, hbe⟩
        · exfalso
          apply hx p.1 (List.mem_map_of_mem hp)
          simp [elasticSurface, (elasticOf_cases p.1.mat).1 hpe, Except.map]
        · obtain ⟨i, hi, rfl⟩ := List.getElem_of_mem hb
          refine ⟨(bars[i], i), ?_, ?_⟩
          · rw [List.mem_zipIdx_iff_getElem?]
            simp [hi]
          · simp [elasticBar, (elasticOf_cases bars[i].mat).1 hbe, Except.map]
      rw [hrs, gross_mapM_error _ _ _ hball hbad]
      rfl
  simp only [grossProperties, hu', hmk, bind, Except.bind, m1]
  simp only [computeAreaMoments, hg, bind, Except.bind]

/-- Such a bar: elastic - perfectly plastic steel with an initial strain beyond the yield strain. -/
theorem C52_prestress_modulus (E fy e0 density : ℝ) (s0 : Option ℝ) (hE : 0 < E) (hfy : 0 < fy)
    (h0 : fy / E < e0) :
    initialModulus ⟨density, some e0, s0, some true,
      InitialStrain.law ⟨ElasticPlastic.law ⟨E, fy, 0, none⟩, e0, true⟩⟩ = 0 := by
  simp only [initialModulus, InitialStrain.law, InitialStrain.tangent, ElasticPlastic.law,
    ElasticPlastic.tangent, ElasticPlastic.eps_sy, ElasticPlastic.beyond, zero_add]
  simp [not_le.2 h0]

example : initialModulus ⟨7850, some 0.01, none, some true,
    InitialStrain.law ⟨ElasticPlastic.law ⟨200000, 1600, 0, none⟩, 0.01, true⟩⟩ = 0 :=
  C52_prestress_modulus 200000 1600 0.01 7850 none (by norm_num) (by norm_num) (by norm_num)

/-! ## Fibre integrator -/

/-- The fibres of an elastic geometry as a body of points. -/
def fibreBody (mesher : Polygon → ℝ → List ((ℝ × ℝ) × (ℝ × ℝ) × (ℝ × ℝ))) (ms : ℝ) (surfs : List (Polygon × ℝ))
    (bars : List (ℝ × (ℝ × ℝ))) : Body :=
  ⟨[], (surfs.flatMap fun s => (mesher s.1 (s.1.area * ms)).map fun t =>
    (s.2 * (triFibre t).2.2, ((triFibre t).1, (triFibre t).2.1))) ++ bars⟩

theorem bodyForces_points (l : List (ℝ × (ℝ × ℝ))) (e : Fin 3 → ℝ) :
    bodyForces ⟨[], l⟩ e = fun i => (l.map fun p => p.1 * (planeStrain e p.2.1 p.2.2) * lever p.2.1 p.2.2 i).sum := by
  induction l with
  | nil => funext i; fin_cases i <;> simp [bodyForces, Body.integral]
  | cons p l ih =>
    funext i
    have := congrFun ih i
    fin_cases i <;> simp [bodyForces, Body.integral, lever] at this ⊢ <;> rw [← this] <;> ring

/-- Fibre integration of elastic surfaces and bars. -/
theorem fiber_integratesAs (mesher : Polygon → ℝ → List ((ℝ × ℝ) × (ℝ × ℝ) × (ℝ × ℝ))) (ms : ℝ)
    (h0 : 0 < ms) (h1 : ms ≤ 1) (surfs : List ESurf) (hne : surfs ≠ []) (bars : List EBar)
    (hid : SameIds ((bars.map EBar.bar).map Bar.law)) :
    IntegratesAs (fiberElastic mesher ms) surfs bars
      (fibreBody mesher ms (surfs.map fun s => (s.poly, s.law.E))
        (bars.map fun b => (b.law.E * b.area, b.pt))) := by
  set data : List Group := (surfs.map fun s => (⟨(mesher s.poly (s.poly.area * ms)).map triFibre,
    ⟨0, s.law.law⟩⟩ : Group)) ++ groupBars (bars.map EBar.bar) with hdata
  have hd : data ≠ [] := by
    intro h
    rw [hdata, List.append_eq_nil_iff, List.map_eq_nil_iff] at h
    exact hne h.1
  have htri : triangulate (surfs.map fun s => ⟨s.poly.area, mesher s.poly, ⟨0, s.law.law⟩⟩)
      (bars.map EBar.bar) ms = .ok data := by
    rw [triangulate, if_neg (by push Not; exact ⟨h0, h1⟩), hdata, List.map_map]
    rfl
  have key : ∀ e, fiberElastic mesher ms surfs bars e (some data) =
      .ok (.forces (bodyForces (fibreBody mesher ms (surfs.map fun s => (s.poly, s.law.E))
        (bars.map fun b => (b.law.E * b.area, b.pt))) e), data) := by
    intro e
    rw [fiberElastic, C18_forces _ _ _ hd, fibreBody, bodyForces_points, (C18_additive _ _ e).1]
    congr 3
    have hp : resultants (fibres Law.stress (groupBars (bars.map EBar.bar))) e =
        resultants ((bars.map EBar.bar).map (Bar.fibre Law.stress)) e := by
      funext i
      exact ((C18_grouping Law.stress (bars.map EBar.bar) hid).map _).sum_eq
    rw [hp]
    funext i
    rw [List.map_append, List.sum_append, Pi.add_apply]
    congr 1
    · simp only [resultants, fibres, List.flatMap_map, List.map_flatMap, List.map_map, Function.comp_def,
        Elastic.law, Elastic.stress]
      congr 2
      funext s
      apply List.map_congr_left
      intro t _
      ring
    · simp only [resultants, List.map_map, Function.comp_def, Bar.fibre, EBar.bar, Elastic.law, Elastic.stress]
      congr 1
      apply List.map_congr_left
      intro b _
      ring
  refine ⟨data, fun e => ⟨?_, key e⟩⟩
  rw [← key e]
  simp only [fiberElastic, fiberIntegrate, htri]


/-- `mesh` is a triangulation of `R` as far as moments up to the second order go: triangles that are not
degenerate, together with the moments of `R`; no triangle extends over more than `h` in any direction. -/
structure MeshOf (mesh : List ((ℝ × ℝ) × (ℝ × ℝ) × (ℝ × ℝ))) (R : Set (ℝ × ℝ)) (h : ℝ) : Prop where
  proper : ∀ t ∈ mesh, cross t.1 t.2.1 t.2.2 ≠ 0
  moments : ∀ m n, m + n ≤ 2 → meshMoment m n mesh = areaMoment m n R
  size : ∀ t ∈ mesh, ∀ a ∈ [t.1, t.2.1, t.2.2], ∀ b ∈ [t.1, t.2.1, t.2.2],
    |a.1 - b.1| ≤ h ∧ |a.2 - b.2| ≤ h

theorem spread_le {x y z h : ℝ} (h1 : |x - y| ≤ h) (h2 : |y - z| ≤ h) (h3 : |z - x| ≤ h) :
    (x - y) ^ 2 + (y - z) ^ 2 + (z - x) ^ 2 ≤ 2 * h ^ 2 := by
  rw [abs_le] at h1 h2 h3
  rcases le_total x y with a | a <;> rcases le_total y z with b | b <;> rcases le_total x z with c | c <;>
    nlinarith [mul_nonneg (sub_nonneg.2 a) (sub_nonneg.2 b), mul_nonneg (sub_nonneg.2 a) (sub_nonneg.2 c),
      mul_nonneg (sub_nonneg.2 b) (sub_nonneg.2 c)]

/-- Sums over the fibres of one mesh. -/
theorem mesh_sums {mesh : List ((ℝ × ℝ) × (ℝ × ℝ) × (ℝ × ℝ))} {R : Set (ℝ × ℝ)} {h : ℝ} (hm : MeshOf mesh R h)
    (w : ℝ) (hw : 0 ≤ w) :
    let pts := mesh.map fun t => (w * (triFibre t).2.2, ((triFibre t).1, (triFibre t).2.1))
    let S : (ℝ × ℝ → ℝ) → ℝ := fun g => (pts.map fun p => p.1 * g p.2).sum
    S (fun _ => 1) = w * areaMoment 0 0 R ∧ S Prod.fst = w * areaMoment 1 0 R ∧
    S Prod.snd = w * areaMoment 0 1 R ∧
    (S (fun x => x.2 ^ 2) ≤ w * areaMoment 0 2 R ∧
      w * areaMoment 0 2 R - w * areaMoment 0 0 R * h ^ 2 / 18 ≤ S (fun x => x.2 ^ 2)) ∧
    (S (fun x => x.1 ^ 2) ≤ w * areaMoment 2 0 R ∧
      w * areaMoment 2 0 R - w * areaMoment 0 0 R * h ^ 2 / 18 ≤ S (fun x => x.1 ^ 2)) := by
  intro pts S
  rw [← hm.moments 0 0 (by norm_num), ← hm.moments 1 0 (by norm_num), ← hm.moments 0 1 (by norm_num),
    ← hm.moments 0 2 (by norm_num), ← hm.moments 2 0 (by norm_num)]
  obtain ⟨hp, -, hsz⟩ := hm
  simp only [S, pts, List.map_map, Function.comp_def, meshMoment]
  clear S pts
  induction mesh with
  | nil => simp
  | cons t mesh ih =>
    obtain ⟨i1, i2, i3, ⟨i4, i5⟩, i6, i7⟩ := ih (fun t ht => hp t (List.mem_cons_of_mem _ ht))
      (fun t ht => hsz t (List.mem_cons_of_mem _ ht))
    obtain ⟨hA, h00, h10, h01, h02, h20, -⟩ := C49_triangle t.1 t.2.1 t.2.2 (hp t List.mem_cons_self)
      (triFibre t).1 (triFibre t).2.1 (triFibre t).2.2 rfl
    have hs := hsz t List.mem_cons_self
    have z1 := spread_le (hs t.1 (by simp) t.2.1 (by simp)).2 (hs t.2.1 (by simp) t.2.2 (by simp)).2
      (hs t.2.2 (by simp) t.1 (by simp)).2
    have y1 := spread_le (hs t.1 (by simp) t.2.1 (by simp)).1 (hs t.2.1 (by simp) t.2.2 (by simp)).1
      (hs t.2.2 (by simp) t.1 (by simp)).1
    simp only [List.map_cons, List.sum_cons]
    rw [i1, i2, i3, h00, h10, h01, h02, h20]
    have hwA : 0 ≤ w * ((triFibre t).2.2 / 36) := by positivity
    have p1 : 0 ≤ w * ((triFibre t).2.2 / 36) * ((t.1.2 - t.2.1.2) ^ 2 + (t.2.1.2 - t.2.2.2) ^ 2
        + (t.2.2.2 - t.1.2) ^ 2) := mul_nonneg hwA (by positivity)
    have p2 : 0 ≤ w * ((triFibre t).2.2 / 36) * ((t.1.1 - t.2.1.1) ^ 2 + (t.2.1.1 - t.2.2.1) ^ 2
        + (t.2.2.1 - t.1.1) ^ 2) := mul_nonneg hwA (by positivity)
    have p3 := mul_le_mul_of_nonneg_left z1 hwA
    have p4 := mul_le_mul_of_nonneg_left y1 hwA
    refine ⟨by ring, by ring, by ring, ⟨by linarith, by linarith⟩, by linarith, by linarith⟩

/-- The fibres of a section whose surfaces are meshed. -/
theorem fibreBody_integrals (mesher : Polygon → ℝ → List ((ℝ × ℝ) × (ℝ × ℝ) × (ℝ × ℝ))) (ms h : ℝ)
    (parts : List (GSurf × Set (ℝ × ℝ))) (bars : List GBar) (w : Material → ℝ)
    (hw : ∀ p ∈ parts, 0 ≤ w p.1.mat)
    (hm : ∀ p ∈ parts, MeshOf (mesher p.1.poly (p.1.poly.area * ms)) p.2 h) :
    let F := fibreBody mesher ms (parts.map fun p => (p.1.poly, w p.1.mat))
      (bars.map fun b => (w b.mat * b.area, b.pt))
    let B := sectionBody w parts bars
    let A := (sectionBody w parts []).integral (fun _ => 1)
    F.integral (fun _ => 1) = B.integral (fun _ => 1) ∧ F.integral Prod.fst = B.integral Prod.fst ∧
    F.integral Prod.snd = B.integral Prod.snd ∧
    (F.integral (fun x => x.2 ^ 2) ≤ B.integral (fun x => x.2 ^ 2) ∧
      B.integral (fun x => x.2 ^ 2) - A * h ^ 2 / 18 ≤ F.integral (fun x => x.2 ^ 2)) ∧
    (F.integral (fun x => x.1 ^ 2) ≤ B.integral (fun x => x.1 ^ 2) ∧
      B.integral (fun x => x.1 ^ 2) - A * h ^ 2 / 18 ≤ F.integral (fun x => x.1 ^ 2)) := by
  intro F B A
  simp only [F, B, A, fibreBody, sectionBody, Body.integral, List.map_nil, List.sum_nil, zero_add,
    List.map_append, List.sum_append, add_zero]
  clear F B A
  induction parts with
  | nil => simp
  | cons p parts ih =>
    obtain ⟨i1, i2, i3, ⟨i4, i5⟩, i6, i7⟩ := ih (fun q hq => hw q (List.mem_cons_of_mem _ hq))
      (fun q hq => hm q (List.mem_cons_of_mem _ hq))
    obtain ⟨j1, j2, j3, ⟨j4, j5⟩, j6, j7⟩ := mesh_sums (hm p List.mem_cons_self) (w p.1.mat)
      (hw p List.mem_cons_self)
    simp only [areaMoment, pow_zero, pow_one, one_mul, mul_one] at j1 j2 j3 j4 j5 j6 j7 i1 i2 i3 i4 i5 i6 i7
    simp only [List.map_cons, List.flatMap_cons, List.map_append, List.sum_append, List.sum_cons, mul_one]
    change _ = w p.1.mat * ∫ x in p.2, x.1 at j2
    change _ = w p.1.mat * ∫ x in p.2, x.2 at j3
    refine ⟨by linarith, ?_, ?_, ⟨by linarith, by linarith⟩, by linarith, by linarith⟩
    · rw [j2]
      linarith
    · rw [j3]
      linarith


/-- Moments computed by the fibre integrator. -/
theorem fiber_moments (mesher : Polygon → ℝ → List ((ℝ × ℝ) × (ℝ × ℝ) × (ℝ × ℝ))) (ms : ℝ) (h0 : 0 < ms)
    (h1 : ms ≤ 1) (surfs : List GSurf) (hne : surfs ≠ []) (bars : List GBar) :
    computeAreaMoments (fiberElastic mesher ms) ⟨surfs, bars⟩ (some ⟨1, none⟩) =
      .ok (momentsOf (fibreBody mesher ms (surfs.map fun g => (g.poly, 1))
        (bars.map fun b => (1 * b.area, b.pt))) 0) ∧
    ((∀ g ∈ surfs, 0 < initialModulus g.mat) → (∀ b ∈ bars, 0 < initialModulus b.mat) →
    computeAreaMoments (fiberElastic mesher ms) ⟨surfs, bars⟩ none =
      .ok (momentsOf (fibreBody mesher ms (surfs.map fun g => (g.poly, initialModulus g.mat))
        (bars.map fun b => (initialModulus b.mat * b.area, b.pt))) 0)) := by
  constructor
  · refine computeAreaMoments_ok _ _ _ _ (fromGeometry_some _ _) _ ?_
    have h := fiber_integratesAs mesher ms h0 h1 (surfs.map fun g => ⟨g.poly, ⟨1, none⟩⟩) (by simpa using hne)
      (bars.zipIdx.map fun b => ⟨b.1.pt, b.1.area, ⟨1, none⟩, 0⟩)
      (by
        intro a ha b hb _
        simp only [List.map_map, List.mem_map, Function.comp_def] at ha hb
        obtain ⟨x, -, rfl⟩ := ha
        obtain ⟨y, -, rfl⟩ := hb
        rfl)
    have hbar : (bars.zipIdx.map fun b => ((⟨b.1.pt, b.1.area, ⟨1, none⟩, 0⟩ : EBar))).map
        (fun b => (b.law.E * b.area, b.pt)) = bars.map fun b => (1 * b.area, b.pt) := by
      rw [List.map_map]
      conv_rhs => rw [← List.zipIdx_map_fst 0 bars, List.map_map]
      rfl
    rw [hbar] at h
    simpa only [List.map_map, Function.comp_def] using h
  · intro hs hb
    refine computeAreaMoments_ok _ _ _ _ (fromGeometry_none _ hs hb) _ ?_
    have hids : (((bars.zipIdx.map fun b =>
        ((⟨b.1.pt, b.1.area, ⟨initialModulus b.1.mat, none⟩, b.2⟩ : EBar))).map EBar.bar).map
          fun b => b.law.id).Nodup := by
      rw [List.map_map, List.map_map]
      change (bars.zipIdx.map Prod.snd).Nodup
      rw [List.zipIdx_map_snd]
      exact List.nodup_range'
    have h := fiber_integratesAs mesher ms h0 h1
      (surfs.map fun g => ⟨g.poly, ⟨initialModulus g.mat, none⟩⟩) (by simpa using hne)
      (bars.zipIdx.map fun b => ⟨b.1.pt, b.1.area, ⟨initialModulus b.1.mat, none⟩, b.2⟩)
      (by
        intro a ha b hb hab
        rw [List.mem_map] at ha hb
        obtain ⟨x, hx, rfl⟩ := ha
        obtain ⟨y, hy, rfl⟩ := hb
        rw [List.inj_on_of_nodup_map hids hx hy hab])
    have hbar : (bars.zipIdx.map fun b =>
        ((⟨b.1.pt, b.1.area, ⟨initialModulus b.1.mat, none⟩, b.2⟩ : EBar))).map
        (fun b => (b.law.E * b.area, b.pt)) = bars.map fun b => (initialModulus b.mat * b.area, b.pt) := by
      rw [List.map_map]
      conv_rhs => rw [← List.zipIdx_map_fst 0 bars, List.map_map]
      rfl
    rw [hbar] at h
    simpa only [List.map_map, Function.comp_def] using h

/-- Second moments that are too small by at most `tol`. -/
def CloseBelow (m exact : AreaMoments) (tol : ℝ) : Prop :=
  m.iyy ≤ exact.iyy ∧ exact.iyy - tol ≤ m.iyy ∧ m.izz ≤ exact.izz ∧ exact.izz - tol ≤ m.izz

/-- **C52**, fibre integrator: with meshes that triangulate the surfaces (also after translation) the
calculation succeeds; axial rigidity, first moments and centroid are exact, and the second moments about the
section and the centroidal axes are too small by at most `(Σ w A) h² / 18`, where no triangle extends over more
than `h`. -/
theorem C52_fiber (mesher : Polygon → ℝ → List ((ℝ × ℝ) × (ℝ × ℝ) × (ℝ × ℝ))) (ms h : ℝ) (h0 : 0 < ms)
    (h1 : ms ≤ 1) (eig : ℝ → ℝ → ℝ → Eig) (union : List Polygon → ShapelyResult)
    (parts : List (GSurf × Set (ℝ × ℝ))) (hne : parts ≠ []) (bars : List GBar)
    (henc : ∀ p ∈ parts, Encloses p.1.poly.ext p.1.poly.ints p.2)
    (hm : ∀ p ∈ parts, ∀ dx dy, MeshOf (mesher (p.1.poly.map (translatePt dx dy))
      ((p.1.poly.map (translatePt dx dy)).area * ms)) (translatePt dx dy '' p.2) h)
    (hs : ∀ p ∈ parts, 0 < initialModulus p.1.mat) (hb : ∀ b ∈ bars, 0 < initialModulus b.mat)
    (hea : (sectionBody initialModulus parts bars).integral (fun _ => 1) ≠ 0)
    (q : Polygon) (hu : union (parts.map fun p => p.1.poly) = .polygon q) :
    ∃ gp, grossProperties (fiberElastic mesher ms) eig union ⟨parts.map Prod.fst, bars⟩ = .ok gp ∧
      gp.area = (parts.map fun p => ∫ _ in p.2, (1 : ℝ)).sum ∧
      gp.ea = (sectionBody initialModulus parts bars).integral (fun _ => 1) ∧
      gp.m.sy = (sectionBody (fun _ => 1) parts bars).integral Prod.snd ∧
      gp.m.sz = (sectionBody (fun _ => 1) parts bars).integral Prod.fst ∧
      gp.em.sy = (sectionBody initialModulus parts bars).integral Prod.snd ∧
      gp.em.sz = (sectionBody initialModulus parts bars).integral Prod.fst ∧
      gp.cy = (sectionBody initialModulus parts bars).integral Prod.fst / gp.ea ∧
      gp.cz = (sectionBody initialModulus parts bars).integral Prod.snd / gp.ea ∧
      CloseBelow gp.m (momentsOf (sectionBody (fun _ => 1) parts bars) 0)
        ((sectionBody (fun _ => 1) parts []).integral (fun _ => 1) * h ^ 2 / 18) ∧
      CloseBelow gp.em (momentsOf (sectionBody initialModulus parts bars) 0)
        ((sectionBody initialModulus parts []).integral (fun _ => 1) * h ^ 2 / 18) ∧
      CloseBelow gp.mc (momentsOf (sectionBody (fun _ => 1) parts bars) (gp.cy, gp.cz))
        ((sectionBody (fun _ => 1) parts []).integral (fun _ => 1) * h ^ 2 / 18) ∧
      CloseBelow gp.emc (momentsOf (sectionBody initialModulus parts bars) (gp.cy, gp.cz))
        ((sectionBody initialModulus parts []).integral (fun _ => 1) * h ^ 2 / 18) := by
  have hid : translatePt 0 0 = id := by funext x; simp [translatePt]
  have hm0 : ∀ p ∈ parts, MeshOf (mesher p.1.poly (p.1.poly.area * ms)) p.2 h := by
    intro p hp
    have := hm p hp 0 0
    have hpm : p.1.poly.map (translatePt 0 0) = p.1.poly := by
      simp [Polygon.map, hid]
    rwa [hpm, hid, Set.image_id] at this
  have harea : ∀ p ∈ parts, p.1.poly.area = ∫ _ in p.2, (1 : ℝ) := by
    intro p hp
    rw [polygon_area_eq (henc p hp), areaMoment]
    simp
  have hE : (parts.map fun p => p.1.poly.area * initialModulus p.1.mat).sum +
      (bars.map fun b => b.area * initialModulus b.mat).sum =
      (sectionBody initialModulus parts bars).integral (fun _ => 1) := by
    simp only [Body.integral, sectionBody, List.map_map, Function.comp_def, mul_one]
    congr 2
    · apply List.map_congr_left
      intro p hp
      rw [harea p hp, mul_comm]
    · apply List.map_congr_left
      intro b _
      ring
  have hsg : ∀ g ∈ parts.map Prod.fst, 0 < initialModulus g.mat := by
    intro g hg
    obtain ⟨p, hp, rfl⟩ := List.mem_map.1 hg
    exact hs p hp
  obtain ⟨m1, m2⟩ := fiber_moments mesher ms h0 h1 (parts.map Prod.fst) (by simpa using hne) bars
  have m2 := m2 hsg hb
  set ea := (sectionBody initialModulus parts bars).integral (fun _ => 1) with hea'
  obtain ⟨-, u2, u3, u4, u5⟩ := fibreBody_integrals mesher ms h parts bars (fun _ => 1)
    (fun _ _ => zero_le_one) hm0
  obtain ⟨-, e2, e3, e4, e5⟩ := fibreBody_integrals mesher ms h parts bars initialModulus
    (fun p hp => (hs p hp).le) hm0
  rw [List.map_map] at m1 m2
  simp only [Function.comp_def] at m1 m2
  set em := momentsOf (fibreBody mesher ms (parts.map fun p => (p.1.poly, initialModulus p.1.mat))
        (bars.map fun b => (initialModulus b.mat * b.area, b.pt))) 0 with hem
  set um := momentsOf (fibreBody mesher ms (parts.map fun p => (p.1.poly, 1))
        (bars.map fun b => (1 * b.area, b.pt))) 0 with hum
  have hsz : em.sz = (sectionBody initialModulus parts bars).integral Prod.fst := by
    rw [hem]
    simp only [momentsOf, Prod.fst_zero, sub_zero]
    exact e2
  have hsy : em.sy = (sectionBody initialModulus parts bars).integral Prod.snd := by
    rw [hem]
    simp only [momentsOf, Prod.snd_zero, sub_zero]
    exact e3
  set cy := em.sz / ea with hcy
  set cz := em.sy / ea with hcz
  have hm' : ∀ p ∈ parts.map (movedPart (-cy) (-cz)),
      MeshOf (mesher p.1.poly (p.1.poly.area * ms)) p.2 h := by
    intro p hp
    obtain ⟨p', hp', rfl⟩ := List.mem_map.1 hp
    exact hm p' hp' (-cy) (-cz)
  have hs' : ∀ p ∈ parts.map (movedPart (-cy) (-cz)), 0 < initialModulus p.1.mat := by
    intro p hp
    obtain ⟨p', hp', rfl⟩ := List.mem_map.1 hp
    exact hs p' hp'
  have hb' : ∀ b ∈ bars.map (movedBar (-cy) (-cz)), 0 < initialModulus b.mat := by
    intro b hbm
    obtain ⟨b', hb', rfl⟩ := List.mem_map.1 hbm
    exact hb b' hb'
  obtain ⟨m3, m4⟩ := fiber_moments mesher ms h0 h1 ((parts.map (movedPart (-cy) (-cz))).map Prod.fst)
    (by simpa using hne) (bars.map (movedBar (-cy) (-cz)))
  have m4 := m4 (by
    intro g hg
    obtain ⟨p, hp, rfl⟩ := List.mem_map.1 hg
    exact hs' p hp) hb'
  obtain ⟨-, -, -, v4, v5⟩ := fibreBody_integrals mesher ms h _ (bars.map (movedBar (-cy) (-cz))) (fun _ => 1)
    (fun _ _ => zero_le_one) hm'
  obtain ⟨-, -, -, w4, w5⟩ := fibreBody_integrals mesher ms h _ (bars.map (movedBar (-cy) (-cz)))
    initialModulus (fun p hp => (hs' p hp).le) hm'
  have hA : ∀ w : Material → ℝ, (sectionBody w (parts.map (movedPart (-cy) (-cz))) []).integral (fun _ => 1) =
      (sectionBody w parts []).integral (fun _ => 1) := by
    intro w
    have := integral_moved w parts [] (-cy) (-cz) (fun _ => 1)
    simpa using this
  rw [hA, integral_moved] at v4 v5 w4 w5
  set mc := momentsOf (fibreBody mesher ms ((parts.map (movedPart (-cy) (-cz))).map fun p => (p.1.poly, 1))
        ((bars.map (movedBar (-cy) (-cz))).map fun b => (1 * b.area, b.pt))) 0 with hmc
  set emc := momentsOf (fibreBody mesher ms
    ((parts.map (movedPart (-cy) (-cz))).map fun p => (p.1.poly, initialModulus p.1.mat))
        ((bars.map (movedBar (-cy) (-cz))).map fun b => (initialModulus b.mat * b.area, b.pt))) 0 with hemc
  have m3 : computeAreaMoments (fiberElastic mesher ms)
      ⟨(parts.map (movedPart (-cy) (-cz))).map Prod.fst, bars.map (movedBar (-cy) (-cz))⟩ (some ⟨1, none⟩) =
      .ok mc := by
    rw [m3, hmc]; simp only [List.map_map, Function.comp_def]
  have m4 : computeAreaMoments (fiberElastic mesher ms)
      ⟨(parts.map (movedPart (-cy) (-cz))).map Prod.fst, bars.map (movedBar (-cy) (-cz))⟩ none = .ok emc := by
    rw [m4, hemc]; simp only [List.map_map, Function.comp_def]
  have htr : (GSection.mk (parts.map Prod.fst) bars).translate (-cy) (-cz) =
      ⟨(parts.map (movedPart (-cy) (-cz))).map Prod.fst, bars.map (movedBar (-cy) (-cz))⟩ := by
    simp only [GSection.translate, List.map_map, Function.comp_def, movedPart]
    rfl
  have hu' : union (List.map GSurf.poly (List.map Prod.fst parts)) = .polygon q := by
    rw [List.map_map]; exact hu
  have hmk : Elastic.mk? 1 none = .ok ⟨1, none⟩ := by simp [Elastic.mk?]
  have hdiv1 : pyDiv em.sz ea = .ok cy := pyDiv_eq_ok.2 ⟨hea, rfl⟩
  have hdiv2 : pyDiv em.sy ea = .ok cz := pyDiv_eq_ok.2 ⟨hea, rfl⟩
  have hfold : (bars.foldl (fun a b => a + b.area * initialModulus b.mat)
      ((parts.map Prod.fst).foldl (fun a g => a + g.poly.area * initialModulus g.mat) 0)) = ea := by
    rw [foldl_sum (fun b : GBar => b.area * initialModulus b.mat),
      foldl_sum (fun g : GSurf => g.poly.area * initialModulus g.mat), zero_add, List.map_map]
    exact hE
  set pr := findPrincipal eig mc.iyy mc.izz mc.iyz with hpr
  set epr := findPrincipal eig emc.iyy emc.izz emc.iyz with hepr
  refine ⟨⟨(parts.map Prod.fst).foldl (fun a g => a + g.poly.area) 0, bars.foldl (fun a b => a + b.area) 0, ea,
    bars.foldl (fun a b => a + b.area * b.mat.density * 1e-9)
      ((parts.map Prod.fst).foldl (fun a g => a + g.poly.area * g.mat.density * 1e-9) 0),
    ringLength q.ext, um, em, cy, cz, mc, emc,
    pr.1, pr.2.1, pr.2.2, epr.1, epr.2.1, epr.2.2⟩, ?_, ?_⟩
  · simp only [grossProperties, hu', hmk, bind, Except.bind, m1, m2, hfold, hdiv1, hdiv2, htr, m3, m4, pure,
      Except.pure, hpr, hepr]
  · refine ⟨?_, rfl, ?_, ?_, hsy, hsz, ?_, ?_, ?_, ?_, ?_, ?_⟩
    · rw [foldl_sum (fun g : GSurf => g.poly.area), zero_add, List.map_map]
      exact congrArg List.sum (List.map_congr_left harea)
    · simp only [hum, momentsOf, Prod.snd_zero, sub_zero]
      exact u3
    · simp only [hum, momentsOf, Prod.fst_zero, sub_zero]
      exact u2
    · rw [hcy, hsz]
    · rw [hcz, hsy]
    · simp only [CloseBelow, hum, momentsOf, Prod.fst_zero, Prod.snd_zero, sub_zero]
      exact ⟨u4.1, u4.2, u5.1, u5.2⟩
    · simp only [CloseBelow, hem, momentsOf, Prod.fst_zero, Prod.snd_zero, sub_zero]
      exact ⟨e4.1, e4.2, e5.1, e5.2⟩
    · simp only [CloseBelow, hmc, momentsOf, Prod.fst_zero, Prod.snd_zero, sub_zero]
      simp only [translatePt, ← sub_eq_add_neg] at v4 v5
      exact ⟨v4.1, v4.2, v5.1, v5.2⟩
    · simp only [CloseBelow, hemc, momentsOf, Prod.fst_zero, Prod.snd_zero, sub_zero]
      simp only [translatePt, ← sub_eq_add_neg] at w4 w5
      exact ⟨w4.1, w4.2, w5.1, w5.2⟩


/-- A mesher that cuts quadrilaterals along a diagonal. -/
def quadMesher : Polygon → ℝ → List ((ℝ × ℝ) × (ℝ × ℝ) × (ℝ × ℝ)) := fun p _ =>
  match p.ext with
  | [a, b, c, d, _] => [(a, b, c), (a, c, d)]
  | _ => []

/-- The mesh hypothesis of `C52_fiber` is met by the square section. -/
theorem quadMesher_ok : ∀ p ∈ diagonalParts, ∀ dx dy, MeshOf (quadMesher (p.1.poly.map (translatePt dx dy))
    ((p.1.poly.map (translatePt dx dy)).area * 1)) (translatePt dx dy '' p.2) 2 := by
  intro p hp dx dy
  rw [diagonalParts, List.mem_singleton] at hp
  subst hp
  have hR : translatePt dx dy '' (Set.Icc (-1) 1 ×ˢ Set.Icc (-1) 1 : Set (ℝ × ℝ)) =
      Set.Icc (-1 + dx) (1 + dx) ×ˢ Set.Icc (-1 + dy) (1 + dy) := by
    ext ⟨x, y⟩
    simp only [Set.mem_image, Set.mem_prod, Set.mem_Icc, translatePt, Prod.mk.injEq, Prod.exists]
    constructor
    · rintro ⟨u, v, ⟨⟨a, b⟩, c, d⟩, rfl, rfl⟩
      exact ⟨⟨by simpa using a, by simpa using b⟩, by simpa using c, by simpa using d⟩
    · rintro ⟨⟨a, b⟩, c, d⟩
      exact ⟨x - dx, y - dy, ⟨⟨by linarith, by linarith⟩, by linarith, by linarith⟩, by ring, by ring⟩
  have hmesh : quadMesher ((⟨rectRing (-1) 1 (-1) 1, []⟩ : Polygon).map (translatePt dx dy))
      (((⟨rectRing (-1) 1 (-1) 1, []⟩ : Polygon).map (translatePt dx dy)).area * 1) =
      [((-1 + dx, -1 + dy), (1 + dx, -1 + dy), (1 + dx, 1 + dy)),
       ((-1 + dx, -1 + dy), (1 + dx, 1 + dy), (-1 + dx, 1 + dy))] := by
    simp [quadMesher, Polygon.map, rectRing, closeRing, translatePt]
  rw [hR, hmesh]
  obtain ⟨h00, h10, h01, h20, h02, h11⟩ := rect_moments (a := -1 + dx) (b := 1 + dx) (c := -1 + dy) (d := 1 + dy)
    (by linarith) (by linarith)
  have c1 : cross ((-1 + dx, -1 + dy) : ℝ × ℝ) (1 + dx, -1 + dy) (1 + dx, 1 + dy) = 4 := by
    simp only [cross]; ring
  have c2 : cross ((-1 + dx, -1 + dy) : ℝ × ℝ) (1 + dx, 1 + dy) (-1 + dx, 1 + dy) = 4 := by
    simp only [cross]; ring
  have t1 := C49_triangle ((-1 + dx, -1 + dy) : ℝ × ℝ) (1 + dx, -1 + dy) (1 + dx, 1 + dy) (by rw [c1]; norm_num)
    ((-1 + dx + (1 + dx) + (1 + dx)) / 3) ((-1 + dy + (-1 + dy) + (1 + dy)) / 3) 2 (by
      simp only [triFibre, Prod.mk.injEq, true_and]
      rw [show ∀ x : ℝ, x = 4 → |x| * 0.5 = 2 by rintro _ rfl; norm_num]
      ring)
  have t2 := C49_triangle ((-1 + dx, -1 + dy) : ℝ × ℝ) (1 + dx, 1 + dy) (-1 + dx, 1 + dy) (by rw [c2]; norm_num)
    ((-1 + dx + (1 + dx) + (-1 + dx)) / 3) ((-1 + dy + (1 + dy) + (1 + dy)) / 3) 2 (by
      simp only [triFibre, Prod.mk.injEq, true_and]
      rw [show ∀ x : ℝ, x = 4 → |x| * 0.5 = 2 by rintro _ rfl; norm_num]
      ring)
  obtain ⟨-, a00, a10, a01, a02, a20, a11⟩ := t1
  obtain ⟨-, b00, b10, b01, b02, b20, b11⟩ := t2
  refine ⟨?_, ?_, ?_⟩
  · intro t ht
    simp only [List.mem_cons, List.not_mem_nil, or_false] at ht
    rcases ht with rfl | rfl
    · simp only; rw [c1]; norm_num
    · simp only; rw [c2]; norm_num
  · intro m n hmn
    have : (m = 0 ∧ n = 0) ∨ (m = 1 ∧ n = 0) ∨ (m = 0 ∧ n = 1) ∨ (m = 0 ∧ n = 2) ∨ (m = 2 ∧ n = 0) ∨
        (m = 1 ∧ n = 1) := by omega
    rcases this with ⟨rfl, rfl⟩ | ⟨rfl, rfl⟩ | ⟨rfl, rfl⟩ | ⟨rfl, rfl⟩ | ⟨rfl, rfl⟩ | ⟨rfl, rfl⟩ <;>
      simp only [meshMoment, List.map_cons, List.map_nil, List.sum_cons, List.sum_nil]
    · rw [h00, a00, b00]; ring
    · rw [h10, a10, b10]; ring
    · rw [h01, a01, b01]; ring
    · rw [h02, a02, b02]; ring
    · rw [h20, a20, b20]; ring
    · rw [h11, a11, b11]; ring
  · have hv : ∀ t ∈ ([((-1 + dx, -1 + dy), (1 + dx, -1 + dy), (1 + dx, 1 + dy)),
       ((-1 + dx, -1 + dy), (1 + dx, 1 + dy), (-1 + dx, 1 + dy))] : List ((ℝ × ℝ) × (ℝ × ℝ) × (ℝ × ℝ))),
        ∀ a ∈ [t.1, t.2.1, t.2.2],
        (-1 + dx ≤ a.1 ∧ a.1 ≤ 1 + dx) ∧ (-1 + dy ≤ a.2 ∧ a.2 ≤ 1 + dy) := by
      intro t ht a ha
      simp only [List.mem_cons, List.not_mem_nil, or_false] at ht
      rcases ht with rfl | rfl <;>
        · simp only [List.mem_cons, List.not_mem_nil, or_false] at ha
          rcases ha with rfl | rfl | rfl <;> simp only <;> constructor <;> constructor <;> linarith
    intro t ht a ha b hb
    obtain ⟨⟨a1, a2⟩, a3, a4⟩ := hv t ht a ha
    obtain ⟨⟨b1, b2⟩, b3, b4⟩ := hv t ht b hb
    exact ⟨abs_le.2 ⟨by linarith, by linarith⟩, abs_le.2 ⟨by linarith, by linarith⟩⟩

example : ∃ gp, grossProperties (fiberElastic quadMesher 1) diagonalEig
    (fun _ => .polygon ⟨rectRing (-1) 1 (-1) 1, []⟩) ⟨diagonalParts.map Prod.fst, diagonalBars⟩ = .ok gp ∧
    gp.ea = 16 := by
  obtain ⟨d1, -⟩ := diagonal_moments
  obtain ⟨gp, h, -, h2, -⟩ := C52_fiber quadMesher 1 2 (by norm_num) le_rfl diagonalEig
    (fun _ => .polygon ⟨rectRing (-1) 1 (-1) 1, []⟩) diagonalParts (by simp [diagonalParts]) diagonalBars
    diagonal_enc quadMesher_ok diagonal_pos.1 diagonal_pos.2 (by rw [d1]; norm_num)
    ⟨rectRing (-1) 1 (-1) 1, []⟩ rfl
  exact ⟨gp, h, by rw [h2, d1]⟩

end

end SC
