import Verif.Props.MarinExact

/-! # C50 for the library's laws, with a concrete section -/

set_option autoImplicit false

namespace SC

open Spec MeasureTheory

theorem gradient_pos {e : Fin 3 → ℝ} (h : e 1 ≠ 0 ∨ e 2 ≠ 0) : 0 < gradient e := by
  apply Real.sqrt_pos.2
  rcases h with h | h
  · have := sq_pos_of_ne_zero h; positivity
  · have := sq_pos_of_ne_zero h; positivity

/-- Surfaces described by pieces: the conclusion of C13 is what C50 needs. -/
theorem good_of_pieces (split : Polygon → ℝ → ℝ → ShapelyResult) (e : Fin 3 → ℝ)
    (hg : e 1 ≠ 0 ∨ e 2 ≠ 0) (p : Polygon) (R : Set (ℝ × ℝ)) (henc : Encloses p.ext p.ints R)
    (hsplit : SplitsExactly split (p.rotate (neutralAngle e)) (rotPt (neutralAngle e) '' R))
    (m mT : ℝ → ℝ → MarinOut × ℝ) (f : ℝ → ℝ) (ok : ℝ → Prop)
    (hok : ∀ x ∈ R, ok (planeStrain e x.1 x.2))
    (h2 : ∀ e0 e1, e1 ≠ 0 → (m e0 e1).2 = e0) (h2' : ∀ e0 e1, e1 ≠ 0 → (mT e0 e1).2 = e0) :
    ((∃ rs, (m (e 0) (gradient e)).1.ranges = some rs ∧
        PiecesMatchInterior f (e 0) (gradient e) ok rs (m (e 0) (gradient e)).1.coeffs) →
      SurfSpec.Good split .stress e ⟨Surf.ofMarin p m mT, R, f⟩) ∧
    ((∃ rs, (mT (e 0) (gradient e)).1.ranges = some rs ∧
        PiecesMatchInterior f (e 0) (gradient e) ok rs (mT (e 0) (gradient e)).1.coeffs) →
      SurfSpec.Good split .modulus e ⟨Surf.ofMarin p m mT, R, f⟩) := by
  have hp := gradient_pos hg
  have hsub : ∀ y, (∃ x ∈ R, planeStrain e x.1 x.2 = y) → ok y := by
    rintro y ⟨x, hx, rfl⟩
    exact hok x hx
  constructor
  · rintro ⟨rs, hrs, hm⟩
    exact ⟨henc, fun _ => hsplit, Reproduces.mono (ok := ok)
      ⟨h2 _ _ hp.ne', _, rfl, Or.inr ⟨hp, rs, hrs, hm⟩⟩ hsub⟩
  · rintro ⟨rs, hrs, hm⟩
    exact ⟨henc, fun _ => hsplit, Reproduces.mono (ok := ok)
      ⟨h2' _ _ hp.ne', _, rfl, Or.inr ⟨hp, rs, hrs, hm⟩⟩ hsub⟩

/-- **C50** for a reinforced concrete section: parabola-rectangle concrete (exponent 2) on a polygon
with holes and bars of any laws, under every strain plane with a curvature whose strains in the
concrete stay clear of numpy's tolerance around the limits: `N`, `My`, `Mz` are the exact area
integrals of the concrete stress plus the bar forces. -/
theorem C50_concrete_section_partial (split : Polygon → ℝ → ℝ → ShapelyResult)
    (fc eps0 epsu : ℝ) (h0 : 0 < |eps0|) (hu : |eps0| ≤ |epsu|) (p : Polygon) (R : Set (ℝ × ℝ))
    (henc : Encloses p.ext p.ints R) (bars : List Bar) (d : List Group) (hd : EqualSizes d)
    (e : Fin 3 → ℝ) (hg : e 1 ≠ 0 ∨ e 2 ≠ 0)
    (hsplit : SplitsExactly split (p.rotate (neutralAngle e)) (rotPt (neutralAngle e) '' R))
    (hok : ∀ x ∈ R, Clear (planeStrain e x.1 x.2) (-|epsu|) ∧ Clear (planeStrain e x.1 x.2) 100) :
    let l := ParabolaRectangle.new fc eps0 epsu 2
    marinIntegrate split [Surf.ofMarin p l.marin l.marinT] bars e .stress (some d) =
      .ok (.forces (regionResultants R l.stress e + resultants (fibres Law.stress d) e), d) ∧
    marinIntegrate split [Surf.ofMarin p l.marin l.marinT] bars e .modulus (some d) =
      .ok (.stiffness (regionStiffness R l.tangent e + stiffness (fibres Law.tangent d) e), d) := by
  intro l
  have hp := gradient_pos hg
  have e2 : ∀ e0 e1, e1 ≠ 0 → (l.marin e0 e1).2 = e0 := by
    intro a b hb; simp [ParabolaRectangle.marin, hb]
  have e2' : ∀ e0 e1, e1 ≠ 0 → (l.marinT e0 e1).2 = e0 := by
    intro a b hb; simp [ParabolaRectangle.marinT, hb]
  constructor
  · have := C50_forces_partial split [⟨Surf.ofMarin p l.marin l.marinT, R, l.stress⟩] bars d hd e (by
      intro s hs
      rw [List.mem_singleton.1 hs]
      obtain ⟨rs, hrs, hm⟩ := C13_parabola_rectangle fc eps0 epsu (e 0) (gradient e) h0 hu hp.ne'
      exact (good_of_pieces split e hg p R henc hsplit l.marin l.marinT l.stress
        (fun x => Clear x (-|epsu|) ∧ Clear x 100) hok e2 e2').1
        ⟨rs, hrs, piecesMatch_interior hm⟩)
    simpa using this
  · have := C50_stiffness_partial split [⟨Surf.ofMarin p l.marin l.marinT, R, l.tangent⟩] bars d hd e
      (by
      intro s hs
      rw [List.mem_singleton.1 hs]
      obtain ⟨rs, hrs, hm⟩ :=
        C13_parabola_rectangle_tangent fc eps0 epsu (e 0) (gradient e) h0 hu hp.ne'
      exact (good_of_pieces split e hg p R henc hsplit l.marin l.marinT l.tangent _
        (fun _ _ => trivial) e2 e2').2 ⟨rs, hrs, hm⟩)
    simpa using this

/-- **C50** for bilinear concrete, elastic-plastic steel profiles and piecewise linear laws: each
gives a surface to which `C50_forces_partial` applies. -/
theorem C50_bilinear_good (split : Polygon → ℝ → ℝ → ShapelyResult)
    {fc ec u : ℝ} {l : Bilinear} (hl : Bilinear.new? fc ec (some u) = .ok l) (hu : |ec| ≤ |u|)
    (p : Polygon) (R : Set (ℝ × ℝ)) (henc : Encloses p.ext p.ints R)
    (e : Fin 3 → ℝ) (hg : e 1 ≠ 0 ∨ e 2 ≠ 0)
    (hsplit : SplitsExactly split (p.rotate (neutralAngle e)) (rotPt (neutralAngle e) '' R)) :
    ((∀ x ∈ R, Clear (planeStrain e x.1 x.2) (-|u|) ∧ Clear (planeStrain e x.1 x.2) 100) →
      SurfSpec.Good split .stress e ⟨Surf.ofMarin p l.marin l.marinT, R, l.stress⟩) ∧
    SurfSpec.Good split .modulus e ⟨Surf.ofMarin p l.marin l.marinT, R, l.tangent⟩ := by
  have hp := gradient_pos hg
  obtain ⟨⟨rs, hrs, hm⟩, hT⟩ := C13_bilinear hl hu (e 0) (gradient e) hp.ne'
  have e2 : ∀ e0 e1, e1 ≠ 0 → (l.marin e0 e1).2 = e0 := by
    intro a b hb; simp [Bilinear.marin, hb]
  have e2' : ∀ e0 e1, e1 ≠ 0 → (l.marinT e0 e1).2 = e0 := by
    intro a b hb; simp [Bilinear.marinT, hb]
  exact ⟨fun hok => (good_of_pieces split e hg p R henc hsplit l.marin l.marinT l.stress
      (fun x => Clear x (-|u|) ∧ Clear x 100) hok e2 e2').1 ⟨rs, hrs, piecesMatch_interior hm⟩,
    (good_of_pieces split e hg p R henc hsplit l.marin l.marinT l.tangent _ (fun _ _ => trivial)
      e2 e2').2 hT⟩

theorem C50_elasticplastic_good (split : Polygon → ℝ → ℝ → ShapelyResult)
    (l : ElasticPlastic) {u : ℝ} (hE : 0 < l.E) (hfy : 0 ≤ l.fy)
    (hEh : 0 ≤ l.Eh) (hsu : l.eps_su = some u) (hu : l.fy / l.E ≤ u)
    (p : Polygon) (R : Set (ℝ × ℝ)) (henc : Encloses p.ext p.ints R)
    (e : Fin 3 → ℝ) (hg : e 1 ≠ 0 ∨ e 2 ≠ 0)
    (hsplit : SplitsExactly split (p.rotate (neutralAngle e)) (rotPt (neutralAngle e) '' R)) :
    ((∀ x ∈ R, Clear (planeStrain e x.1 x.2) (-u) ∧ Clear (planeStrain e x.1 x.2) u) →
      SurfSpec.Good split .stress e ⟨Surf.ofMarin p l.marin l.marinT, R, l.stress⟩) ∧
    SurfSpec.Good split .modulus e ⟨Surf.ofMarin p l.marin l.marinT, R, l.tangent⟩ := by
  have hp := gradient_pos hg
  obtain ⟨⟨rs, hrs, hm⟩, hT⟩ := C13_elasticplastic l hE hfy hEh hsu hu (e 0) (gradient e) hp.ne'
  have e2 : ∀ e0 e1, e1 ≠ 0 → (l.marin e0 e1).2 = e0 := by
    intro a b hb; simp [ElasticPlastic.marin, hb]
  have e2' : ∀ e0 e1, e1 ≠ 0 → (l.marinT e0 e1).2 = e0 := by
    intro a b hb; simp [ElasticPlastic.marinT, hb]
  exact ⟨fun hok => (good_of_pieces split e hg p R henc hsplit l.marin l.marinT l.stress
      (fun x => Clear x (-u) ∧ Clear x u) hok e2 e2').1 ⟨rs, hrs, piecesMatch_interior hm⟩,
    (good_of_pieces split e hg p R henc hsplit l.marin l.marinT l.tangent _ (fun _ _ => trivial)
      e2 e2').2 hT⟩

theorem C50_userdefined_good (split : Polygon → ℝ → ℝ → ShapelyResult)
    (l : UserDefined) (hs : Increasing l.pts) (h2 : 2 ≤ l.pts.length)
    (p : Polygon) (R : Set (ℝ × ℝ)) (henc : Encloses p.ext p.ints R)
    (e : Fin 3 → ℝ) (hg : e 1 ≠ 0 ∨ e 2 ≠ 0)
    (hsplit : SplitsExactly split (p.rotate (neutralAngle e)) (rotPt (neutralAngle e) '' R)) :
    ((∀ x ∈ R, Clear (planeStrain e x.1 x.2) l.ult_n ∧ Clear (planeStrain e x.1 x.2) l.ult_p) →
      SurfSpec.Good split .stress e ⟨Surf.ofMarin p l.marin l.marinT, R, l.stress⟩) ∧
    SurfSpec.Good split .modulus e ⟨Surf.ofMarin p l.marin l.marinT, R, l.tangent⟩ := by
  have hp := gradient_pos hg
  obtain ⟨⟨rs, hrs, hm⟩, hT⟩ := C13_userdefined l hs h2 (e 0) (gradient e) hp.ne'
  have e2 : ∀ e0 e1, e1 ≠ 0 → (l.marin e0 e1).2 = e0 := by
    intro a b hb; simp [UserDefined.marin, hb]
  have e2' : ∀ e0 e1, e1 ≠ 0 → (l.marinT e0 e1).2 = e0 := by
    intro a b hb; simp [UserDefined.marinT, hb]
  exact ⟨fun hok => (good_of_pieces split e hg p R henc hsplit l.marin l.marinT l.stress
      (fun x => Clear x l.ult_n ∧ Clear x l.ult_p) hok e2 e2').1 ⟨rs, hrs, piecesMatch_interior hm⟩,
    (good_of_pieces split e hg p R henc hsplit l.marin l.marinT l.tangent _ (fun _ _ => trivial)
      e2 e2').2 hT⟩

/-! ## A rectangle meets all hypotheses -/

/-- closed counterclockwise outline of `[a, b] × [c, d]` -/
def rectRing (a b c d : ℝ) : List (ℝ × ℝ) := closeRing [(a, c), (b, c), (b, d), (a, d)]

theorem encloses_rect {a b c d : ℝ} (hab : a < b) (hcd : c < d) :
    Encloses (rectRing a b c d) [] (Set.Icc a b ×ˢ Set.Icc c d) := by
  have hccw : ConvexCCW [(a, c), (b, c), (b, d), (a, d)] := by
    intro x y z h
    have h1 : [x, y, z] ∈ ([(a, c), (b, c), (b, d), (a, d)]).sublistsLen 3 := by
      rw [List.mem_sublistsLen]; exact ⟨h, rfl⟩
    have hp : 0 < (b - a) * (d - c) := mul_pos (by linarith) (by linarith)
    simp [List.sublistsLen, List.sublistsLenAux] at h1
    rcases h1 with ⟨rfl, rfl, rfl⟩ | ⟨rfl, rfl, rfl⟩ | ⟨rfl, rfl, rfl⟩ | ⟨rfl, rfl, rfl⟩ <;>
      simp only [cross] <;> nlinarith
  have h := encloses_convex _ (by simp) hccw
  have hset : {p | p ∈ [(a, c), (b, c), (b, d), (a, d)]} = ({a, b} : Set ℝ) ×ˢ ({c, d} : Set ℝ) := by
    ext ⟨x, y⟩
    simp only [List.mem_cons, List.not_mem_nil, or_false, Set.mem_prod, Set.mem_insert_iff, Set.mem_singleton_iff]
    change _ ∨ _ ↔ _
    simp only [Prod.mk.injEq]
    tauto
  rw [hset, convexHull_prod, convexHull_pair, convexHull_pair, segment_eq_Icc hab.le,
    segment_eq_Icc hcd.le] at h
  exact h

open Classical in
/-- a clipper that is correct on the rectangle `[a, b] × [c, d]` -/
noncomputable def rectSplit (a b c d : ℝ) : Polygon → ℝ → ℝ → ShapelyResult := fun _ y0 y1 =>
  if max y0 c < min y1 d then .polygon ⟨rectRing a b (max y0 c) (min y1 d), []⟩ else .other

theorem rectSplit_exact {a b c d : ℝ} (hab : a < b) (p : Polygon) :
    SplitsExactly (rectSplit a b c d) p (Set.Icc a b ×ˢ Set.Icc c d) := by
  intro y0 y1 _
  have hset : (Set.Icc a b ×ˢ Set.Icc c d) ∩ {x : ℝ × ℝ | y0 ≤ x.2 ∧ x.2 ≤ y1} =
      Set.Icc a b ×ˢ Set.Icc (max y0 c) (min y1 d) := by
    ext x
    simp only [Set.mem_inter_iff, Set.mem_prod, Set.mem_Icc, max_le_iff, le_min_iff]
    change _ ∧ (_ ∧ _) ↔ _
    tauto
  rw [hset]
  unfold rectSplit
  split_ifs with h
  · have := encloses_rect hab h
    refine ⟨?_, fun m n => ?_⟩
    · intro q hq
      rw [List.mem_singleton.1 hq]
      exact ⟨this.ext_proper, this.ints_proper⟩
    · simpa [ShapelyResult.pieces] using this.moments m n
  · refine ⟨by simp [ShapelyResult.pieces], fun m n => ?_⟩
    simp only [ShapelyResult.pieces, List.map_nil, List.sum_nil, areaMoment]
    rw [Measure.restrict_eq_zero.2, integral_zero_measure]
    rw [Measure.volume_eq_prod, Measure.prod_prod, Real.volume_Icc, Real.volume_Icc,
      ENNReal.ofReal_of_nonpos (p := min y1 d - max y0 c) (by linarith [not_lt.1 h]), mul_zero]

theorem neutralAngle_up {e : Fin 3 → ℝ} (h1 : 0 < e 1) (h2 : e 2 = 0) : neutralAngle e = 0 := by
  have : (⟨e 1, 0⟩ : ℂ) = ((e 1 : ℝ) : ℂ) := by apply Complex.ext <;> simp
  rw [neutralAngle, atan2, h2, this, Complex.arg_ofReal_of_nonneg h1.le, neg_zero]

theorem polygon_rotate_zero (p : Polygon) : p.rotate 0 = p := by
  have : rotPt 0 = id := by funext x; exact rotPt_zero x
  cases p
  simp [Polygon.rotate, this]

/-- A 300 x 500 concrete rectangle (fc = 30, parabola-rectangle 0.002/0.0035) with a layer of two
bars, under `e0 = -0.001`, curvature `4e-6`: all hypotheses of C50 hold. -/
example (k : ℕ) (steel : Law) (fc : ℝ) :
    let l := ParabolaRectangle.new fc 0.002 0.0035 2
    let p : Polygon := ⟨rectRing 0 300 0 500, []⟩
    let R : Set (ℝ × ℝ) := Set.Icc 0 300 ×ˢ Set.Icc 0 500
    let e : Fin 3 → ℝ := ![-0.001, 4e-6, 0]
    let d : List Group := [⟨[(50, 50, 200), (250, 50, 200)], ⟨k, steel⟩⟩]
    marinIntegrate (rectSplit 0 300 0 500) [Surf.ofMarin p l.marin l.marinT] [] e .stress (some d) =
      .ok (.forces (regionResultants R l.stress e + resultants (fibres Law.stress d) e), d) := by
  intro l p R e d
  have h1 : 0 < e 1 := by norm_num [e]
  have ha : neutralAngle e = 0 := neutralAngle_up h1 rfl
  refine (C50_concrete_section_partial _ fc 0.002 0.0035 (by norm_num) ?_ p R
    (encloses_rect (by norm_num) (by norm_num)) [] d ?_ e (Or.inl h1.ne') ?_ ?_).1
  · norm_num [abs_of_pos]
  · intro a hx b hy
    rw [List.mem_singleton.1 hx, List.mem_singleton.1 hy]
  · rw [ha]
    have : rotPt 0 = id := by funext x; exact rotPt_zero x
    have hR : rotPt 0 '' R = R := by rw [this, Set.image_id]
    rw [hR]
    exact rectSplit_exact (by norm_num) _
  · rintro ⟨x, y⟩ ⟨hx, hy⟩
    simp only [Set.mem_Icc] at hy
    have hs : planeStrain e x y = -0.001 + 4e-6 * y := by
      simp [planeStrain, e]
    simp only [hs, Clear]
    constructor
    · rw [lt_abs]; left
      norm_num [abs_of_pos]
      linarith
    · rw [lt_abs]; right
      norm_num
      linarith

/-! ## Violations -/

theorem rectMarin (a b c d : ℝ) :
    marin (rectRing a b c d) 0 0 = (b - a) * (d - c) ∧
    marin (rectRing a b c d) 0 1 = (b - a) * (d ^ 2 - c ^ 2) / 2 := by
  constructor <;>
    simp [rectRing, closeRing, marin_cons_cons, marin_single, (edgeTerm_explicit _ _).1,
      (edgeTerm_explicit _ _).2.2.1, det2] <;> ring

/-- A T-section: flange `[-2,2] × [1,2]` on a web `[-1,1] × [0,1]`. -/
def teeRing : List (ℝ × ℝ) := [(-1, 0), (1, 0), (1, 1), (2, 1), (2, 2), (-2, 2), (-2, 1), (-1, 1), (-1, 0)]

open Classical in
/-- The clipper on the T-section cut along the underside of the flange: above, the flange; below, the
web - as `web`, or, with the two flange edges that lie on the cutting line, as a `GeometryCollection`
(polygon and two lines), which is what `shapely`'s intersection of closed sets is. -/
noncomputable def teeSplit (web : ShapelyResult) : Polygon → ℝ → ℝ → ShapelyResult :=
  fun _ y0 _ => if y0 < 1 then web else .polygon ⟨rectRing (-2) 2 1 2, []⟩

/-- **C50 violated.** When a strain range ends exactly at the underside of the flange of a T-section,
the part below it is a `GeometryCollection` (the web and two flange edges).  The integrator only
handles `Polygon` and `MultiPolygon` and silently drops it: `N = -90` instead of `N = -150`. -/
theorem C50_collection_violated :
    ∃ l : Bilinear, Bilinear.new? 30 0.002 (some 0.0035) = .ok l ∧
      let e : Fin 3 → ℝ := ![-0.003, 0.001, 0]
      let s := Surf.ofMarin ⟨teeRing, []⟩ l.marin l.marinT
      (∃ F, marinIntegrate (teeSplit (.polygon ⟨rectRing (-1) 1 0 1, []⟩)) [s] [] e .stress none =
        .ok (.forces F, []) ∧ F 0 = -150) ∧
      (∃ F, marinIntegrate (teeSplit .other) [s] [] e .stress none = .ok (.forces F, []) ∧
        F 0 = -90) := by
  refine ⟨⟨-30, -0.002, -0.0035⟩, by norm_num [Bilinear.new?, abs_of_pos], ?_⟩
  intro e s
  have h1 : 0 < e 1 := by norm_num [e]
  have ha : neutralAngle e = 0 := neutralAngle_up h1 rfl
  have hg : Real.sqrt (e 2 ^ 2 + e 1 ^ 2) = 0.001 := by
    have h2 : e 2 = 0 := rfl
    have h1' : e 1 = 0.001 := rfl
    rw [h2, h1', Real.sqrt_eq_iff_mul_self_eq] <;> norm_num
  have he0 : e 0 = -0.003 := rfl
  have hE : (⟨-30, -0.002, -0.0035⟩ : Bilinear).E = 15000 := by norm_num [Bilinear.E]
  unfold neutralAngle at ha
  have r1 := rectMarin (-2) 2 1 2
  have r2 := rectMarin (-1) 1 0 1
  norm_num at r1 r2
  have hps : ∀ web, processSurfaces (teeSplit web) .stress 0.001 (-0.003) [s] =
      .ok (inputPolygon ⟨rectRing (-2) 2 1 2, []⟩ [-45, 15] ++
        (web.pieces.flatMap fun q => inputPolygon q [-30]), -0.003) := by
    intro web
    have c1 : ¬ (-(-0.003 - -0.002) / 0.001 : ℝ) > -(-0.003 - 0) / 0.001 := by norm_num
    have c2 : ¬ (-(-0.003 - -0.0035) / 0.001 : ℝ) > -(-0.003 - -0.002) / 0.001 := by norm_num
    have c3 : ¬ (-(-0.003 - -0.002) / 0.001 : ℝ) < 1 := by norm_num
    have c4 : (-(-0.003 - -0.0035) / 0.001 : ℝ) < 1 := by norm_num
    have c5 : ¬ (0.001 : ℝ) = 0 := by norm_num
    simp only [processSurfaces, processSurface, s, Surf.coefficients, Surf.ofMarin, Bilinear.marin,
      if_neg c5, if_false, List.length_cons, List.length_nil, lt_irrefl,
      List.zip_cons_cons, List.zip_nil_right, List.flatMap_cons, List.flatMap_nil,
      List.append_nil, processRange, if_neg c1, if_neg c2, teeSplit, if_neg c3, if_pos c4, hE]
    cases web <;> norm_num [ShapelyResult.pieces]
  have hor : ∀ a b c d : ℝ, a < b → c < d → inputPolygon ⟨rectRing a b c d, []⟩ =
      fun k => [Item.ring (rectRing a b c d) k] := by
    intro a b c d hab hcd
    funext k
    have : 0 ≤ marin (rectRing a b c d) 0 0 := by
      rw [(rectMarin a b c d).1]
      exact mul_nonneg (by linarith) (by linarith)
    simp [inputPolygon, orient, this]
    simp [rectRing, closeRing]
  have hsurf : ([s].map fun g => { g with polygon := g.polygon.rotate 0 }) = [s] := by
    simp [polygon_rotate_zero]
  have hres : ∀ web, marinIntegrate (teeSplit web) [s] [] e .stress none =
      .ok (.forces (marinForces 0 ((inputPolygon ⟨rectRing (-2) 2 1 2, []⟩ [-45, 15] ++
        (web.pieces.flatMap fun q => inputPolygon q [-30])) ++ [.points []])), []) := by
    intro web
    simp only [marinIntegrate, marinPrepare, ha, hg, he0, hsurf, hps, groupBars, marinGroups]
    simp [Pure.pure, Except.pure]
  refine ⟨⟨_, hres _, ?_⟩, ⟨_, hres _, ?_⟩⟩
  · simp [marinForces, ShapelyResult.pieces, hor, itemForces, List.zipIdx, r1, r2]
    norm_num
  · simp [marinForces, ShapelyResult.pieces, hor, itemForces, List.zipIdx, r1]
    norm_num

/-- **C20 violated** (uniform strain).  `__marin__` of the concrete law overwrites the strain list it
is given when the strain is within tolerance of its ultimate strain; the same list is then used for
the bars.  Next to a parabola-rectangle surface the elastic bar is integrated at `-0.0035` instead
of `-0.0034995`. -/
theorem C20_shared_strain_violated (split : Polygon → ℝ → ℝ → ShapelyResult) :
    let l := ParabolaRectangle.new 30 0.002 0.0035 2
    let s := Surf.ofMarin ⟨[], []⟩ l.marin l.marinT
    let bar : Group := ⟨[(0, 0, 100)], ⟨0, Elastic.law ⟨200000, none⟩⟩⟩
    let e : Fin 3 → ℝ := ![-0.0034995, 0, 0]
    ∃ F, marinIntegrate split [s] [] e .stress (some [bar]) = .ok (.forces F, [bar]) ∧
      F 0 = -70000 ∧ resultants (fibres Law.stress [bar]) e 0 = -69990 := by
  intro l s bar e
  have hlu : l.ult false = (-0.0035, 100) := by norm_num [l, ParabolaRectangle.ult, abs_of_pos]
  have hsnap : snap (l.ult false) (-0.0034995) = -0.0035 := by
    rw [hlu]
    have a1 : ¬ isclose (-0.0034995) 100 := by norm_num [isclose, abs_of_neg]
    have a2 : isclose (-0.0034995) (-0.0035) := by norm_num [isclose, abs_of_pos]
    simp only [snap, if_neg a1, if_pos a2]
  have hm : l.marin (-0.0034995) 0 = (⟨none, [[l.fc]]⟩, -0.0035) := by
    have a3 : ¬ (-0.0035 : ℝ) > 0 := by norm_num
    have a4 : ¬ (-0.0035 : ℝ) > l.eps_0 := by norm_num [l, abs_of_pos]
    have a5 : (-0.0035 : ℝ) ≥ l.eps_u := by norm_num [l, abs_of_pos]
    simp only [ParabolaRectangle.marin, if_true, hsnap, if_neg a3, if_neg a4, if_pos a5]
  have h1 : e 1 = 0 := rfl
  have h2 : e 2 = 0 := rfl
  have h0 : e 0 = -0.0034995 := rfl
  have hps : processSurfaces split .stress (Real.sqrt (e 2 ^ 2 + e 1 ^ 2)) (e 0)
      ([s].map fun g => { g with polygon := g.polygon.rotate (-atan2 (e 2) (e 1)) }) =
      .ok ([], -0.0035) := by
    simp [processSurfaces, processSurface, s, Surf.coefficients, Surf.ofMarin, h0, h1, h2, hm,
      inputPolygon, Polygon.rotate]
  have hb := marinGroups_eq ![-0.0035, 0, 0] .stress Law.stress (fun _ => rfl) [bar]
    (by intro a ha b hb; rw [List.mem_singleton.1 ha, List.mem_singleton.1 hb])
  have hb' : marinGroups (-0.0035) (Real.sqrt (e 2 ^ 2 + e 1 ^ 2)) .stress
      ([bar].map (rotGroup (-atan2 (e 2) (e 1)))) = _ := hb
  refine ⟨resultants (fibres Law.stress [bar]) ![-0.0035, 0, 0], ?_, ?_, ?_⟩
  · simp only [marinIntegrate, marinPrepare, hps, hb', List.nil_append]
    have := marinForces_points (-atan2 (e 2) (e 1))
      ((fibres Law.stress [bar]).map fun f =>
        (f.y, f.z, f.A * f.resp (planeStrain ![-0.0035, 0, 0] f.y f.z)))
    rw [fiberStress_eq] at this
    rw [rotGroups_neg, ← this]
    rfl
  · norm_num [resultants, fibres, bar, planeStrain, lever, Elastic.law, Elastic.stress]
  · norm_num [resultants, fibres, bar, planeStrain, lever, Elastic.law, Elastic.stress, h0, h1, h2]

end SC
