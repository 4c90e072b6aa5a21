import Verif.Lemmas.MarinExact
import Verif.Props.MarinBars
import Verif.Props.FiberMesh
import Verif.Props.MarinLaws
import Verif.Props.UserDefined

/-! # C21, C50: Marin integration of surfaces is exact -/

set_option autoImplicit false

namespace SC

open Spec MeasureTheory

/-- What `__marin__` (or `__marin_tangent__`) returned for the profile `e0 + e1*y` describes the
response `f` for the admitted strains, and `strain[0]` was not changed.  Either one polynomial
valid everywhere, or, for a strain gradient, pieces. -/
def Reproduces (out : Except PyErr MarinOut × ℝ) (f : ℝ → ℝ) (e0 e1 : ℝ) (ok : ℝ → Prop) : Prop :=
  out.2 = e0 ∧ ∃ m, out.1 = .ok m ∧
    ((m.ranges = none ∧ ∃ c, m.coeffs = [c] ∧
        ∀ y, ok (e0 + e1 * y) → evalPoly c y = f (e0 + e1 * y)) ∨
     (0 < e1 ∧ ∃ rs, m.ranges = some rs ∧ PiecesMatchInterior f e0 e1 ok rs m.coeffs))

/-- Angle by which the integrator rotates the section, _marin_integrator.py:277-283. -/
noncomputable def neutralAngle (e : Fin 3 → ℝ) : ℝ := -atan2 (e 2) (e 1)

/-- Strain gradient in the rotated section. -/
noncomputable def gradient (e : Fin 3 → ℝ) : ℝ := Real.sqrt (e 2 ^ 2 + e 1 ^ 2)

def RingsOnly (items : List Item) : Prop := ∀ it ∈ items, ∃ r c, it = .ring r c

theorem ringsOnly_inputPolygon (q : Polygon) (c : List ℝ) : RingsOnly (inputPolygon q c) := by
  intro it hit
  unfold inputPolygon at hit
  split_ifs at hit with h
  · simp at hit
  · rcases List.mem_cons.1 hit with rfl | hit
    · exact ⟨_, _, rfl⟩
    · obtain ⟨r, _, rfl⟩ := List.mem_map.1 hit
      exact ⟨_, _, rfl⟩

theorem ringsOnly_flatMap {α : Type} (l : List α) (f : α → List Item) (h : ∀ a ∈ l, RingsOnly (f a)) :
    RingsOnly (l.flatMap f) := by
  intro it hit
  obtain ⟨a, ha, hi⟩ := List.mem_flatMap.1 hit
  exact h a ha it hi

theorem ringsOnly_processRange (split : Polygon → ℝ → ℝ → ShapelyResult) (p : Polygon) (e0 e1 : ℝ)
    (r : ℝ × ℝ) (c : List ℝ) : RingsOnly (processRange split p e0 e1 r c) := by
  unfold processRange
  simp only
  cases split p (if -(e0 - r.1) / e1 > -(e0 - r.2) / e1 then
      (-(e0 - r.2) / e1, -(e0 - r.1) / e1) else (-(e0 - r.1) / e1, -(e0 - r.2) / e1)).1
    (if -(e0 - r.1) / e1 > -(e0 - r.2) / e1 then
      (-(e0 - r.2) / e1, -(e0 - r.1) / e1) else (-(e0 - r.1) / e1, -(e0 - r.2) / e1)).2 with
  | polygon q => exact ringsOnly_inputPolygon q c
  | multi qs => exact ringsOnly_flatMap _ _ fun q _ => ringsOnly_inputPolygon q c
  | other => intro it hit; simp at hit

theorem ringsOnly_forces (items : List Item) (h : RingsOnly items) :
    (items.map itemForces).sum = ![itemsSum 0 0 items, itemsSum 0 1 items, -itemsSum 1 0 items] := by
  induction items with
  | nil =>
    funext i
    fin_cases i <;> simp [itemsSum]
  | cons it items ih =>
    obtain ⟨r, c, rfl⟩ := h it List.mem_cons_self
    rw [List.map_cons, List.sum_cons, ih fun i hi => h i (List.mem_cons_of_mem _ hi)]
    funext i
    fin_cases i <;> simp [itemForces, itemsSum, ringSum] <;> ring

theorem ringsOnly_stiffness (items : List Item) (h : RingsOnly items) :
    (items.map itemStiffness).sum = ![itemsSum 0 0 items, itemsSum 0 1 items, -itemsSum 1 0 items,
      itemsSum 0 2 items, -itemsSum 1 1 items, itemsSum 2 0 items] := by
  induction items with
  | nil =>
    funext i
    fin_cases i <;> simp [itemsSum]
  | cons it items ih =>
    obtain ⟨r, c, rfl⟩ := h it List.mem_cons_self
    rw [List.map_cons, List.sum_cons, ih fun i hi => h i (List.mem_cons_of_mem _ hi)]
    funext i
    fin_cases i <;> simp [itemStiffness, itemsSum, ringSum] <;> ring

/-- One geometry in the rotated frame. -/
theorem processSurface_exact (split : Polygon → ℝ → ℝ → ShapelyResult) (ig : IntegrateArg) (g : Surf)
    (R : Set (ℝ × ℝ)) (f : ℝ → ℝ) (ok : ℝ → Prop) (e0 e1 : ℝ)
    (henc : Encloses g.polygon.ext g.polygon.ints R)
    (hs : (∃ m rs, (g.coefficients e0 e1 ig).1 = .ok m ∧ m.ranges = some rs) →
      SplitsExactly split g.polygon R)
    (hr : Reproduces (g.coefficients e0 e1 ig) f e0 e1 ok)
    (hok : ∀ x ∈ R, ok (e0 + e1 * x.2)) :
    ∃ items, processSurface split ig e0 e1 g = (.ok items, e0) ∧ RingsOnly items ∧
      ∀ m off, IntegrableOn (fun x : ℝ × ℝ => x.1 ^ m * x.2 ^ off * f (e0 + e1 * x.2)) R ∧
        itemsSum m off items = ∫ x in R, x.1 ^ m * x.2 ^ off * f (e0 + e1 * x.2) := by
  obtain ⟨h2, m, h1, h | h⟩ := hr
  · obtain ⟨hn, c, hc, hcf⟩ := h
    refine ⟨inputPolygon g.polygon c, ?_, ringsOnly_inputPolygon _ _, fun m off => ?_⟩
    · simp [processSurface, h1, h2, hn, hc]
    · have heq : Set.EqOn (integrandOf m off c)
          (fun x : ℝ × ℝ => x.1 ^ m * x.2 ^ off * f (e0 + e1 * x.2)) R := by
        intro x hx
        simp only [integrandOf, hcf x.2 (hok x hx)]
      refine ⟨(continuous_integrableOn (polyAlg_continuous (integrandOf_mem m off c))
        henc.bounded).congr_fun heq henc.measurable, ?_⟩
      rw [itemsSum_inputPolygon m off g.polygon ⟨henc.ext_proper, henc.ints_proper⟩ c,
        holedInt_poly henc (integrandOf_mem m off c)]
      exact setIntegral_congr_fun henc.measurable heq
  · obtain ⟨he, rs, hrs, hp⟩ := h
    have hs := hs ⟨m, rs, h1, hrs⟩
    have hlen := hp.length
    refine ⟨(rs.zip m.coeffs).flatMap fun rc => processRange split g.polygon e0 e1 rc.1 rc.2, ?_,
      ringsOnly_flatMap _ _ fun rc _ => ringsOnly_processRange _ _ _ _ _ _, fun k off => ?_⟩
    · simp [processSurface, h1, h2, hrs, he.ne', hlen]
    · obtain ⟨hi, hv⟩ := piecewise_integral e0 e1 (rs.zip m.coeffs) R henc.bounded k off
      have hfst : (rs.zip m.coeffs).map Prod.fst = rs := List.map_fst_zip hlen.le
      have hae : ∀ᵐ x ∂(volume.restrict R),
          x.1 ^ k * x.2 ^ off * piecewise e0 e1 (rs.zip m.coeffs) x =
            x.1 ^ k * x.2 ^ off * f (e0 + e1 * x.2) := by
        have hends : ∀ᵐ x : ℝ × ℝ, ∀ rc ∈ rs.zip m.coeffs,
            e0 + e1 * x.2 ≠ rc.1.1 ∧ e0 + e1 * x.2 ≠ rc.1.2 := by
          have hfin : {rc | rc ∈ rs.zip m.coeffs}.Countable :=
            (List.finite_toSet (rs.zip m.coeffs)).countable
          have : ∀ rc ∈ {rc | rc ∈ rs.zip m.coeffs}, ∀ᵐ x : ℝ × ℝ,
              e0 + e1 * x.2 ≠ rc.1.1 ∧ e0 + e1 * x.2 ≠ rc.1.2 := by
            intro rc _
            have a1 := level_null e0 e1 he.ne' rc.1.1
            have a2 := level_null e0 e1 he.ne' rc.1.2
            filter_upwards [measure_eq_zero_iff_ae_notMem.1 a1, measure_eq_zero_iff_ae_notMem.1 a2]
              with x hx1 hx2
            exact ⟨hx1, hx2⟩
          exact (ae_ball_iff hfin).2 this
        filter_upwards [ae_restrict_of_ae hends, ae_restrict_mem henc.measurable] with x hx hxR
        congr 1
        rw [piecewise_eq f e0 e1 x (rs.zip m.coeffs) (by rw [hfst]; exact hp.tiling.2) hx
          (fun rc hrc a b => hp.inside rc hrc x.2 (hok x hxR) a b)]
        split_ifs with hex
        · rfl
        · symm
          apply hp.outside x.2 (hok x hxR)
          intro r hr
          rw [← hfst] at hr
          obtain ⟨rc, hrc, rfl⟩ := List.mem_map.1 hr
          have hx' := hx rc hrc
          push Not at hex
          have hex' := hex rc hrc
          rcases lt_or_gt_of_ne hx'.1 with h | h
          · exact Or.inl h
          · exact Or.inr (lt_of_le_of_ne (hex' h) (Ne.symm hx'.2))
      refine ⟨hi.congr hae, ?_⟩
      rw [itemsSum_flatMap, ← integral_congr_ae hae, hv]
      congr 1
      apply List.map_congr_left
      intro rc hrc
      refine itemsSum_processRange split g.polygon R henc.bounded hs e0 e1 he rc.1 ?_ rc.2 k off
      exact hp.tiling.1 _ (by rw [← hfst]; exact List.mem_map_of_mem hrc)

/-- A surface together with what the specification knows about it. -/
structure SurfSpec where
  surf : Surf
  region : Set (ℝ × ℝ)
  response : ℝ → ℝ

/-- Everything the exactness theorem needs to know about one surface: the polygon bounds the region,
the clipper is correct on it (only needed for laws that return strain ranges), and the law's Marin
description is right for the strains that occur in the region. -/
structure SurfSpec.Good (split : Polygon → ℝ → ℝ → ShapelyResult) (ig : IntegrateArg)
    (e : Fin 3 → ℝ) (s : SurfSpec) : Prop where
  encloses : Encloses s.surf.polygon.ext s.surf.polygon.ints s.region
  splits : (∃ m rs, (s.surf.coefficients (e 0) (gradient e) ig).1 = .ok m ∧ m.ranges = some rs) →
    SplitsExactly split (s.surf.polygon.rotate (neutralAngle e))
    (rotPt (neutralAngle e) '' s.region)
  reproduces : Reproduces (s.surf.coefficients (e 0) (gradient e) ig) s.response (e 0) (gradient e)
    (fun eps => ∃ x ∈ s.region, planeStrain e x.1 x.2 = eps)

theorem rotated_strain (e : Fin 3 → ℝ) (x : ℝ × ℝ) :
    e 0 + gradient e * (rotPt (neutralAngle e) x).2 = planeStrain e x.1 x.2 := by
  have := rot_strain (e 1) (e 2) x.1 x.2
  unfold gradient neutralAngle planeStrain
  linear_combination this

theorem processSurface_good (split : Polygon → ℝ → ℝ → ShapelyResult) (ig : IntegrateArg)
    (e : Fin 3 → ℝ) (s : SurfSpec) (h : s.Good split ig e) :
    ∃ items, processSurface split ig (e 0) (gradient e)
        { s.surf with polygon := s.surf.polygon.rotate (neutralAngle e) } = (.ok items, e 0) ∧
      RingsOnly items ∧
      ∀ m off, IntegrableOn (fun x : ℝ × ℝ => (rotPt (neutralAngle e) x).1 ^ m *
          (rotPt (neutralAngle e) x).2 ^ off * s.response (planeStrain e x.1 x.2)) s.region ∧
        itemsSum m off items = ∫ x in s.region, (rotPt (neutralAngle e) x).1 ^ m *
          (rotPt (neutralAngle e) x).2 ^ off * s.response (planeStrain e x.1 x.2) := by
  have hrot := encloses_rot (neutralAngle e) h.encloses
  obtain ⟨items, h1, h2, h3⟩ := processSurface_exact split ig
    { s.surf with polygon := s.surf.polygon.rotate (neutralAngle e) }
    (rotPt (neutralAngle e) '' s.region) s.response
    (fun eps => ∃ x ∈ s.region, planeStrain e x.1 x.2 = eps) (e 0) (gradient e) hrot
    (by cases ig <;> exact h.splits)
    (by cases ig <;> exact h.reproduces)
    (by
      rintro _ ⟨x, hx, rfl⟩
      exact ⟨x, hx, (rotated_strain e x).symm⟩)
  refine ⟨items, h1, h2, fun m off => ?_⟩
  obtain ⟨hi, hv⟩ := h3 m off
  have hd : ∀ x ∈ s.region, HasFDerivWithinAt (rotPt (neutralAngle e)) (rotLin (neutralAngle e))
      s.region x := by
    intro x _
    have : rotPt (neutralAngle e) = rotLin (neutralAngle e) := by funext x; rw [rotLin_apply]
    rw [this]
    exact (rotLin _).hasFDerivWithinAt
  constructor
  · have : Measure.IsAddHaarMeasure (volume : Measure (ℝ × ℝ)) :=
      Measure.prod.instIsAddHaarMeasure _ _
    rw [integrableOn_image_iff_integrableOn_abs_det_fderiv_smul volume h.encloses.measurable hd
      ((rotPt_injective _).injOn)] at hi
    simpa [rotLin_det, rotated_strain] using hi
  · rw [hv, integral_rot _ h.encloses.measurable]
    simp only [rotated_strain]

theorem surface_forces (split : Polygon → ℝ → ℝ → ShapelyResult) (ig : IntegrateArg)
    (e : Fin 3 → ℝ) (s : SurfSpec) (h : s.Good split ig e) :
    ∃ items, processSurface split ig (e 0) (gradient e)
        { s.surf with polygon := s.surf.polygon.rotate (neutralAngle e) } = (.ok items, e 0) ∧
      marinForces (neutralAngle e) items = regionResultants s.region s.response e ∧
      marinStiffness (neutralAngle e) items = regionStiffness s.region s.response e := by
  obtain ⟨items, h1, h2, h3⟩ := processSurface_good split ig e s h
  refine ⟨items, h1, ?_, ?_⟩
  · have hsc := Real.sin_sq_add_cos_sq (neutralAngle e)
    have i01 := h3 0 1
    have i10 := h3 1 0
    have i00 := h3 0 0
    simp only [pow_zero, pow_one, one_mul, mul_one] at i00 i01 i10
    unfold marinForces
    rw [ringsOnly_forces items h2]
    funext i
    fin_cases i
    · simp only [Fin.zero_eta, Matrix.cons_val, regionResultants, lever, mul_one]
      rw [i00.2]
    · simp only [Fin.mk_one, Matrix.cons_val, regionResultants, lever, Real.cos_neg, Real.sin_neg]
      rw [i01.2, i10.2, show ∀ a b c d : ℝ, a * b - -c * -d = a * b - c * d by intros; ring,
        ← integral_const_mul, ← integral_const_mul, ← integral_sub (i01.1.const_mul _)
          (i10.1.const_mul _)]
      congr 1
      funext x
      simp only [rotPt]
      linear_combination s.response (planeStrain e x.1 x.2) * x.2 * hsc
    · simp only [Fin.reduceFinMk, Matrix.cons_val, regionResultants, lever, Real.cos_neg,
        Real.sin_neg]
      rw [i01.2, i10.2, show ∀ a b c d : ℝ, -a * b + c * -d = -(a * b + c * d) by intros; ring,
        ← integral_const_mul, ← integral_const_mul, ← integral_add (i01.1.const_mul _)
          (i10.1.const_mul _), ← integral_neg]
      congr 1
      funext x
      simp only [rotPt]
      linear_combination -s.response (planeStrain e x.1 x.2) * x.1 * hsc
  · have hsc := Real.sin_sq_add_cos_sq (neutralAngle e)
    set a := neutralAngle e with ha
    let F : Fin 3 → Fin 3 → ℝ × ℝ → ℝ := fun k l x => s.response (planeStrain e x.1 x.2) *
      lever (rotPt a x).1 (rotPt a x).2 k * lever (rotPt a x).1 (rotPt a x).2 l
    have hF : ∀ k l, IntegrableOn (F k l) s.region := by
      intro k l
      have i00 := (h3 0 0).1
      have i01 := (h3 0 1).1
      have i10 := (h3 1 0).1
      have i02 := (h3 0 2).1
      have i11 := (h3 1 1).1
      have i20 := (h3 2 0).1
      have key : ∀ (m off : ℕ) (c : ℝ), (∀ x, F k l x = c * ((rotPt a x).1 ^ m *
          (rotPt a x).2 ^ off * s.response (planeStrain e x.1 x.2))) →
          IntegrableOn (F k l) s.region := by
        intro m off c hx
        rw [show F k l = _ from funext hx]
        exact (h3 m off).1.const_mul c
      fin_cases k <;> fin_cases l
      · exact key 0 0 1 fun x => by simp [F, lever]
      · exact key 0 1 1 fun x => by simp [F, lever]; ring
      · exact key 1 0 (-1) fun x => by simp [F, lever]; ring
      · exact key 0 1 1 fun x => by simp [F, lever]; ring
      · exact key 0 2 1 fun x => by simp [F, lever]; ring
      · exact key 1 1 (-1) fun x => by simp [F, lever]; ring
      · exact key 1 0 (-1) fun x => by simp [F, lever]; ring
      · exact key 1 1 (-1) fun x => by simp [F, lever]; ring
      · exact key 2 0 1 fun x => by simp [F, lever]; ring
    have hK : ∀ k l, (!![itemsSum 0 0 items, itemsSum 0 1 items, -itemsSum 1 0 items;
        itemsSum 0 1 items, itemsSum 0 2 items, -itemsSum 1 1 items;
        -itemsSum 1 0 items, -itemsSum 1 1 items, itemsSum 2 0 items] :
          Matrix (Fin 3) (Fin 3) ℝ) k l = ∫ x in s.region, F k l x := by
      intro k l
      fin_cases k <;> fin_cases l <;>
        simp only [Fin.zero_eta, Fin.mk_one, Fin.reduceFinMk, Matrix.of_apply, Matrix.cons_val,
          (h3 _ _).2, ← integral_neg] <;> congr 1 <;> funext x <;> simp [F, lever] <;> ring
    unfold marinStiffness
    rw [ringsOnly_stiffness items h2]
    simp only [Matrix.cons_val]
    ext i j
    rw [Matrix.mul_apply]
    simp only [Matrix.mul_apply, hK, Finset.sum_mul]
    simp only [← integral_const_mul, ← integral_mul_const]
    have hint : ∀ (c d : ℝ) k l, IntegrableOn (fun x => c * F k l x * d) s.region := fun c d k l =>
      ((hF k l).const_mul c).mul_const d
    simp only [← integral_finsetSum _ fun k _ => hint _ _ k _]
    rw [← integral_finsetSum]
    swap
    · intro l _
      exact integrable_finsetSum _ fun k _ => hint _ _ k l
    simp only [regionStiffness]
    congr 1
    funext x
    fin_cases i <;> fin_cases j <;> simp [Fin.sum_univ_three, F, lever, rotPt]
    · linear_combination s.response (planeStrain e x.1 x.2) * x.2 * hsc
    · linear_combination -s.response (planeStrain e x.1 x.2) * x.1 * hsc
    · linear_combination s.response (planeStrain e x.1 x.2) * x.2 * hsc
    · linear_combination s.response (planeStrain e x.1 x.2) * x.2 * x.2 * hsc *
        (1 + Real.sin a ^ 2 + Real.cos a ^ 2)
    · linear_combination -s.response (planeStrain e x.1 x.2) * x.1 * x.2 * hsc *
        (1 + Real.sin a ^ 2 + Real.cos a ^ 2)
    · linear_combination -s.response (planeStrain e x.1 x.2) * x.1 * hsc
    · linear_combination -s.response (planeStrain e x.1 x.2) * x.1 * x.2 * hsc *
        (1 + Real.sin a ^ 2 + Real.cos a ^ 2)
    · linear_combination s.response (planeStrain e x.1 x.2) * x.1 * x.1 * hsc *
        (1 + Real.sin a ^ 2 + Real.cos a ^ 2)

theorem processSurfaces_good (split : Polygon → ℝ → ℝ → ShapelyResult) (ig : IntegrateArg)
    (e : Fin 3 → ℝ) (secs : List SurfSpec) (h : ∀ s ∈ secs, s.Good split ig e) :
    ∃ items, processSurfaces split ig (gradient e) (e 0) ((secs.map SurfSpec.surf).map fun g =>
        { g with polygon := g.polygon.rotate (neutralAngle e) }) = .ok (items, e 0) ∧
      marinForces (neutralAngle e) items =
        (secs.map fun s => regionResultants s.region s.response e).sum ∧
      marinStiffness (neutralAngle e) items =
        (secs.map fun s => regionStiffness s.region s.response e).sum := by
  induction secs with
  | nil => exact ⟨[], rfl, marinForces_nil _, marinStiffness_nil _⟩
  | cons s secs ih =>
    obtain ⟨items, h1, h2, h3⟩ := surface_forces split ig e s (h s List.mem_cons_self)
    obtain ⟨items', h1', h2', h3'⟩ := ih fun s' hs' => h s' (List.mem_cons_of_mem _ hs')
    refine ⟨items ++ items', ?_, ?_, ?_⟩
    · simp only [List.map_cons, processSurfaces, h1, h1']
    · rw [marinForces_append, h2, h2', List.map_cons, List.sum_cons]
    · rw [marinStiffness_append, h3, h3', List.map_cons, List.sum_cons]

/-- **C50** (bar groups of equal sizes; see `C20_ragged_violated`).  Surfaces and bars together: for
every biaxial strain plane, any number of surfaces with holes and any laws whose Marin description
reproduces their stress, the Marin integrator returns the exact resultants: area integrals of the
stress over the regions plus the sums over the bars. -/
theorem C50_forces_partial (split : Polygon → ℝ → ℝ → ShapelyResult) (secs : List SurfSpec)
    (bars : List Bar) (d : List Group) (hd : EqualSizes d) (e : Fin 3 → ℝ)
    (h : ∀ s ∈ secs, s.Good split .stress e) :
    marinIntegrate split (secs.map SurfSpec.surf) bars e .stress (some d) =
      .ok (.forces ((secs.map fun s => regionResultants s.region s.response e).sum +
        resultants (fibres Law.stress d) e), d) := by
  obtain ⟨items, h1, h2, -⟩ := processSurfaces_good split .stress e secs h
  simp only [neutralAngle, gradient] at h1 h2
  simp only [marinIntegrate, marinPrepare, h1,
    marinGroups_eq e .stress Law.stress (fun _ => rfl) d hd, marinForces_append, h2,
    marinForces_points, fiberStress_eq, rotGroups_neg]

/-- **C50**, stiffness matrix. -/
theorem C50_stiffness_partial (split : Polygon → ℝ → ℝ → ShapelyResult) (secs : List SurfSpec)
    (bars : List Bar) (d : List Group) (hd : EqualSizes d) (e : Fin 3 → ℝ)
    (h : ∀ s ∈ secs, s.Good split .modulus e) :
    marinIntegrate split (secs.map SurfSpec.surf) bars e .modulus (some d) =
      .ok (.stiffness ((secs.map fun s => regionStiffness s.region s.response e).sum +
        stiffness (fibres Law.tangent d) e), d) := by
  obtain ⟨items, h1, -, h3⟩ := processSurfaces_good split .modulus e secs h
  simp only [neutralAngle, gradient] at h1 h3
  simp only [marinIntegrate, marinPrepare, h1,
    marinGroups_eq e .modulus Law.tangent (fun _ => rfl) d hd, marinStiffness_append, h3,
    marinStiffness_points, fiberModulus_eq, rotGroups_neg]

/-- A surface whose law's Marin methods cannot raise. -/
def Surf.ofMarin (p : Polygon) (m mT : ℝ → ℝ → MarinOut × ℝ) : Surf :=
  ⟨p, fun e0 e1 => (.ok (m e0 e1).1, (m e0 e1).2), fun e0 e1 => (.ok (mT e0 e1).1, (mT e0 e1).2)⟩

theorem Reproduces.mono {out : Except PyErr MarinOut × ℝ} {f : ℝ → ℝ} {e0 e1 : ℝ}
    {ok ok' : ℝ → Prop} (h : Reproduces out f e0 e1 ok) (hs : ∀ x, ok' x → ok x) :
    Reproduces out f e0 e1 ok' := by
  obtain ⟨h2, m, h1, h | h⟩ := h
  · obtain ⟨hn, c, hc, hcf⟩ := h
    exact ⟨h2, m, h1, Or.inl ⟨hn, c, hc, fun y hy => hcf y (hs _ hy)⟩⟩
  · obtain ⟨he, rs, hrs, hp⟩ := h
    exact ⟨h2, m, h1, Or.inr ⟨he, rs, hrs, hp.length, hp.tiling,
      fun rc hrc y hy => hp.inside rc hrc y (hs _ hy), fun y hy => hp.outside y (hs _ hy)⟩⟩

theorem piecesMatch_interior {f : ℝ → ℝ} {e0 e1 : ℝ} {ok : ℝ → Prop} {rs : List (ℝ × ℝ)}
    {cs : List (List ℝ)} (h : PiecesMatch f e0 e1 ok rs cs) : PiecesMatchInterior f e0 e1 ok rs cs :=
  ⟨h.length, h.tiling, fun rc hrc y hy a b => h.inside rc hrc y hy a.le b.le, h.outside⟩

/-! ## C21: elastic surfaces -/

/-- Area moments of a region as the matrix that multiplies the generalised strains. -/
noncomputable def areaMatrix (R : Set (ℝ × ℝ)) : Matrix (Fin 3) (Fin 3) ℝ :=
  !![areaMoment 0 0 R, areaMoment 0 1 R, -areaMoment 1 0 R;
     areaMoment 0 1 R, areaMoment 0 2 R, -areaMoment 1 1 R;
     -areaMoment 1 0 R, -areaMoment 1 1 R, areaMoment 2 0 R]

theorem regionStiffness_const (R : Set (ℝ × ℝ)) (E : ℝ) (e : Fin 3 → ℝ) :
    regionStiffness R (fun _ => E) e = E • areaMatrix R := by
  ext i j
  simp only [regionStiffness, mul_assoc, integral_const_mul, Matrix.smul_apply, smul_eq_mul]
  congr 1
  fin_cases i <;> fin_cases j <;>
    simp only [Fin.zero_eta, Fin.mk_one, Fin.reduceFinMk, areaMatrix, Matrix.of_apply,
      Matrix.cons_val, areaMoment, ← integral_neg] <;> congr 1 <;> funext x <;> simp [lever] <;> ring

theorem regionResultants_elastic {R : Set (ℝ × ℝ)} (hb : Bornology.IsBounded R) (E : ℝ)
    (e : Fin 3 → ℝ) :
    regionResultants R (fun eps => E * eps) e = E • (areaMatrix R).mulVec e := by
  funext i
  have hst := regionStiffness_const R 1 e
  rw [one_smul] at hst
  rw [← hst]
  have hc : ∀ j : Fin 3, Continuous fun x : ℝ × ℝ => lever x.1 x.2 j := by
    intro j
    fin_cases j <;> simp [lever] <;> fun_prop
  simp only [Pi.smul_apply, Matrix.mulVec, dotProduct, regionStiffness, regionResultants,
    smul_eq_mul, ← integral_mul_const, one_mul]
  rw [← integral_finsetSum, ← integral_const_mul]
  · congr 1
    funext x
    simp only [Fin.sum_univ_three, planeStrain, lever, Matrix.cons_val]
    ring
  · intro j _
    exact ((continuous_integrableOn ((hc i).mul (hc j)) hb)).mul_const _

/-- An elastic surface of modulus `E`. -/
noncomputable def elasticSurf (l : Elastic) (p : Polygon) : Surf := Surf.ofMarin p l.marin l.marinT

theorem elastic_good (split : Polygon → ℝ → ℝ → ShapelyResult) (l : Elastic) (p : Polygon)
    (R : Set (ℝ × ℝ)) (henc : Encloses p.ext p.ints R) (e : Fin 3 → ℝ) :
    SurfSpec.Good split .stress e ⟨elasticSurf l p, R, fun eps => l.E * eps⟩ ∧
    SurfSpec.Good split .modulus e ⟨elasticSurf l p, R, fun _ => l.E⟩ := by
  refine ⟨⟨henc, ?_, rfl, _, rfl, Or.inl ⟨rfl, _, rfl, ?_⟩⟩,
    ⟨henc, ?_, rfl, _, rfl, Or.inl ⟨rfl, _, rfl, ?_⟩⟩⟩
  · rintro ⟨m, rs, h1, h2⟩
    cases h1
    simp [Elastic.marin] at h2
  · intro y _
    simp only [evalPoly]; ring
  · rintro ⟨m, rs, h1, h2⟩
    cases h1
    simp [Elastic.marinT] at h2
  · intro y _
    simp [evalPoly]

/-- **C21.** Any number of linear elastic surfaces (polygons with holes, whatever the orientation of
their rings): for every biaxial strain plane the Marin integrator returns exactly
`N = E (e0 A + e1 Sz - e2 Sy)` etc., i.e. the sum of `E` times the matrix of area moments applied to
the strains.  The clipper is not involved. -/
theorem C21_forces (split : Polygon → ℝ → ℝ → ShapelyResult)
    (secs : List (Elastic × Polygon × Set (ℝ × ℝ)))
    (henc : ∀ s ∈ secs, Encloses s.2.1.ext s.2.1.ints s.2.2) (e : Fin 3 → ℝ) :
    marinIntegrate split (secs.map fun s => elasticSurf s.1 s.2.1) [] e .stress none =
      .ok (.forces (secs.map fun s => s.1.E • (areaMatrix s.2.2).mulVec e).sum, []) := by
  have h := C50_forces_partial split
    (secs.map fun s => ⟨elasticSurf s.1 s.2.1, s.2.2, fun eps => s.1.E * eps⟩) [] []
    (by intro a ha; simp at ha) e (by
      intro s hs
      obtain ⟨t, ht, rfl⟩ := List.mem_map.1 hs
      exact (elastic_good split t.1 t.2.1 t.2.2 (henc t ht) e).1)
  rw [C20_first_call]
  simp only [List.map_map, Function.comp_def] at h
  rw [show groupBars [] = [] from rfl, h]
  have : resultants (fibres Law.stress []) e = 0 := by funext i; simp [resultants, fibres]
  rw [this, add_zero]
  congr 4
  apply List.map_congr_left
  intro s hs
  exact regionResultants_elastic (henc s hs).bounded _ _

/-- **C21**, stiffness: `E` times the matrix of area moments, whatever the strain plane. -/
theorem C21_stiffness (split : Polygon → ℝ → ℝ → ShapelyResult)
    (secs : List (Elastic × Polygon × Set (ℝ × ℝ)))
    (henc : ∀ s ∈ secs, Encloses s.2.1.ext s.2.1.ints s.2.2) (e : Fin 3 → ℝ) :
    marinIntegrate split (secs.map fun s => elasticSurf s.1 s.2.1) [] e .modulus none =
      .ok (.stiffness (secs.map fun s => s.1.E • areaMatrix s.2.2).sum, []) := by
  have h := C50_stiffness_partial split
    (secs.map fun s => ⟨elasticSurf s.1 s.2.1, s.2.2, fun _ => s.1.E⟩) [] []
    (by intro a ha; simp at ha) e (by
      intro s hs
      obtain ⟨t, ht, rfl⟩ := List.mem_map.1 hs
      exact (elastic_good split t.1 t.2.1 t.2.2 (henc t ht) e).2)
  rw [C20_first_call]
  simp only [List.map_map, Function.comp_def] at h
  rw [show groupBars [] = [] from rfl, h]
  have : stiffness (fibres Law.tangent []) e = 0 := by ext i j; simp [stiffness, fibres]
  rw [this, add_zero]
  congr 4
  apply List.map_congr_left
  intro s hs
  exact regionStiffness_const _ _ _

/-- The hypothesis holds for every strictly convex polygon: its ring bounds its convex hull. -/
theorem encloses_convex (ring : List (ℝ × ℝ)) (hlen : 3 ≤ ring.length) (h : ConvexCCW ring) :
    Encloses (closeRing ring) [] (convexHull ℝ {p | p ∈ ring}) := by
  have hfin : {p | p ∈ ring}.Finite := List.finite_toSet ring
  have hcpt := hfin.isCompact_convexHull (𝕜 := ℝ)
  have hclosed : Closed (closeRing ring) := by
    cases ring with
    | nil => simp at hlen
    | cons a l =>
      change (a :: l ++ [a]).head? = (a :: l ++ [a]).getLast?
      rw [List.getLast?_concat]
      rfl
  have hmom : ∀ m n, signedMoment m n 0 (closeRing ring) =
      areaMoment m n (convexHull ℝ {p | p ∈ ring}) := by
    intro m n
    have h1 := C01_signed_moment (closeRing ring) hclosed 0 m n
    rw [C01_convex ring hlen h m n] at h1
    exact (Except.ok.inj h1).symm
  have hpos : 0 < areaMoment 0 0 (convexHull ℝ {p | p ∈ ring}) := by
    match ring, hlen with
    | a :: b :: c :: l, _ =>
      have hc : 0 < cross a b c := h a b c (by simp)
      have htri := (C49_triangle a b c hc.ne' _ _ _ rfl)
      have hsub : triangle a b c ⊆ convexHull ℝ {p | p ∈ a :: b :: c :: l} := by
        apply convexHull_mono
        intro x hx
        simp only [Set.mem_insert_iff, Set.mem_singleton_iff] at hx
        rcases hx with rfl | rfl | rfl <;> simp
      have h2 : areaMoment 0 0 (triangle a b c) ≤
          areaMoment 0 0 (convexHull ℝ {p | p ∈ a :: b :: c :: l}) := by
        unfold areaMoment
        apply setIntegral_mono_set
        · exact continuous_integrableOn (by fun_prop) hcpt.isBounded
        · exact Filter.Eventually.of_forall fun x => by simp
        · exact hsub.eventuallyLE
      rw [htri.2.1] at h2
      exact lt_of_lt_of_le htri.1 h2
  refine ⟨hcpt.isClosed.measurableSet, hcpt.isBounded, ⟨hclosed, ?_⟩, by simp, ?_⟩
  · rw [hmom]; exact hpos.ne'
  · intro m n
    simp only [holedMoment, ringMoment, List.map_nil, List.sum_nil, sub_zero, hmom, sign_pos hpos]
    simp

/-- Holes: a ring bounding a subset of the region can be removed from it. -/
theorem encloses_hole {ext r : List (ℝ × ℝ)} {ints : List (List (ℝ × ℝ))} {R H : Set (ℝ × ℝ)}
    (hR : Encloses ext ints R) (hH : Encloses r [] H) (hs : H ⊆ R) :
    Encloses ext (r :: ints) (R \ H) := by
  refine ⟨hR.measurable.diff hH.measurable, hR.bounded.subset Set.sdiff_subset, hR.ext_proper, ?_, ?_⟩
  · intro x hx
    rcases List.mem_cons.1 hx with rfl | hx
    · exact hH.ext_proper
    · exact hR.ints_proper x hx
  · intro m n
    have h1 := hR.moments m n
    have h2 := hH.moments m n
    simp only [holedMoment, List.map_nil, List.sum_nil, sub_zero, List.map_cons, List.sum_cons]
      at h1 h2 ⊢
    have h3 : areaMoment m n (R \ H) = areaMoment m n R - areaMoment m n H := by
      unfold areaMoment
      rw [setIntegral_sdiff hH.measurable (continuous_integrableOn (by fun_prop) hR.bounded) hs]
    rw [h3, ← h1, ← h2]
    ring

end SC
