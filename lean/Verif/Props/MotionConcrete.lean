import Verif.Props.Motion
import Verif.Props.RCExample

/-! # C72: reinforced concrete sections; the limits of the axial force -/

set_option autoImplicit false

namespace SC

open Spec MeasureTheory

/-! ### Moved boundaries -/

/-- Mirror at the vertical axis. -/
def mirrorPt (x : ℝ × ℝ) : ℝ × ℝ := (-x.1, x.2)

theorem mirrorPt_eq : mirrorPt = signedMap (-1) 1 0 0 := by
  funext x
  simp [mirrorPt, signedMap]

theorem mirror_hull (s : Set (ℝ × ℝ)) : mirrorPt '' convexHull ℝ s = convexHull ℝ (mirrorPt '' s) := by
  have h : IsLinearMap ℝ mirrorPt := by
    constructor
    · rintro ⟨a, b⟩ ⟨c, d⟩; simp [mirrorPt]; ring
    · rintro k ⟨a, b⟩; simp [mirrorPt]
  exact h.image_convexHull s

theorem signedMoment_mirror (k n : ℕ) (ring : List (ℝ × ℝ)) :
    signedMoment k n 0 (ring.map mirrorPt) = -(-1) ^ k * signedMoment k n 0 ring := by
  unfold signedMoment
  rw [edges_map, List.map_map, ← List.sum_map_mul_left]
  congr 1
  refine List.map_congr_left fun e _ => ?_
  have h1 : orientation 0 (mirrorPt e.1) (mirrorPt e.2) = -orientation 0 e.1 e.2 := by
    have : cross 0 (mirrorPt e.1) (mirrorPt e.2) = -cross 0 e.1 e.2 := by simp [cross, mirrorPt]; ring
    unfold orientation
    rw [this, Left.sign_neg]
    simp
  have h2 : triangle 0 (mirrorPt e.1) (mirrorPt e.2) = mirrorPt '' triangle 0 e.1 e.2 := by
    unfold triangle
    rw [mirror_hull]
    congr 1
    simp only [Set.image_insert_eq, Set.image_singleton]
    rw [show mirrorPt 0 = 0 by simp [mirrorPt]]
  have h3 : areaMoment k n (mirrorPt '' triangle 0 e.1 e.2) = (-1) ^ k * areaMoment k n (triangle 0 e.1 e.2) := by
    unfold areaMoment
    rw [mirrorPt_eq, integral_signed, ← integral_const_mul]
    congr 1
    funext x
    simp [signedMap, neg_pow x.1]
    ring
  simp only [Function.comp_apply, h1, h2, h3]
  ring

theorem ringMoment_mirror (k n : ℕ) (ring : List (ℝ × ℝ)) :
    ringMoment k n (ring.map mirrorPt) = (-1) ^ k * ringMoment k n ring := by
  unfold ringMoment
  rw [signedMoment_mirror, signedMoment_mirror]
  simp only [pow_zero, neg_one_mul, Left.sign_neg, SignType.coe_neg]
  ring

theorem properRing_mirror {ring : List (ℝ × ℝ)} (h : ProperRing ring) : ProperRing (ring.map mirrorPt) := by
  refine ⟨?_, ?_⟩
  · have := h.1
    unfold Closed at this ⊢
    rw [List.head?_map, List.getLast?_map, this]
  · rw [signedMoment_mirror]
    simpa using h.2

/-- The mirrored rings bound the mirrored region. -/
theorem encloses_mirror {ext : List (ℝ × ℝ)} {ints : List (List (ℝ × ℝ))} {R : Set (ℝ × ℝ)} (h : Encloses ext ints R) :
    Encloses (ext.map mirrorPt) (ints.map (List.map mirrorPt)) (mirrorPt '' R) where
  measurable := by rw [mirrorPt_eq]; exact (emb_signed _ _ _ _).measurableSet_image.2 h.measurable
  bounded := by
    have hl : LipschitzWith 1 mirrorPt := by
      refine LipschitzWith.of_dist_le_mul fun x y => ?_
      simp [mirrorPt, Prod.dist_eq, Real.dist_eq]
    exact hl.isBounded_image h.bounded
  ext_proper := properRing_mirror h.ext_proper
  ints_proper := by
    intro r hr
    obtain ⟨r', hr', rfl⟩ := List.mem_map.1 hr
    exact properRing_mirror (h.ints_proper r' hr')
  moments := by
    intro k n
    have h3 : areaMoment k n (mirrorPt '' R) = (-1) ^ k * areaMoment k n R := by
      unfold areaMoment
      rw [mirrorPt_eq, integral_signed, ← integral_const_mul]
      congr 1
      funext x
      simp [signedMap, neg_pow x.1]
      ring
    rw [h3, ← h.moments k n]
    unfold holedMoment
    rw [ringMoment_mirror, List.map_map, mul_sub, ← List.sum_map_mul_left]
    congr 2
    exact List.map_congr_left fun r _ => ringMoment_mirror k n r

theorem point_cases (m : Motion) : m.point = translatePt m.shift.1 m.shift.2 ∘ rotPt m.angle ∘ (if m.mirrored then mirrorPt else id) := by
  funext x
  rw [point_eq]
  unfold Motion.sign
  split_ifs <;> simp [mirrorPt]

/-- The moved rings bound the moved region. -/
theorem encloses_moved (m : Motion) {ext : List (ℝ × ℝ)} {ints : List (List (ℝ × ℝ))} {R : Set (ℝ × ℝ)} (h : Encloses ext ints R) :
    Encloses (ext.map m.point) (ints.map (List.map m.point)) (m.point '' R) := by
  have h0 : Encloses (ext.map (if m.mirrored then mirrorPt else id)) (ints.map (List.map (if m.mirrored then mirrorPt else id)))
      ((if m.mirrored then mirrorPt else id) '' R) := by
    split_ifs
    · exact encloses_mirror h
    · simpa using h
  have := encloses_translate m.shift.1 m.shift.2 (encloses_rot m.angle h0)
  rw [point_cases]
  simpa [List.map_map, Set.image_comp, Function.comp_def, Set.image_image] using this

theorem hull_moved (m : Motion) (s : Set (ℝ × ℝ)) : m.point '' convexHull ℝ s ⊆ convexHull ℝ (m.point '' s) := by
  rw [Set.image_subset_iff]
  refine convexHull_min (fun x hx => subset_convexHull _ _ ⟨x, hx, rfl⟩) ?_
  intro x hx y hy a b ha hb hab
  have := convex_convexHull ℝ (m.point '' s) hx hy ha hb hab
  have e : m.point (a • x + b • y) = a • m.point x + b • m.point y := by
    have : a = 1 - b := by linarith
    subst this
    ext <;> simp [Motion.point] <;> ring
  rw [Set.mem_preimage, e]
  exact this

/-! ### Reinforced concrete -/

/-- A moved concrete part. -/
noncomputable def ConcretePart.moved (m : Motion) (p : ConcretePart) : ConcretePart :=
  ⟨⟨p.polygon.ext.map m.point, p.polygon.ints.map (List.map m.point)⟩, m.point '' p.region, p.fc, p.eps_0, p.eps_u⟩

theorem solid_moved (m : Motion) (p : ConcretePart) : (p.moved m).solid = p.solid.moved m := rfl

theorem solids_moved (m : Motion) (parts : List ConcretePart) :
    (parts.map (ConcretePart.moved m)).map ConcretePart.solid = (parts.map ConcretePart.solid).map (Solid.moved m) := by
  rw [List.map_map, List.map_map]
  rfl

theorem concreteSection_moved (m : Motion) (parts : List ConcretePart) (bars : List Bar) :
    concreteSection (parts.map (ConcretePart.moved m)) (bars.map (Bar.moved m)) = (concreteSection parts bars).moved m := by
  simp only [concreteSection, CrossSection.moved, List.map_map, Function.comp_def]
  rfl

/-- A moved part satisfies the assumptions on concrete parts, if `shapely` cuts the moved polygon correctly. -/
theorem ok_moved {split : Polygon → ℝ → ℝ → ShapelyResult} {th th' : ℝ} {p : ConcretePart} (m : Motion) (h : p.Ok split th)
    (hs : SplitsExactly split (((p.moved m).polygon.rotate (-th')).rotate (-Real.pi))
      (rotPt (-Real.pi) '' (rotPt (-th') '' (p.moved m).region))) : (p.moved m).Ok split th' where
  encloses := encloses_moved m h.encloses
  inHull := by
    have := (Set.image_mono h.inHull).trans (hull_moved m _)
    refine this.trans_eq ?_
    congr 1
    ext x
    simp [ConcretePart.moved]
  splits := hs
  peak := h.peak
  plateau := h.plateau

/-- **C72** for reinforced concrete. -/
theorem C72_reinforced_concrete (split : Polygon → ℝ → ℝ → ShapelyResult) (parts : List ConcretePart) (bars : List Bar) (ms th n : ℝ)
    (m : Motion) (lu lu' : Matrix (Fin 3) (Fin 3) ℝ → (Fin 3 → ℝ) → (Fin 3 → ℝ)) (ops ops' : List Op)
    (hok : ∀ p ∈ parts, p.Ok split th) (hok' : ∀ p ∈ parts, (p.moved m).Ok split (m.inclination th))
    (hid : SameIds (bars.map Bar.law)) (hd : EqualSizes (groupBars bars))
    (hlim : ∀ c ∈ (concreteSection parts bars).corners, c.2.1 ≤ 0 ∧ 0 ≤ c.2.2)
    (hflat : ∀ c ∈ (concreteSection parts bars).corners, ∀ d ∈ (concreteSection parts bars).corners,
      1e-13 * (height th d.1 - height th c.1) ≤ c.2.2 - d.2.1)
    {E E' : Engine} (hE : E = sectionEngine split (parts.map ConcretePart.solid) bars ms)
    (hE' : E' = sectionEngine split ((parts.map (ConcretePart.moved m)).map ConcretePart.solid) (bars.map (Bar.moved m)) ms)
    (hops : Undisturbed E lu ops .fresh) (hops' : Undisturbed E' lu' ops' .fresh)
    (hc : (checkAxialLoad E n .fresh).2 = .ok ()) (hc' : (checkAxialLoad E' n .fresh).2 = .ok ()) :
    (∀ b, (bendingStrength E th n (history E lu ops .fresh)).2 = .ok b →
      (bendingStrength E' (m.inclination th) n (history E' lu' ops' .fresh)).2 = .ok (b.moved m)) ∧
    ∀ b', (bendingStrength E' (m.inclination th) n (history E' lu' ops' .fresh)).2 = .ok b' →
      ∃ b, (bendingStrength E th n (history E lu ops .fresh)).2 = .ok b ∧ b' = b.moved m := by
  subst hE
  rw [solids_moved] at hE'
  subst hE'
  rw [← concrete_corners] at hlim hflat
  refine C72_strength split (parts.map ConcretePart.solid) bars ms th n m lu lu' ops ops' hid hd ?_ ?_ hlim hflat hops hops' hc hc'
  · intro s hs
    obtain ⟨p, hp, rfl⟩ := List.mem_map.1 hs
    exact ⟨(hok p hp).encloses.measurable, fun e chi h => concrete_good (hok p hp) e chi h⟩
  · intro s hs
    obtain ⟨s', hs', rfl⟩ := List.mem_map.1 hs
    obtain ⟨p, hp, rfl⟩ := List.mem_map.1 hs'
    rw [← solid_moved]
    exact ⟨(hok' p hp).encloses.measurable, fun e chi h => concrete_good (hok' p hp) e chi h⟩

/-! ### Limits of the axial force -/

theorem uniform_integrable {R : Set (ℝ × ℝ)} (hb : Bornology.IsBounded R) (f : ℝ → ℝ) (e : ℝ) (i : Fin 3) :
    IntegrableOn (fun x : ℝ × ℝ => f (planeStrain ![e, 0, 0] x.1 x.2) * lever x.1 x.2 i) R := by
  have : (fun x : ℝ × ℝ => f (planeStrain ![e, 0, 0] x.1 x.2) * lever x.1 x.2 i) = fun x => f e * lever x.1 x.2 i := by
    funext x
    simp [planeStrain]
  rw [this]
  refine continuous_integrableOn ?_ hb
  fin_cases i <;> simp only [lever, Matrix.cons_val, Fin.zero_eta, Fin.mk_one, Fin.reduceFinMk] <;> fun_prop

theorem uniform_moved (m : Motion) {parts : List ConcretePart} {bars : List Bar}
    (henc : ∀ p ∈ parts, Encloses p.polygon.ext p.polygon.ints p.region) (e : ℝ) :
    ((concreteSection parts bars).moved m).forces ![e, 0, 0] 0 = (concreteSection parts bars).forces ![e, 0, 0] 0 := by
  have h := moved_forces m (concreteSection parts bars) ![e, 0, 0] (by
      intro p hp
      obtain ⟨q, hq, rfl⟩ := List.mem_map.1 hp
      exact (henc q hq).measurable) (by
      intro p hp i
      obtain ⟨q, hq, rfl⟩ := List.mem_map.1 hp
      exact uniform_integrable (henc q hq).bounded _ e i)
  have hp : m.plane ![e, 0, 0] = ![e, 0, 0] := by
    simp [Motion.plane, Motion.turn]
  rw [hp] at h
  rw [h]
  simp [Motion.forces]

theorem check_limits {E E' : Engine} (h : (limits E' .fresh).2 = (limits E .fresh).2) (n : ℝ) :
    (checkAxialLoad E' n .fresh).2 = (checkAxialLoad E n .fresh).2 := by
  simp only [checkAxialLoad, CalcM.bind_def]
  rcases hl : limits E .fresh with ⟨s, r⟩
  rcases hl' : limits E' .fresh with ⟨s', r'⟩
  rw [hl, hl'] at h
  simp only at h
  subst h
  cases r' with
  | error e => rfl
  | ok l =>
    simp only
    split_ifs <;> rfl

/-- **C72** (partial: no turning, see the next theorem): shifting or mirroring a section does not change the limits of the axial force. -/
theorem C72_limits_partial (split : Polygon → ℝ → ℝ → ShapelyResult) (parts : List ConcretePart) (bars : List Bar) (ms : ℝ)
    (m : Motion) (h0 : m.angle = 0)
    (henc : ∀ p ∈ parts, Encloses p.polygon.ext p.polygon.ints p.region ∧ 0 < |p.eps_0| ∧ |p.eps_0| ≤ |p.eps_u|)
    (hid : SameIds (bars.map Bar.law)) (hd : EqualSizes (groupBars bars))
    {yn yp : ℝ} {st : Fin 3 → ℝ}
    (hbal : (sectionEngine split (parts.map ConcretePart.solid) bars ms).balanced 0 false = .ok (yn, yp, st))
    (hsnap : ∀ p ∈ parts, snap (p.law.ult false) (st 0 + st 1 * yn) = st 0 + st 1 * yn ∧
      snap (p.law.ult false) (st 0 + st 1 * yp) = st 0 + st 1 * yp) :
    (limits (sectionEngine split ((parts.map (ConcretePart.moved m)).map ConcretePart.solid) (bars.map (Bar.moved m)) ms) .fresh).2 =
      (limits (sectionEngine split (parts.map ConcretePart.solid) bars ms) .fresh).2 ∧
    ∀ n, (checkAxialLoad (sectionEngine split ((parts.map (ConcretePart.moved m)).map ConcretePart.solid) (bars.map (Bar.moved m)) ms)
        n .fresh).2 =
      (checkAxialLoad (sectionEngine split (parts.map ConcretePart.solid) bars ms) n .fresh).2 := by
  have hi0 : m.inclination 0 = 0 := by simp [Motion.inclination, h0]
  have hne : ∀ s ∈ parts.map ConcretePart.solid, s.spec.surf.polygon.ext ≠ [] := by
    intro s hs h
    obtain ⟨p, hp, rfl⟩ := List.mem_map.1 hs
    have := (henc p hp).1.ext_proper.2
    have h : p.polygon.ext = [] := h
    rw [h] at this
    apply this
    simp [signedMoment, Spec.edges]
  set t := height 0 m.shift with ht
  have hbal' : (sectionEngine split ((parts.map (ConcretePart.moved m)).map ConcretePart.solid) (bars.map (Bar.moved m)) ms).balanced 0
      false = .ok (yn + t, yp + t, ![st 0 - st 1 * t, st 1, 0]) := by
    change balancedFailure (sectionParts ((parts.map (ConcretePart.moved m)).map ConcretePart.solid) (bars.map (Bar.moved m)) 0)
      (((parts.map (ConcretePart.moved m)).map ConcretePart.solid).any Solid.concrete) false = _
    have hb : balancedFailure (sectionParts (parts.map ConcretePart.solid) bars 0) ((parts.map ConcretePart.solid).any Solid.concrete)
      false = .ok (yn, yp, st) := hbal
    have hany : ((parts.map ConcretePart.solid).map (Solid.moved m)).any Solid.concrete =
        (parts.map ConcretePart.solid).any Solid.concrete := by
      rw [List.any_map]; rfl
    have := sectionParts_moved m (parts.map ConcretePart.solid) bars 0 hne
    rw [hi0, neg_zero] at this
    rw [solids_moved, hany, this, balancedFailure_raise, hb]
    rfl
  have hid' : SameIds ((bars.map (Bar.moved m)).map Bar.law) := by
    rw [List.map_map]; exact hid
  have e1 : ∀ y, (![st 0 - st 1 * t, st 1, 0] : Fin 3 → ℝ) 0 + (![st 0 - st 1 * t, st 1, 0] : Fin 3 → ℝ) 1 * (y + t) =
      st 0 + st 1 * y := by
    intro y
    simp only [Matrix.cons_val]
    ring
  have h1 := C66_limits_partial split parts bars ms henc hid hd hbal hsnap
  have h2 := C66_limits_partial split (parts.map (ConcretePart.moved m)) (bars.map (Bar.moved m)) ms (by
      intro p hp
      obtain ⟨q, hq, rfl⟩ := List.mem_map.1 hp
      exact ⟨encloses_moved m (henc q hq).1, (henc q hq).2⟩) hid' (equalSizes_moved m hd) hbal' (by
      intro p hp
      obtain ⟨q, hq, rfl⟩ := List.mem_map.1 hp
      rw [e1, e1]
      exact hsnap q hq)
  rw [e1, e1, concreteSection_moved, uniform_moved m fun p hp => (henc p hp).1, uniform_moved m fun p hp => (henc p hp).1,
    ← h1] at h2
  exact ⟨h2, check_limits h2⟩

/-! ### Turning a section changes the limits of its axial force

300 x 500 concrete with one bar of a less ductile steel at the bottom and one bar of a more ductile steel at the top. -/

namespace TwoSteels

open RCBeam

noncomputable def lowSteel : ElasticPlastic := ⟨200000, 500, 0, some 0.0225⟩

noncomputable def bars : List Bar := [⟨0, -200, 500, ⟨1, lowSteel.law⟩⟩, ⟨0, 200, 500, ⟨2, steel.law⟩⟩]

noncomputable def upsideDown : Motion := ⟨Real.pi, false, (0, 0)⟩

theorem point (x : ℝ × ℝ) : upsideDown.point x = (-x.1, -x.2) := by
  simp [Motion.point, upsideDown, Motion.sign]

theorem limits_low : lowSteel.law.ult false = (-0.0225, 0.0225) := by
  simp [ElasticPlastic.law, ElasticPlastic.ult, lowSteel]

theorem balanced : (sectionEngine split ([concrete].map ConcretePart.solid) bars 0.01).balanced 0 false =
    .ok (250, -200, ![0.0225 - 0.026 / 450 * 200, -0.026 / 450, 0]) := by
  have hp : (concrete.solid).part 0 = ⟨true, true, -250, 250, concrete.law.ult⟩ := by
    simp only [Solid.part, ConcretePart.solid, ConcretePart.surf, Surf.ofMarin, polygon_rotate_zero, Polygon.bounds, concrete, rectRing, closeRing]
    norm_num [listMin, listMax]
  have hpar : ([concrete].map ConcretePart.solid).map (Solid.part 0) ++ (bars.map (Bar.rotate 0)).map Bar.part =
      [⟨true, true, -250, 250, concrete.law.ult⟩, ⟨false, false, -200, -200, lowSteel.law.ult⟩,
       ⟨false, false, 200, 200, steel.law.ult⟩] := by
    simp [bars, hp, Bar.part, Bar.rotate, rotPt_zero]
  have hany : ([concrete].map ConcretePart.solid).any Solid.concrete = true := rfl
  change balancedFailure (([concrete].map ConcretePart.solid).map (Solid.part 0) ++ (bars.map (Bar.rotate 0)).map Bar.part)
    (([concrete].map ConcretePart.solid).any Solid.concrete) false = _
  rw [hpar, hany]
  unfold balancedFailure
  norm_num [balStep, Part.posLimit, Part.negLimit, limits_concrete, limits_steel, limits_low]

theorem balanced_turned : (sectionEngine split (([concrete].map (ConcretePart.moved upsideDown)).map ConcretePart.solid)
      (bars.map (Bar.moved upsideDown)) 0.01).balanced 0 false = .ok (250, -200, ![0.0215, -1e-4, 0]) := by
  have hp : ((concrete.moved upsideDown).solid).part 0 = ⟨true, true, -250, 250, concrete.law.ult⟩ := by
    have : (concrete.moved upsideDown).law = concrete.law := rfl
    simp only [Solid.part, ConcretePart.solid, ConcretePart.surf, Surf.ofMarin, polygon_rotate_zero, Polygon.bounds, this]
    simp only [ConcretePart.moved, concrete, rectRing, closeRing, List.take_succ_cons, List.take_zero, List.cons_append, List.nil_append,
      List.map_cons, List.map_nil, point]
    norm_num [listMin, listMax]
  have hpar : (([concrete].map (ConcretePart.moved upsideDown)).map ConcretePart.solid).map (Solid.part 0) ++
      ((bars.map (Bar.moved upsideDown)).map (Bar.rotate 0)).map Bar.part =
      [⟨true, true, -250, 250, concrete.law.ult⟩, ⟨false, false, 200, 200, lowSteel.law.ult⟩,
       ⟨false, false, -200, -200, steel.law.ult⟩] := by
    simp [bars, hp, Bar.part, Bar.rotate, rotPt_zero, Bar.moved, point]
  have hany : (([concrete].map (ConcretePart.moved upsideDown)).map ConcretePart.solid).any Solid.concrete = true := rfl
  change balancedFailure ((([concrete].map (ConcretePart.moved upsideDown)).map ConcretePart.solid).map (Solid.part 0) ++
      ((bars.map (Bar.moved upsideDown)).map (Bar.rotate 0)).map Bar.part)
    ((([concrete].map (ConcretePart.moved upsideDown)).map ConcretePart.solid).any Solid.concrete) false = _
  rw [hpar, hany]
  unfold balancedFailure
  norm_num [balStep, Part.posLimit, Part.negLimit, limits_concrete, limits_steel, limits_low]

theorem sizes : EqualSizes (groupBars bars) := by
  intro a ha b hb
  simp [groupBars, bars, insertBar] at ha hb
  rcases ha with rfl | rfl <;> rcases hb with rfl | rfl <;> rfl

theorem ids : SameIds (bars.map Bar.law) := by
  intro a ha b hb h
  simp [bars] at ha hb
  rcases ha with rfl | rfl <;> rcases hb with rfl | rfl <;> simp_all

theorem eps_sy_low : lowSteel.eps_sy = 0.0025 := by norm_num [lowSteel, ElasticPlastic.eps_sy]

theorem stress_low : lowSteel.law.stress 0.0225 = 500 ∧ lowSteel.law.stress 0.0415 = 0 := by
  constructor
  · change lowSteel.stress 0.0225 = 500
    rw [ep_stress_clamp lowSteel (u := 0.0225) (by norm_num [lowSteel]) (by norm_num [lowSteel]) rfl rfl
      (by rw [eps_sy_low]; norm_num) (by norm_num) (by norm_num), eps_sy_low]
    norm_num [lowSteel]
  · change lowSteel.stress 0.0415 = 0
    have hu : lowSteel.ult false = (-0.0225, 0.0225) := limits_low
    have h1 : ¬ isclose 0.0415 0.0225 := by norm_num [isclose, abs_of_pos, abs_of_neg]
    have h2 : ¬ isclose 0.0415 (-0.0225) := by norm_num [isclose, abs_of_pos, abs_of_neg]
    have hs : snap (-0.0225, 0.0225) 0.0415 = 0.0415 := by simp [snap, h1, h2]
    rw [ElasticPlastic.stress, hu, hs]
    norm_num [ElasticPlastic.core, ElasticPlastic.beyond, lowSteel]

theorem stress_high : steel.law.stress 0.0225 = 500 ∧ steel.law.stress 0.0415 = 500 := by
  constructor <;> rw [steel_stress (by norm_num) (by norm_num)] <;> norm_num

theorem tension {e : ℝ} (h : 0 < e) :
    (concreteSection [concrete] bars).forces ![e, 0, 0] 0 = 500 * lowSteel.law.stress e + 500 * steel.law.stress e := by
  have hp : ∀ a x y : ℝ, planeStrain ![a, 0, 0] x y = a := by
    intro a x y; simp [planeStrain]
  simp only [CrossSection.forces, concreteSection, bars, Bar.fibre, resultants, regionResultants, lever, List.map_cons,
    List.map_nil, List.sum_cons, List.sum_nil, Pi.add_apply, Matrix.cons_val, mul_one, add_zero, hp, (concrete_law e).2 h]
  simp

theorem compression : (concreteSection [concrete] bars).forces ![-0.0035, 0, 0] 0 ≤ 0 := by
  have hp : ∀ a x y : ℝ, planeStrain ![a, 0, 0] x y = a := by
    intro a x y; simp [planeStrain]
  have h1 : lowSteel.law.stress (-0.0035) = -500 := by
    change lowSteel.stress (-0.0035) = -500
    rw [ep_stress_clamp lowSteel (u := 0.0225) (by norm_num [lowSteel]) (by norm_num [lowSteel]) rfl rfl
      (by rw [eps_sy_low]; norm_num) (by norm_num) (by norm_num), eps_sy_low]
    norm_num [lowSteel]
  have h2 : steel.law.stress (-0.0035) = -500 := by
    rw [steel_stress (by norm_num) (by norm_num)]; norm_num
  have h3 : (∫ _ in concrete.region, concrete.law.stress (-0.0035)) ≤ 0 := integral_nonpos fun x => (concrete_law _).1
  simp only [CrossSection.forces, concreteSection, bars, Bar.fibre, resultants, regionResultants, lever, List.map_cons,
    List.map_nil, List.sum_cons, List.sum_nil, Pi.add_apply, Matrix.cons_val, mul_one, add_zero, hp, h1, h2]
  linarith

/-- Turning the section upside down halves the largest axial force it accepts. -/
theorem upside_down : ∃ a b, a ≤ 0 ∧ (limits (sectionEngine split ([concrete].map ConcretePart.solid) bars 0.01) .fresh).2 = .ok (a, 500000) ∧
    (limits (sectionEngine split (([concrete].map (ConcretePart.moved upsideDown)).map ConcretePart.solid)
      (bars.map (Bar.moved upsideDown)) 0.01) .fresh).2 = .ok (b, 250000) := by
  have henc : ∀ p ∈ [concrete], Encloses p.polygon.ext p.polygon.ints p.region ∧ 0 < |p.eps_0| ∧ |p.eps_0| ≤ |p.eps_u| := by
    intro p hp
    rw [List.mem_singleton.1 hp]
    exact ⟨ok.encloses, ok.peak, by norm_num [concrete, abs_of_pos]⟩
  have s1 : snap (concrete.law.ult false) 0.0225 = 0.0225 := by
    rw [limits_concrete]
    have h1 : ¬ isclose 0.0225 100 := by norm_num [isclose, abs_of_pos, abs_of_neg]
    have h2 : ¬ isclose 0.0225 (-0.0035) := by norm_num [isclose, abs_of_pos, abs_of_neg]
    simp [snap, h1, h2]
  have a1 : (![0.0225 - 0.026 / 450 * 200, -0.026 / 450, 0] : Fin 3 → ℝ) 0 +
    (![0.0225 - 0.026 / 450 * 200, -0.026 / 450, 0] : Fin 3 → ℝ) 1 * 250 = -0.0035 := by norm_num
  have a2 : (![0.0225 - 0.026 / 450 * 200, -0.026 / 450, 0] : Fin 3 → ℝ) 0 +
    (![0.0225 - 0.026 / 450 * 200, -0.026 / 450, 0] : Fin 3 → ℝ) 1 * (-200) = 0.0225 := by norm_num
  have b1 : (![0.0215, -1e-4, 0] : Fin 3 → ℝ) 0 + (![0.0215, -1e-4, 0] : Fin 3 → ℝ) 1 * 250 = -0.0035 := by norm_num
  have b2 : (![0.0215, -1e-4, 0] : Fin 3 → ℝ) 0 + (![0.0215, -1e-4, 0] : Fin 3 → ℝ) 1 * (-200) = 0.0415 := by norm_num
  have h1 := C66_limits_partial split [concrete] bars 0.01 henc ids sizes balanced (by
      intro p hp
      rw [List.mem_singleton.1 hp, a1, a2]
      exact ⟨snaps.1, s1⟩)
  rw [a1, a2, tension (e := 0.0225) (by norm_num), stress_low.1, stress_high.1] at h1
  have hid' : SameIds ((bars.map (Bar.moved upsideDown)).map Bar.law) := by
    rw [List.map_map]; exact ids
  have h2 := C66_limits_partial split ([concrete].map (ConcretePart.moved upsideDown)) (bars.map (Bar.moved upsideDown)) 0.01 (by
      intro p hp
      obtain ⟨q, hq, rfl⟩ := List.mem_map.1 hp
      exact ⟨encloses_moved _ (henc q hq).1, (henc q hq).2⟩) hid' (equalSizes_moved _ sizes) balanced_turned (by
      intro p hp
      obtain ⟨q, hq, rfl⟩ := List.mem_map.1 hp
      rw [List.mem_singleton.1 hq, b1, b2]
      exact snaps)
  rw [b1, b2, concreteSection_moved, uniform_moved _ fun p hp => (henc p hp).1, uniform_moved _ fun p hp => (henc p hp).1,
    tension (e := 0.0415) (by norm_num), stress_low.2, stress_high.2] at h2
  rw [show (500 * 500 + 500 * 500 : ℝ) = 500000 by norm_num] at h1
  rw [show (500 * 0 + 500 * 500 : ℝ) = 250000 by norm_num] at h2
  exact ⟨_, _, compression, h1, h2⟩

end TwoSteels

/-- **C72** fails for the limits of the axial force: they depend on how the section is turned.  `calculate_limit_axial_load` takes the
strains of the balanced failure about the horizontal axis (_generic.py:597-626, called with angle 0).  Here a tension of 300 kN is accepted
by the section and rejected by the same section upside down. -/
theorem C72_limits_violated : ¬ ∀ (split : Polygon → ℝ → ℝ → ShapelyResult) (parts : List ConcretePart) (bars : List Bar) (ms n : ℝ)
    (m : Motion),
    (checkAxialLoad (sectionEngine split (parts.map ConcretePart.solid) bars ms) n .fresh).2 = .ok () →
    (checkAxialLoad (sectionEngine split ((parts.map (ConcretePart.moved m)).map ConcretePart.solid) (bars.map (Bar.moved m)) ms)
        n .fresh).2 = .ok () := by
  intro h
  obtain ⟨a, b, ha, h1, h2⟩ := TwoSteels.upside_down
  have := h RCBeam.split [RCBeam.concrete] TwoSteels.bars 0.01 300000 TwoSteels.upsideDown (by
    simp only [checkAxialLoad, CalcM.bind_def]
    rcases hl : limits (sectionEngine RCBeam.split ([RCBeam.concrete].map ConcretePart.solid) TwoSteels.bars 0.01) .fresh with ⟨s, r⟩
    rw [hl] at h1
    simp only at h1
    subst h1
    simp only
    rw [if_neg (by push Not; constructor <;> linarith)]
    rfl)
  simp only [checkAxialLoad, CalcM.bind_def] at this
  rcases hl : limits (sectionEngine RCBeam.split (([RCBeam.concrete].map (ConcretePart.moved TwoSteels.upsideDown)).map ConcretePart.solid)
      (TwoSteels.bars.map (Bar.moved TwoSteels.upsideDown)) 0.01) .fresh with ⟨s, r⟩
  rw [hl] at h2 this
  simp only at h2
  subst h2
  simp only at this
  rw [if_pos (by right; norm_num)] at this
  simp [liftE] at this

/-! ### Symmetric sections -/

theorem symmetric_forces {m : Motion} {S : CrossSection} (h : S.SymmetricUnder m) (e : Fin 3 → ℝ) :
    (S.moved m).forces e = S.forces e := by
  simp only [CrossSection.forces]
  rw [resultants_perm h.2]
  congr 1
  have := (h.1.map fun q => regionResultants q.1 q.2 e).sum_eq
  simpa only [List.map_map, Function.comp_def] using this

/-- **C72**: the strength of a symmetric section is symmetric: if the section is mapped onto itself by a motion that keeps the axis of
bending, the returned moments are unchanged by the motion. -/
theorem C72_symmetric (split : Polygon → ℝ → ℝ → ShapelyResult) (solids : List Solid) (bars : List Bar) (ms th n : ℝ) (m : Motion)
    (lu : Matrix (Fin 3) (Fin 3) ℝ → (Fin 3 → ℝ) → (Fin 3 → ℝ)) (ops : List Op)
    (hsym : (crossSection solids bars).SymmetricUnder m)
    (hth : m.plane ![0, Real.cos th, Real.sin th] = ![0, Real.cos th, Real.sin th])
    (hid : SameIds (bars.map Bar.law)) (hd : EqualSizes (groupBars bars))
    (hg : ∀ s ∈ solids, MeasurableSet s.spec.region ∧ ∀ e chi, chi < 0 → (s.spec.turn (-th)).Good split .stress ![e, chi, 0])
    (hlim : ∀ c ∈ (crossSection solids bars).corners, c.2.1 ≤ 0 ∧ 0 ≤ c.2.2)
    (hflat : ∀ c ∈ (crossSection solids bars).corners, ∀ d ∈ (crossSection solids bars).corners,
      1e-13 * (height th d.1 - height th c.1) ≤ c.2.2 - d.2.1)
    (hops : Undisturbed (sectionEngine split solids bars ms) lu ops .fresh) {b : BendingResult}
    (hb : (bendingStrength (sectionEngine split solids bars ms) th n
        (history (sectionEngine split solids bars ms) lu ops .fresh)).2 = .ok b) :
    m.forces ![b.n, b.m.1, b.m.2] = ![b.n, b.m.1, b.m.2] := by
  obtain ⟨yn, yp, st, hbal⟩ := bending_balanced hb
  obtain ⟨C, -, hC⟩ := C66_strength_partial split solids bars ms th lu hid hd hg hlim hflat hbal
  obtain ⟨⟨c, hc, hchi⟩, hF, -⟩ := hC n ops b hops hb
  have hpl : m.plane ![b.eps_a, b.chi.1, b.chi.2] = ![b.eps_a, b.chi.1, b.chi.2] := by
    have h0 := congrFun hth 0
    have h1 := congrFun hth 1
    have h2 := congrFun hth 2
    simp only [Motion.plane, Motion.turn, Matrix.cons_val] at h0 h1 h2
    rw [hchi]
    funext i
    fin_cases i
    · simp only [Motion.plane, Motion.turn, Matrix.cons_val, Fin.zero_eta]
      linear_combination c * h0
    · simp only [Motion.plane, Motion.turn, Matrix.cons_val, Fin.mk_one]
      linear_combination c * h1
    · simp only [Motion.plane, Motion.turn, Matrix.cons_val, Fin.reduceFinMk]
      linear_combination c * h2
  have hmv := moved_forces m (crossSection solids bars) ![b.eps_a, b.chi.1, b.chi.2] (by
      intro p hp
      obtain ⟨q, hq, rfl⟩ := List.mem_map.1 hp
      exact (hg q hq).1) (by
      intro p hp i
      obtain ⟨q, hq, rfl⟩ := List.mem_map.1 hp
      have := turn_integrable (hg q hq).1 ((hg q hq).2 b.eps_a c hc) i
      rw [hchi]
      simpa [rotPt, mul_comm] using this)
  rw [hpl, symmetric_forces hsym, hF] at hmv
  exact hmv.symm

/-- **C72**: a section symmetric about the vertical line through `(a, 0)` and bent about the horizontal axis has its moment in the plane
of symmetry: `Mz = -N a`; with `a = 0` there is no moment about the other axis. -/
theorem C72_symmetric_vertical (split : Polygon → ℝ → ℝ → ShapelyResult) (parts : List ConcretePart) (bars : List Bar) (ms n a : ℝ)
    (lu : Matrix (Fin 3) (Fin 3) ℝ → (Fin 3 → ℝ) → (Fin 3 → ℝ)) (ops : List Op)
    (hparts : ∀ p ∈ parts, (Motion.mirrorAt a).point '' p.region = p.region)
    (hbars : (bars.map (Bar.moved (Motion.mirrorAt a))).Perm bars)
    (hok : ∀ p ∈ parts, p.Ok split 0)
    (hid : SameIds (bars.map Bar.law)) (hd : EqualSizes (groupBars bars))
    (hlim : ∀ c ∈ (concreteSection parts bars).corners, c.2.1 ≤ 0 ∧ 0 ≤ c.2.2)
    (hflat : ∀ c ∈ (concreteSection parts bars).corners, ∀ d ∈ (concreteSection parts bars).corners,
      1e-13 * (height 0 d.1 - height 0 c.1) ≤ c.2.2 - d.2.1)
    (hops : Undisturbed (sectionEngine split (parts.map ConcretePart.solid) bars ms) lu ops .fresh) {b : BendingResult}
    (hb : (bendingStrength (sectionEngine split (parts.map ConcretePart.solid) bars ms) 0 n
        (history (sectionEngine split (parts.map ConcretePart.solid) bars ms) lu ops .fresh)).2 = .ok b) :
    b.m.2 = -b.n * a := by
  rw [← concrete_corners] at hlim hflat
  have h := C72_symmetric split (parts.map ConcretePart.solid) bars ms 0 n (Motion.mirrorAt a) lu ops ⟨?_, ?_⟩ ?_ hid hd ?_ hlim hflat
    hops hb
  · have := congrFun h 2
    simp [Motion.forces, Motion.turn, Motion.mirrorAt, Motion.sign] at this
    linarith
  · simp only [CrossSection.moved, crossSection, List.map_map, Function.comp_def]
    refine List.Perm.of_eq (List.map_congr_left fun p hp => ?_)
    rw [Prod.mk.injEq]
    exact ⟨hparts p hp, rfl⟩
  · have := hbars.map fun b => b.fibre Law.stress
    simp only [CrossSection.moved, crossSection, List.map_map, Function.comp_def] at this ⊢
    exact this
  · simp [Motion.plane, Motion.turn, Motion.mirrorAt]
  · intro s hs
    obtain ⟨p, hp, rfl⟩ := List.mem_map.1 hs
    exact ⟨(hok p hp).encloses.measurable, fun e chi h => concrete_good (hok p hp) e chi h⟩

end SC
