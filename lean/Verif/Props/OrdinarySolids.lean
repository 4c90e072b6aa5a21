import Verif.Props.FiberOrdinary

/-! # C84: ordinary reinforced concrete sections with any law of the concrete

C73 and C74 for the Marin integrator, with what is needed of the response of the concrete to be integrated exactly, to be Lipschitz
and not to fall. -/

set_option autoImplicit false

namespace SC

open Spec MeasureTheory

/-! ### Limits -/

/-- What the balanced failure with ultimate strains reads from a geometry. -/
def Part.plain (g : Part) : Part := ⟨true, true, g.yLow, g.yHigh, fun _ => g.ult false⟩

theorem balanced_plain (parts : List Part) (rc rc' : Bool) :
    balancedFailure (parts.map Part.plain) rc false = balancedFailure parts rc' false := by
  have h : (parts.map Part.plain).flatMap (fun g => (parts.map Part.plain).map fun o => (g, o)) =
      (parts.flatMap fun g => parts.map fun o => (g, o)).map fun q => (q.1.plain, q.2.plain) := by
    simp only [List.flatMap_map, List.map_flatMap, List.map_map, Function.comp_def]
  have hs : ∀ (s : BalState) (q : Part × Part), balStep false rc s (q.1.plain, q.2.plain) = balStep false rc' s q := by
    intro s q
    simp only [balStep, Part.posLimit, Part.negLimit, Part.plain, ite_self]
    congr
  simp only [balancedFailure, h, List.foldl_map, hs]

/-- The limit axial loads with the Marin integrator. -/
theorem limits_solids (split : Polygon → ℝ → ℝ → ShapelyResult) (solids : List Solid) (bars : List Bar) (ms : ℝ)
    (hid : SameIds (bars.map Bar.law)) (hd : EqualSizes (groupBars bars)) {yn yp : ℝ} {st : Fin 3 → ℝ}
    (hbal : (sectionEngine split solids bars ms).balanced 0 false = .ok (yn, yp, st))
    (hgood : ∀ s ∈ solids, SurfSpec.Good split .stress ![st 0 + st 1 * yn, 0, 0] s.spec ∧
      SurfSpec.Good split .stress ![st 0 + st 1 * yp, 0, 0] s.spec) :
    (limits (sectionEngine split solids bars ms) .fresh).2 =
      .ok ((crossSection solids bars).forces ![st 0 + st 1 * yn, 0, 0] 0,
        (crossSection solids bars).forces ![st 0 + st 1 * yp, 0, 0] 0) := by
  have hint : ∀ e m, (∀ s ∈ solids, SurfSpec.Good split .stress ![e, 0, 0] s.spec) →
      (sectionEngine split solids bars ms).integ 0 ![e, 0, 0] .stress (some (groupBars bars)) m =
        .ok (.forces ((crossSection solids bars).forces ![e, 0, 0]), groupBars bars) := by
    intro e m he
    have h := C50_forces_partial split (solids.map Solid.spec) (bars.map (Bar.rotate 0))
      (groupBars bars) hd ![e, 0, 0] (by
        intro s hs
        obtain ⟨p, hp, rfl⟩ := List.mem_map.1 hs
        exact he p hp)
    have hsurf : (solids.map fun s => s.spec.surf).map (fun g => ({ g with polygon := g.polygon.rotate 0 } : Surf)) =
        (solids.map Solid.spec).map SurfSpec.surf := by
      simp only [List.map_map, Function.comp_def, polygon_rotate_zero]
    have hbars : resultants ((crossSection solids bars).rods.map Rod.fibre) ![e, 0, 0] =
        resultants (fibres Law.stress (groupBars bars)) ![e, 0, 0] := by
      rw [resultants_perm (C18_grouping Law.stress bars hid)]
      simp only [crossSection, List.map_map, Function.comp_def]
    simp only [sectionEngine, marinEngine, hsurf]
    rw [h]
    simp only [CrossSection.forces, hbars]
    simp only [crossSection, List.map_map, Function.comp_def]
  have hE : (sectionEngine split solids bars ms).Lawful fun _ => .ok (groupBars bars) := marinEngine_lawful _ _ _ _ _ _
  have hlim : limitAxialLoad (sectionEngine split solids bars ms) .fresh =
      (⟨some (groupBars bars), none⟩, .ok ((crossSection solids bars).forces ![st 0 + st 1 * yn, 0, 0] 0,
        (crossSection solids bars).forces ![st 0 + st 1 * yp, 0, 0] 0)) := by
    simp only [limitAxialLoad, hbal, CalcState.fresh]
    rw [hE.first]
    simp only
    rw [hint _ _ fun p hp => (hgood p hp).1]
    simp only
    rw [hint _ _ fun p hp => (hgood p hp).2]
    rfl
  have h2 : (CalcState.fresh).lim = none := rfl
  simp only [limits, h2, hlim]

/-! ### The concrete -/

/-- A part with the outline, the region and the crushing strain of the surface, of no strength: what the geometry of a section
depends on. -/
noncomputable def Solid.shadow (s : Solid) : ConcretePart :=
  ⟨s.spec.surf.polygon, s.spec.region, 0, (s.ult false).1 / 2, (s.ult false).1⟩

/-- What is assumed of a surface: the Marin integrator integrates the response exactly; the response is bounded, has slope at most `L`
and vanishes in tension; the concrete fails at the strain `-ecu` in compression only. -/
structure Solid.Fits (split : Polygon → ℝ → ℝ → ShapelyResult) (th ecu eu L : ℝ) (s : Solid) : Prop where
  encloses : Encloses s.spec.surf.polygon.ext s.spec.surf.polygon.ints s.spec.region
  inHull : s.spec.region ⊆ convexHull ℝ {v | v ∈ s.spec.surf.polygon.ext}
  good : ∀ e chi, chi < 0 → (s.spec.turn (-th)).Good split .stress ![e, chi, 0]
  uniform : SurfSpec.Good split .stress ![-ecu, 0, 0] s.spec ∧ SurfSpec.Good split .stress ![eu, 0, 0] s.spec
  limits : s.ult false = (-ecu, 100)
  measurable : Measurable s.spec.response
  bounded : ∃ fc, ∀ e, -fc ≤ s.spec.response e ∧ s.spec.response e ≤ 0
  tension : ∀ e, 0 ≤ e → s.spec.response e = 0
  slope : ∀ x y, -ecu ≤ x → -ecu ≤ y → |s.spec.response x - s.spec.response y| ≤ L * |x - y|

/-- The stress does not decrease with the strain. -/
def Solid.Grows (ecu : ℝ) (s : Solid) : Prop := ∀ x y, -ecu ≤ x → x ≤ y → s.spec.response x ≤ s.spec.response y

namespace Solid

variable {split : Polygon → ℝ → ℝ → ShapelyResult} {th ecu eu L H ms : ℝ} {solids : List Solid} {bars : List Bar}

theorem Fits.ext_ne {s : Solid} (h : s.Fits split th ecu eu L) : s.spec.surf.polygon.ext ≠ [] := by
  intro h'
  have := h.encloses.ext_proper.2
  rw [h'] at this
  apply this
  simp [signedMoment, Spec.edges]

theorem shadow_sound {s : Solid} (h : s.Fits split th ecu eu L) (he : 1e-3 ≤ ecu) : s.shadow.Sound := by
  have h1 : (s.ult false).1 = -ecu := by rw [h.limits]
  have hp : 0 < ecu := by linarith [show (0:ℝ) < 1e-3 by norm_num]
  have e1 : |-ecu / 2| = ecu / 2 := by rw [abs_div, abs_neg, abs_of_pos hp]; norm_num
  refine ⟨h.encloses, h.inHull, ?_, ?_⟩
  · simp only [shadow, h1, e1]; linarith
  · simp only [shadow, h1, e1, abs_neg, abs_of_pos hp]; norm_num at *; linarith

theorem shadow_corners (hf : ∀ s ∈ solids, s.Fits split th ecu eu L) (he : 0 ≤ ecu) :
    (crossSection solids bars).corners = (concreteSection (solids.map shadow) bars).corners := by
  simp only [CrossSection.corners, crossSection, concreteSection, List.map_map, List.flatMap_map, Function.comp_def]
  congr 1
  refine List.flatMap_congr fun s hs => ?_
  simp only [part_ult, shadow, (hf s hs).limits, abs_neg, abs_of_nonneg he]

theorem shadow_admissible (hf : ∀ s ∈ solids, s.Fits split th ecu eu L) (he : 0 ≤ ecu) (e : Fin 3 → ℝ) :
    (crossSection solids bars).Admissible e ↔ (concreteSection (solids.map shadow) bars).Admissible e := by
  simp only [CrossSection.Admissible, crossSection, concreteSection, List.map_map, List.forall_mem_map]
  refine and_congr_left fun _ => forall₂_congr fun s hs => ?_
  simp only [Function.comp_def, part_ult, shadow, (hf s hs).limits, abs_neg, abs_of_nonneg he]

theorem shadow_balanced (hf : ∀ s ∈ solids, s.Fits split th ecu eu L) (he : 0 ≤ ecu) (ms a : ℝ) :
    (sectionEngine split solids bars ms).balanced a false =
      (sectionEngine split ((solids.map shadow).map ConcretePart.solid) bars ms).balanced a false := by
  simp only [sectionEngine, marinEngine]
  rw [← balanced_plain _ true, ← balanced_plain (_ ++ _) true (((solids.map shadow).map ConcretePart.solid).any Solid.concrete)]
  congr 1
  simp only [List.map_append, List.map_map, Function.comp_def]
  congr 1
  refine List.map_congr_left fun s hs => ?_
  simp only [Solid.part, Part.plain, ConcretePart.solid, part_ult, shadow, (hf s hs).limits, abs_neg, abs_of_nonneg he]
  rfl

/-- The section with the forces of the surfaces. -/
theorem forces_zero (solids : List Solid) (bars : List Bar) (e : Fin 3 → ℝ) : (crossSection solids bars).forces e 0 =
    (solids.map fun s => ∫ x in s.spec.region, s.spec.response (planeStrain e x.1 x.2)).sum +
      (bars.map fun b => b.area * b.law.law.stress (planeStrain e b.x b.y)).sum := by
  simp only [CrossSection.forces, crossSection, List.map_map, Function.comp_def, Pi.add_apply, list_sum_apply, resultants,
    regionResultants, lever, Matrix.cons_val, mul_one, Bar.fibre]

/-- Largest modulus times area. -/
noncomputable def totalModulus (solids : List Solid) (bars : List Bar) (L : ℝ) : ℝ :=
  L * ((solids.map fun s => areaMoment 0 0 s.spec.region).sum + (bars.map fun b => |b.area|).sum)

theorem area_nonneg (R : Set (ℝ × ℝ)) : 0 ≤ areaMoment 0 0 R := by
  simp only [areaMoment, pow_zero, mul_one]
  exact integral_nonneg fun _ => by norm_num

theorem totalModulus_nonneg (solids : List Solid) (bars : List Bar) {L : ℝ} (hL : 0 ≤ L) : 0 ≤ totalModulus solids bars L := by
  refine mul_nonneg hL (add_nonneg (List.sum_nonneg fun x hx => ?_) (List.sum_nonneg fun x hx => ?_))
  · obtain ⟨p, -, rfl⟩ := List.mem_map.1 hx
    exact area_nonneg _
  · obtain ⟨b, -, rfl⟩ := List.mem_map.1 hx; exact abs_nonneg _

/-- The axial force in planes through one point. -/
theorem force_lipschitz (hf : ∀ s ∈ solids, s.Fits split th ecu eu L) (hL : 0 ≤ L) {th' y v c c' : ℝ}
    (hK : ∀ b ∈ bars, ∀ x ∈ Set.Icc (b.law.law.ult false).1 (b.law.law.ult false).2,
      ∀ y ∈ Set.Icc (b.law.law.ult false).1 (b.law.law.ult false).2, |b.law.law.stress x - b.law.law.stress y| ≤ L * |x - y|)
    (hH : (∀ s ∈ solids, ∀ x ∈ s.spec.region, |height th' x - y| ≤ H) ∧ ∀ b ∈ bars, |height th' (b.x, b.y) - y| ≤ H)
    (ha : (crossSection solids bars).Admissible (planeThrough th' y v c))
    (ha' : (crossSection solids bars).Admissible (planeThrough th' y v c')) :
    |(crossSection solids bars).forces (planeThrough th' y v c) 0 - (crossSection solids bars).forces (planeThrough th' y v c') 0| ≤
      totalModulus solids bars L * H * |c - c'| := by
  have h1 : |(solids.map fun s => ∫ x in s.spec.region, s.spec.response (planeStrain (planeThrough th' y v c) x.1 x.2)).sum -
      (solids.map fun s => ∫ x in s.spec.region, s.spec.response (planeStrain (planeThrough th' y v c') x.1 x.2)).sum| ≤
      (solids.map fun s => areaMoment 0 0 s.spec.region * (L * H * |c - c'|)).sum := by
    refine list_abs_sum_sub _ _ _ _ fun s hs => ?_
    obtain ⟨fc, hfc⟩ := (hf s hs).bounded
    have hR := (hf s hs).encloses
    have hint : ∀ e, IntegrableOn (fun x : ℝ × ℝ => s.spec.response (planeStrain e x.1 x.2)) s.spec.region := by
      intro e
      simpa using integrable_law (hf s hs).measurable hfc e hR.bounded (w := fun _ => 1) continuous_const
    rw [← integral_sub (hint _) (hint _), ← Real.norm_eq_abs (∫ x in s.spec.region, _)]
    have : areaMoment 0 0 s.spec.region * (L * H * |c - c'|) = ∫ _ in s.spec.region, L * H * |c - c'| := by
      simp only [areaMoment, pow_zero, mul_one]
      rw [← integral_mul_const]
      simp
    rw [this]
    refine norm_integral_le_of_norm_le (continuous_integrableOn continuous_const hR.bounded)
      ((ae_restrict_iff' hR.measurable).2 (Filter.Eventually.of_forall fun x hx => ?_))
    have q : (⟨s.spec.region, s.spec.surf.polygon.ext, s.spec.response, (s.ult false).1, (s.ult false).2⟩ : Plate) ∈
      (crossSection solids bars).plates := by simp only [crossSection, List.mem_map]; exact ⟨s, hs, rfl⟩
    have l1 := (ha.1 _ q x ((hf s hs).inHull hx)).1
    have l2 := (ha'.1 _ q x ((hf s hs).inHull hx)).1
    simp only [(hf s hs).limits] at l1 l2
    rw [Real.norm_eq_abs]
    refine ((hf s hs).slope _ _ l1 l2).trans ?_
    rw [planeThrough_height, planeThrough_height]
    have : v + c * (height th' x - y) - (v + c' * (height th' x - y)) = (c - c') * (height th' x - y) := by ring
    rw [this, abs_mul, mul_assoc, mul_comm H]
    exact mul_le_mul_of_nonneg_left (mul_le_mul_of_nonneg_left (hH.1 s hs x hx) (abs_nonneg _)) hL
  have h2 : |(bars.map fun b => b.area * b.law.law.stress (planeStrain (planeThrough th' y v c) b.x b.y)).sum -
      (bars.map fun b => b.area * b.law.law.stress (planeStrain (planeThrough th' y v c') b.x b.y)).sum| ≤
      (bars.map fun b => |b.area| * (L * H * |c - c'|)).sum := by
    refine list_abs_sum_sub _ _ _ _ fun b hb => ?_
    have q : (⟨b.fibre Law.stress, (b.law.law.ult false).1, (b.law.law.ult false).2⟩ : Rod) ∈
      (crossSection solids bars).rods := by simp only [crossSection, List.mem_map]; exact ⟨b, hb, rfl⟩
    have := hK b hb _ (ha.2 _ q) _ (ha'.2 _ q)
    simp only [Bar.fibre] at this
    rw [← mul_sub, abs_mul]
    refine mul_le_mul_of_nonneg_left (this.trans ?_) (abs_nonneg _)
    have e1 := planeThrough_height th' y v c (b.x, b.y)
    have e2 := planeThrough_height th' y v c' (b.x, b.y)
    simp only at e1 e2
    rw [e1, e2]
    have : v + c * (height th' (b.x, b.y) - y) - (v + c' * (height th' (b.x, b.y) - y)) = (c - c') * (height th' (b.x, b.y) - y) := by
      ring
    rw [this, abs_mul, mul_assoc, mul_comm H]
    exact mul_le_mul_of_nonneg_left (mul_le_mul_of_nonneg_left (hH.2 b hb) (abs_nonneg _)) hL
  rw [list_sum_mul_const] at h1 h2
  rw [forces_zero, forces_zero]
  have e : totalModulus solids bars L * H * |c - c'| = (solids.map fun s => areaMoment 0 0 s.spec.region).sum * (L * H * |c - c'|) +
      (bars.map fun b => |b.area|).sum * (L * H * |c - c'|) := by
    simp only [totalModulus]; ring
  rw [e]
  have : ∀ a b a' b' : ℝ, a + b - (a' + b') = (a - a') + (b - b') := by intros; ring
  rw [this]
  exact (abs_add_le _ _).trans (add_le_add h1 h2)

/-! ### The largest moment -/

theorem nonSoftening (hf : ∀ s ∈ solids, s.Fits split th ecu eu L) (hg : ∀ s ∈ solids, s.Grows ecu) (hA : ∀ b ∈ bars, 0 ≤ b.area)
    (hmono : ∀ b ∈ bars, MonotoneOn b.law.law.stress (Set.Icc (b.law.law.ult false).1 (b.law.law.ult false).2)) :
    (crossSection solids bars).NonSoftening := by
  refine ⟨?_, ?_, ?_, ?_, ?_⟩
  · intro p hp
    simp only [crossSection, List.mem_map] at hp
    obtain ⟨q, hq, rfl⟩ := hp
    exact ⟨(hf q hq).encloses.measurable, (hf q hq).inHull⟩
  · intro p hp e i
    simp only [crossSection, List.mem_map] at hp
    obtain ⟨q, hq, rfl⟩ := hp
    obtain ⟨fc, hfc⟩ := (hf q hq).bounded
    refine integrable_law (fc := fc) (hf q hq).measurable hfc e (hf q hq).encloses.bounded (w := fun x => lever x.1 x.2 i) ?_
    fin_cases i <;> simp only [lever] <;> fun_prop
  · intro r hr
    simp only [crossSection, List.mem_map] at hr
    obtain ⟨b, hb, rfl⟩ := hr
    exact hA b hb
  · intro p hp
    simp only [crossSection, List.mem_map] at hp
    obtain ⟨q, hq, rfl⟩ := hp
    intro x hx y hy hxy
    simp only [(hf q hq).limits] at hx
    exact hg q hq x y hx.1 hxy
  · intro r hr
    simp only [crossSection, List.mem_map] at hr
    obtain ⟨b, hb, rfl⟩ := hr
    exact hmono b hb

theorem within (hf : ∀ s ∈ solids, s.Fits split th ecu eu L) {th' R : ℝ} (h : OrdinaryRC th' (solids.map shadow) bars ecu eu H)
    (hR : ∀ s ∈ solids, ∀ v ∈ s.spec.surf.polygon.ext, |height th' v| ≤ R) :
    (crossSection solids bars).Within th' R ∧ 0 ≤ R := by
  obtain ⟨⟨w1, w2⟩, h0⟩ := h.sound_within (R := R) (by
    intro p hp
    obtain ⟨s, hs, rfl⟩ := List.mem_map.1 hp
    exact shadow_sound (hf s hs) h.ecu_range.1) (by
    intro p hp
    obtain ⟨s, hs, rfl⟩ := List.mem_map.1 hp
    exact hR s hs)
  refine ⟨⟨fun p hp => ?_, fun r hr => w2 r ?_⟩, h0⟩
  · simp only [crossSection, List.mem_map] at hp
    obtain ⟨s, hs, rfl⟩ := hp
    exact w1 ⟨s.shadow.region, s.shadow.polygon.ext, s.shadow.law.stress, (s.shadow.law.ult false).1, (s.shadow.law.ult false).2⟩
      (by simp only [concreteSection, List.mem_map]; exact ⟨s.shadow, ⟨s, hs, rfl⟩, rfl⟩)
  · exact hr

theorem ultimate (hf : ∀ s ∈ solids, s.Fits split th ecu eu L) (hg : ∀ s ∈ solids, s.Grows ecu) {th' : ℝ} (h : OrdinaryRC th' (solids.map shadow) bars ecu eu H)
    (hmono : ∀ b ∈ bars, MonotoneOn b.law.law.stress (Set.Icc (b.law.law.ult false).1 (b.law.law.ult false).2))
    {v c : ℝ} (hc : c ≤ 0) (ha : (crossSection solids bars).Admissible (planeThrough th' 0 v c))
    (hl : (crossSection solids bars).AtLimit (planeThrough th' 0 v c)) :
    (crossSection solids bars).Ultimate th' (planeThrough th' 0 v c) := by
  have he0 : 0 ≤ ecu := by linarith [h.ecu_range.1, show (0:ℝ) < 1e-3 by norm_num]
  have hcor := shadow_corners (bars := bars) hf he0
  have hplate : ∀ s ∈ solids, (⟨s.spec.region, s.spec.surf.polygon.ext, s.spec.response, (s.ult false).1, (s.ult false).2⟩ : Plate) ∈
      (crossSection solids bars).plates := by
    intro s hs; simp only [crossSection, List.mem_map]; exact ⟨s, hs, rfl⟩
  have hrod : ∀ b ∈ bars, (⟨b.fibre Law.stress, (b.law.law.ult false).1, (b.law.law.ult false).2⟩ : Rod) ∈
      (crossSection solids bars).rods := by
    intro b hb; simp only [crossSection, List.mem_map]; exact ⟨b, hb, rfl⟩
  have hin : ∀ e, (crossSection solids bars).Admissible e → ∀ s ∈ solids, ∀ x ∈ convexHull ℝ {v | v ∈ s.spec.surf.polygon.ext},
      -ecu ≤ planeStrain e x.1 x.2 := by
    intro e he s hs x hx
    have := (he.1 _ (hplate s hs) x hx).1
    simp only [(hf s hs).limits] at this
    exact this
  have hbar : ∀ e, (crossSection solids bars).Admissible e → ∀ b ∈ bars, -ecu ≤ planeStrain e b.x b.y ∧ planeStrain e b.x b.y ≤ eu := by
    intro e he b hb
    obtain ⟨p, hp, hx⟩ := h.inside b hb
    obtain ⟨s, hs, rfl⟩ := List.mem_map.1 hp
    have := (he.2 _ (hrod b hb)).2
    simp only [Bar.fibre, (h.rupture b hb).1] at this
    exact ⟨hin e he s hs _ hx, this⟩
  -- the limit in compression
  have hcomp : ∀ k ∈ (crossSection solids bars).corners, planeStrain (planeThrough th' 0 v c) k.1.1 k.1.2 = k.2.1 →
      planeStrain (planeThrough th' 0 v c) k.1.1 k.1.2 = -ecu →
      (crossSection solids bars).Ultimate th' (planeThrough th' 0 v c) := by
    intro k hk h1 h2
    refine Or.inl ⟨k, hk, h1, fun e' he' => ⟨fun p hp x hx hy => ?_, fun r hr hy => ?_⟩⟩
    · simp only [crossSection, List.mem_map] at hp
      obtain ⟨q, hq, rfl⟩ := hp
      have l1 := hin _ ha q hq x ((hf q hq).inHull hx)
      have l2 := hin _ he' q hq x ((hf q hq).inHull hx)
      refine hg q hq _ _ l1 ?_
      rw [planeThrough_at] at l1 h2 ⊢
      nlinarith
    · simp only [crossSection, List.mem_map] at hr
      obtain ⟨b, hb, rfl⟩ := hr
      have l1 := (hbar _ ha b hb).1
      have l2 := (hbar _ he' b hb).1
      refine hmono b hb (ha.2 _ (hrod b hb)) (he'.2 _ (hrod b hb)) ?_
      have p1 := planeThrough_at th' v c (b.x, b.y)
      simp only at p1
      simp only [Bar.fibre] at hy ⊢
      rw [planeThrough_at] at h2
      rw [p1]
      rw [p1] at l1
      nlinarith
  obtain ⟨k, hk, hkl⟩ := hl
  rcases h.corner_cases (hcor ▸ hk) with ⟨p, hp, hv, hk2⟩ | ⟨b, hb, hk1, hk2, hk3⟩
  · rcases hkl with hkl | hkl
    · exact hcomp k hk hkl (by rw [hkl, hk2])
    · exfalso
      rw [hk2, planeThrough_at] at hkl
      obtain ⟨b, hb, q, hq, w, hw, hd⟩ := h.depth
      obtain ⟨s, hs, rfl⟩ := List.mem_map.1 hq
      have l1 := (hbar _ ha b hb).2
      have l2 := hin _ ha s hs w (subset_convexHull ℝ _ hw)
      have p1 := planeThrough_at th' v c (b.x, b.y)
      simp only at p1
      rw [p1] at l1
      rw [planeThrough_at] at l2
      have s1 := h.span _ (OrdinaryRC.bar_corner hb) k (hcor ▸ hk)
      have h1 := h.ecu_range
      have h2 := h.eu_range
      have h3 := h.size.1
      simp only at hkl s1
      have e1 : (eu - v - c * height th' (b.x, b.y)) * 1 ≥ 0 := by linarith
      have e2 : -c * (height th' w - height th' (b.x, b.y)) ≤ ecu + eu := by nlinarith
      have e3 : -c * H ≤ 1000 * (ecu + eu) := by nlinarith
      have e4 : -c * (height th' (b.x, b.y) - height th' k.1) ≤ -c * H := mul_le_mul_of_nonneg_left s1 (by linarith)
      nlinarith
  · rcases hkl with hkl | hkl
    · refine hcomp k hk hkl ?_
      have l1 := (hbar _ ha b hb).1
      have l2 : -ecu ≤ planeStrain (planeThrough th' 0 v c) k.1.1 k.1.2 := by rw [hk1]; exact l1
      linarith
    · have heu : (0:ℝ) ≤ eu := by linarith [h.eu_range.1, show (0:ℝ) < 1e-4 by norm_num]
      rw [hk2, planeThrough_at] at hkl
      refine Or.inr ⟨k, hk, by rw [planeThrough_at, hk2]; exact hkl, fun e' he' => ⟨fun p hp x hx hy => ?_, fun r hr hy => ?_⟩⟩
      · simp only [crossSection, List.mem_map] at hp
        obtain ⟨q, hq, rfl⟩ := hp
        have hx0 : 0 ≤ planeStrain (planeThrough th' 0 v c) x.1 x.2 := by
          rw [planeThrough_at]; nlinarith
        have t0 := (hf q hq).tension _ hx0
        obtain ⟨fc, hfc⟩ := (hf q hq).bounded
        exact (hfc _).2.trans_eq t0.symm
      · simp only [crossSection, List.mem_map] at hr
        obtain ⟨b', hb', rfl⟩ := hr
        have l2 := (hbar _ he' b' hb').2
        refine hmono b' hb' (he'.2 _ (hrod b' hb')) (ha.2 _ (hrod b' hb')) ?_
        have p1 := planeThrough_at th' v c (b'.x, b'.y)
        simp only at p1
        simp only [Bar.fibre] at hy ⊢
        rw [p1]
        nlinarith

/-- The plane of a bending strength. -/
theorem strength_plane {lu : Matrix (Fin 3) (Fin 3) ℝ → (Fin 3 → ℝ) → (Fin 3 → ℝ)} (hf : ∀ s ∈ solids, s.Fits split th ecu eu L)
    (h : OrdinaryRC th (solids.map shadow) bars ecu eu H) (hid : SameIds (bars.map Bar.law)) (hd : EqualSizes (groupBars bars))
    (n : ℝ) (ops : List Op) (b : BendingResult) (hops : Undisturbed (sectionEngine split solids bars ms) lu ops .fresh)
    (hrun : (bendingStrength (sectionEngine split solids bars ms) th n
      (history (sectionEngine split solids bars ms) lu ops .fresh)).2 = .ok b) :
    ∃ c < 0, ![b.eps_a, b.chi.1, b.chi.2] = planeThrough th 0 b.eps_a c ∧
      (crossSection solids bars).Admissible (planeThrough th 0 b.eps_a c) ∧
      (crossSection solids bars).AtLimit (planeThrough th 0 b.eps_a c) ∧
      (crossSection solids bars).forces (planeThrough th 0 b.eps_a c) = ![b.n, b.m.1, b.m.2] := by
  have he0 : 0 ≤ ecu := by linarith [h.ecu_range.1, show (0:ℝ) < 1e-3 by norm_num]
  obtain ⟨yn, yp, st, hb, -, -, -, -, -, -, -, hgov⟩ := h.balanced (split := split) (ms := ms) (by
    intro p hp
    obtain ⟨s, hs, rfl⟩ := List.mem_map.1 hp
    exact (hf s hs).ext_ne)
  have hlim := h.lim
  have hflat := h.flat
  rw [← shadow_corners hf he0] at hlim hflat hgov
  rw [← shadow_balanced hf he0] at hb
  obtain ⟨C, -, hmain⟩ := C66_strength_partial split solids bars ms th lu hid hd
    (fun s hs => ⟨(hf s hs).encloses.measurable, (hf s hs).good⟩) hlim hflat hb
  obtain ⟨⟨cu, hcu, e⟩, hforce, hl, had, -⟩ := hmain n ops b hops hrun
  have had := had hgov
  have hpl : ![b.eps_a, b.chi.1, b.chi.2] = planeThrough th 0 b.eps_a cu := by rw [planeThrough_curvature, e]
  rw [hpl] at hforce hl had
  exact ⟨cu, hcu, hpl, had, hl, hforce⟩

/-- No admissible plane about an axis parallel to that of the calculation has a larger moment than the bending strength. -/
theorem largest {lu : Matrix (Fin 3) (Fin 3) ℝ → (Fin 3 → ℝ) → (Fin 3 → ℝ)} (hf : ∀ s ∈ solids, s.Fits split th ecu eu L)
    (hg : ∀ s ∈ solids, s.Grows ecu)
    (h : OrdinaryRC th (solids.map shadow) bars ecu eu H) (hid : SameIds (bars.map Bar.law)) (hd : EqualSizes (groupBars bars))
    (hA : ∀ b ∈ bars, 0 ≤ b.area)
    (hmono : ∀ b ∈ bars, MonotoneOn b.law.law.stress (Set.Icc (b.law.law.ult false).1 (b.law.law.ult false).2))
    {R : ℝ} (hR : ∀ s ∈ solids, ∀ v ∈ s.spec.surf.polygon.ext, |height th v| ≤ R)
    (n : ℝ) (ops : List Op) (b : BendingResult) (hops : Undisturbed (sectionEngine split solids bars ms) lu ops .fresh)
    (hrun : (bendingStrength (sectionEngine split solids bars ms) th n
      (history (sectionEngine split solids bars ms) lu ops .fresh)).2 = .ok b)
    (v c : ℝ) (ha : (crossSection solids bars).Admissible (planeThrough th 0 v c)) :
    bendingMoment th ((crossSection solids bars).forces (planeThrough th 0 v c)) ≤
      bendingMoment th ![b.n, b.m.1, b.m.2] + R * |(crossSection solids bars).forces (planeThrough th 0 v c) 0 - b.n| := by
  obtain ⟨cu, hcu, -, had, hl, hforce⟩ := strength_plane hf h hid hd n ops b hops hrun
  obtain ⟨hw, hR0⟩ := within hf h hR
  have := ultimate_maximal (nonSoftening hf hg hA hmono) hw hR0 had (ultimate hf hg h hmono hcu.le had hl) ha
  rw [hforce] at this
  exact this

set_option maxHeartbeats 1000000 in
/-- The limit axial loads are the forces under uniform crushing of the concrete and uniform limit strain of the steel, loads outside
are refused, and for loads inside a strength is returned. -/
theorem strength (split : Polygon → ℝ → ℝ → ShapelyResult) (solids : List Solid) (bars : List Bar) (ms : ℝ) {th ecu eu L H H0 : ℝ}
    (lu : Matrix (Fin 3) (Fin 3) ℝ → (Fin 3 → ℝ) → (Fin 3 → ℝ)) (hf : ∀ s ∈ solids, s.Fits split th ecu eu L)
    (h0 : OrdinaryRC 0 (solids.map shadow) bars ecu eu H0) (h : OrdinaryRC th (solids.map shadow) bars ecu eu H)
    (hid : SameIds (bars.map Bar.law)) (hd : EqualSizes (groupBars bars)) (hL0 : 0 ≤ L)
    (hK : ∀ b ∈ bars, ∀ x ∈ Set.Icc (b.law.law.ult false).1 (b.law.law.ult false).2,
      ∀ y ∈ Set.Icc (b.law.law.ult false).1 (b.law.law.ult false).2, |b.law.law.stress x - b.law.law.stress y| ≤ L * |x - y|)
    (hstiff : totalModulus solids bars L * H ≤ 1e22)
    {S : CrossSection} (hS : S = crossSection solids bars) {δ : ℝ} (hδ : δ = totalModulus solids bars L * H)
    {E : Engine} (hE : E = sectionEngine split solids bars ms) :
    (limits E .fresh).2 = .ok (S.forces ![-ecu, 0, 0] 0, S.forces ![eu, 0, 0] 0) ∧
    ∃ C : Set ℝ, C.Countable ∧ ∀ (n : ℝ) (ops : List Op), Undisturbed E lu ops .fresh →
      (n < S.forces ![-ecu, 0, 0] 0 ∨ S.forces ![eu, 0, 0] 0 < n →
        (bendingStrength E th n (history E lu ops .fresh)).2 = .error .valueError) ∧
      (S.forces ![-ecu, 0, 0] 0 + δ * 1e-13 < n → n < S.forces ![eu, 0, 0] 0 - δ * 1e-13 →
        ∃ b : BendingResult, (bendingStrength E th n (history E lu ops .fresh)).2 = .ok b ∧ (n ∉ C → |b.n - n| ≤ 1e-2)) := by
  subst hS hδ hE
  have he0 : 0 ≤ ecu := by linarith [h.ecu_range.1, show (0:ℝ) < 1e-3 by norm_num]
  have hext : ∀ p ∈ solids.map shadow, p.polygon.ext ≠ [] := by
    intro p hp
    obtain ⟨s, hs, rfl⟩ := List.mem_map.1 hp
    exact (hf s hs).ext_ne
  have hext' : ∀ s ∈ solids, s.spec.surf.polygon.ext ≠ [] := fun s hs => (hf s hs).ext_ne
  have hsound : ∀ p ∈ solids.map shadow, p.Sound := by
    intro p hp
    obtain ⟨s, hs, rfl⟩ := List.mem_map.1 hp
    exact shadow_sound (hf s hs) h.ecu_range.1
  set E := sectionEngine split solids bars ms with hEdef
  set S := crossSection solids bars with hSdef
  have hEl : E.Lawful fun _ => .ok (groupBars bars) := marinEngine_lawful _ _ _ _ _ _
  -- limits
  obtain ⟨yn0, yp0, st0, hb0, f1, f2, f3, -⟩ := h0.balanced (split := split) (ms := ms) hext
  rw [← shadow_balanced hf he0, neg_zero] at hb0
  have hlims : (limits E .fresh).2 = .ok (S.forces ![-ecu, 0, 0] 0, S.forces ![eu, 0, 0] 0) := by
    have hpl : ∀ x y, planeStrain st0 x y = st0 0 + st0 1 * y := by intro x y; simp [planeStrain, f3]
    rw [hpl] at f1 f2
    have := limits_solids split solids bars ms hid hd hb0 (by
      intro s hs
      rw [f1, f2]
      exact (hf s hs).uniform)
    rwa [f1, f2] at this
  refine ⟨hlims, ?_⟩
  obtain ⟨yn, yp, st, hb, e1, e2, hst2, hs1, hs1', ⟨bp, hbp, ey⟩, hyn, hgov⟩ := h.balanced (split := split) (ms := ms) hext
  have hyp : ∃ c ∈ (concreteSection (solids.map shadow) bars).corners, height th c.1 = yp := ⟨_, OrdinaryRC.bar_corner hbp, ey⟩
  rw [← shadow_balanced hf he0] at hb
  have hlim := h.lim
  have hflat := h.flat
  have hgov' := hgov
  rw [← shadow_corners hf he0] at hlim hflat hgov'
  have hsteep := steep_balanced hext' hlim hflat hb
  have hadm : ∀ y, y = yp ∨ y = yn → ∀ chi, chi = -1e-13 ∨ chi = 0 →
      S.Admissible (planeThrough th y (planeStrain st 0 y) chi) := by
    intro y hy chi hchi
    refine search_admissible hext' hlim hb hgov' hy ?_ ?_
    · rcases hchi with rfl | rfl
      · exact hsteep
      · exact hs1'
    · rcases hchi with rfl | rfl <;> norm_num
  have hspan : ∀ y, y = yp ∨ y = yn → (∀ s ∈ solids, ∀ x ∈ s.spec.region, |height th x - y| ≤ H) ∧
      ∀ b ∈ bars, |height th (b.x, b.y) - y| ≤ H := by
    intro y hy
    obtain ⟨a1, a2⟩ := h.span_region hsound (y := y) (by rcases hy with rfl | rfl <;> assumption)
    exact ⟨fun s hs => a1 s.shadow (List.mem_map_of_mem hs), a2⟩
  have hend : ∀ y, y = yp ∨ y = yn →
      |S.forces (planeThrough th y (planeStrain st 0 y) (-1e-13)) 0 - S.forces ![planeStrain st 0 y, 0, 0] 0| ≤
        totalModulus solids bars L * H * 1e-13 := by
    intro y hy
    have e : ![planeStrain st 0 y, 0, 0] = planeThrough th y (planeStrain st 0 y) 0 := by simp [planeThrough]
    have := force_lipschitz hf hL0 hK (hspan y hy) (hadm y hy _ (Or.inl rfl)) (hadm y hy _ (Or.inr rfl))
    rwa [← e, show |(-1e-13:ℝ) - 0| = 1e-13 by norm_num [abs_of_pos]] at this
  obtain ⟨C, hC, hmain⟩ := C66_strength_partial split solids bars ms th lu hid hd
    (fun s hs => ⟨(hf s hs).encloses.measurable, (hf s hs).good⟩) hlim hflat hb
  refine ⟨C, hC, fun n ops hops => ⟨fun hout => ?_, fun hlo hhi => ?_⟩⟩
  · have hcan := canonical_history lu hEl rfl ops _ .fresh hops
    have l1 := (limits_canonical hEl hcan).1
    have l2 := (limits_canonical hEl (.fresh : Canonical E _ .fresh)).1
    rw [← l2, hlims] at l1
    rcases hl : limits E (history E lu ops .fresh) with ⟨s', r⟩
    rw [hl] at l1
    simp only at l1
    subst l1
    exact congrArg Prod.snd (C28_gate_rejects _ _ _ hl n hout th 0 0 0 none).1
  · have hn := hend yn (Or.inr rfl)
    have hp := hend yp (Or.inl rfl)
    rw [e2] at hn
    rw [e1] at hp
    have hlow : S.forces (planeThrough th yn (planeStrain st 0 yn) (-1e-13)) 0 < n := by
      rw [e2]; linarith [(abs_le.1 hn).2]
    have hhigh : n < S.forces (planeThrough th yp (planeStrain st 0 yp) (-1e-13)) 0 := by
      rw [e1]; linarith [(abs_le.1 hp).1]
    have hδ0 : 0 ≤ totalModulus solids bars L * H * 1e-13 := (abs_nonneg _).trans hn
    have hcheck : (checkAxialLoad E n .fresh).2 = .ok () := by
      simp only [checkAxialLoad, CalcM.bind_def]
      rcases hl : limits E .fresh with ⟨s, r⟩
      rw [hl] at hlims
      simp only at hlims
      subst hlims
      simp only
      rw [if_neg (by push Not; constructor <;> linarith)]
      rfl
    have hcan := canonical_history lu hEl rfl ops _ .fresh hops
    obtain ⟨b, hb'⟩ := returns_generic hEl rfl (marin_answers split solids bars ms th hid hd
        (fun s hs => ⟨(hf s hs).encloses.measurable, (hf s hs).good⟩)) hcan (solids := solids) (bars := bars) rfl hext' hlim hflat hb hgov'
      (slope := fun _ => totalModulus solids bars L * H) (by
        intro y hy
        have ha : |-1e-13 - st 1| ≤ 1e5 := by
          rw [abs_le]
          constructor <;> norm_num at * <;> linarith
        calc totalModulus solids bars L * H * |-1e-13 - st 1| ≤ 1e22 * 1e5 :=
              mul_le_mul hstiff ha (abs_nonneg _) (by norm_num)
          _ ≤ _ := by norm_num)
      (fun y hy v c c' _ _ hc hc' => force_lipschitz hf hL0 hK (hspan y hy) hc hc') hcheck hlow hhigh
    exact ⟨b, hb', fun hnC => (hmain n ops b hops hb').2.2.2.2 hnC hlow hhigh⟩

end Solid

end SC
