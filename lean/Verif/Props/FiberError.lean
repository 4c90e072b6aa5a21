import Verif.Props.FiberMesh
import Verif.Props.DiscretizeSection
import Verif.Lemmas.Profile
import Verif.Spec.Mesh

/-! # C57: the fibre integrator converges to the exact resultants -/

set_option autoImplicit false

namespace SC

open Spec MeasureTheory

/-- A weighted mean of three numbers differs from their plain mean by at most two thirds of the largest difference. -/
theorem mean_three {A B C D p q r : ℝ} (hp : 0 ≤ p) (hq : 0 ≤ q) (hr : 0 ≤ r) (hs : p + q + r = 1)
    (h1 : |A - B| ≤ D) (h2 : |B - C| ≤ D) (h3 : |C - A| ≤ D) :
    |(A + B + C) / 3 - (p * A + q * B + r * C)| ≤ 2 / 3 * D := by
  rw [abs_le] at *
  obtain ⟨a1, a2⟩ := h1
  obtain ⟨b1, b2⟩ := h2
  obtain ⟨c1, c2⟩ := h3
  have up : ∀ M, A ≤ M → B ≤ M → C ≤ M → p * A + q * B + r * C ≤ M := by
    intro M hA hB hC
    have := mul_le_mul_of_nonneg_left hA hp
    have := mul_le_mul_of_nonneg_left hB hq
    have := mul_le_mul_of_nonneg_left hC hr
    have : p * M + q * M + r * M = M := by rw [← add_mul, ← add_mul, hs, one_mul]
    linarith
  have lo : ∀ M, M ≤ A → M ≤ B → M ≤ C → M ≤ p * A + q * B + r * C := by
    intro M hA hB hC
    have := mul_le_mul_of_nonneg_left hA hp
    have := mul_le_mul_of_nonneg_left hB hq
    have := mul_le_mul_of_nonneg_left hC hr
    have : p * M + q * M + r * M = M := by rw [← add_mul, ← add_mul, hs, one_mul]
    linarith
  constructor
  · have := up ((A + B + C) / 3 + 2 / 3 * D) (by linarith) (by linarith) (by linarith)
    linarith
  · have := lo ((A + B + C) / 3 - 2 / 3 * D) (by linarith) (by linarith) (by linarith)
    linarith

/-- Length of the curvature vector. -/
noncomputable def curvature (e : Fin 3 → ℝ) : ℝ := √(e 1 ^ 2 + e 2 ^ 2)

theorem side_strain (e : Fin 3 → ℝ) {h : ℝ} (hh : 0 ≤ h) {a b : ℝ × ℝ} (hd : distSq a b ≤ h ^ 2) :
    |planeStrain e a.1 a.2 - planeStrain e b.1 b.2| ≤ curvature e * h := by
  have hk : 0 ≤ e 1 ^ 2 + e 2 ^ 2 := by positivity
  have hx : planeStrain e a.1 a.2 - planeStrain e b.1 b.2 = e 1 * (a.2 - b.2) - e 2 * (a.1 - b.1) := by
    unfold planeStrain; ring
  rw [hx]
  refine abs_le_of_sq_le_sq ?_ (by unfold curvature; positivity)
  rw [mul_pow, curvature, Real.sq_sqrt hk]
  have : (e 1 * (a.2 - b.2) - e 2 * (a.1 - b.1)) ^ 2 ≤ (e 1 ^ 2 + e 2 ^ 2) * distSq a b := by
    unfold distSq
    nlinarith [sq_nonneg (e 1 * (a.1 - b.1) + e 2 * (a.2 - b.2))]
  exact this.trans (mul_le_mul_of_nonneg_left hd hk)

/-- Strain at a point of a triangle and at its centroid. -/
theorem centroid_strain (e : Fin 3 → ℝ) {h : ℝ} (hh : 0 ≤ h) {a b c x : ℝ × ℝ} (h1 : distSq a b ≤ h ^ 2)
    (h2 : distSq b c ≤ h ^ 2) (h3 : distSq c a ≤ h ^ 2) (hx : x ∈ triangle a b c) :
    |planeStrain e ((a.1 + b.1 + c.1) / 3) ((a.2 + b.2 + c.2) / 3) - planeStrain e x.1 x.2| ≤
      2 / 3 * (curvature e * h) := by
  rw [triangle_eq_image] at hx
  obtain ⟨⟨s, t⟩, ⟨hs, ht, hst⟩, rfl⟩ := hx
  simp only at hs ht hst
  have := mean_three (p := 1 - s - t) (q := s) (r := t) (by linarith) hs ht (by ring)
    (side_strain e hh h1) (side_strain e hh h2) (side_strain e hh h3)
  refine le_trans (le_of_eq ?_) this
  congr 1
  unfold planeStrain triMap
  ring

theorem centroid_mem (a b c : ℝ × ℝ) : ((a.1 + b.1 + c.1) / 3, (a.2 + b.2 + c.2) / 3) ∈ triangle a b c := by
  rw [triangle_eq_image]
  refine ⟨(1 / 3, 1 / 3), ?_, ?_⟩
  · unfold simplex; constructor <;> norm_num
  · ext <;> simp [triMap] <;> ring

theorem lever_continuous (i : Fin 3) : Continuous fun x : ℝ × ℝ => lever x.1 x.2 i := by
  fin_cases i <;> simp only [lever] <;> simp <;> fun_prop

/-- Stress times lever arm is integrable where the stress follows the strain with bounded slope. -/
theorem integrable_lip {f : ℝ → ℝ} (hm : Measurable f) {S : Set ℝ} {L : ℝ} (hL : 0 ≤ L)
    (hlip : ∀ a ∈ S, ∀ b ∈ S, |f a - f b| ≤ L * |a - b|) (e : Fin 3 → ℝ) {R : Set (ℝ × ℝ)} (mR : MeasurableSet R)
    (bR : Bornology.IsBounded R) (hS : ∀ x ∈ R, planeStrain e x.1 x.2 ∈ S) {w : ℝ × ℝ → ℝ} (hw : Continuous w) :
    IntegrableOn (fun x => f (planeStrain e x.1 x.2) * w x) R := by
  rcases R.eq_empty_or_nonempty with rfl | ⟨x0, hx0⟩
  · exact integrableOn_empty
  have hc : Continuous fun x : ℝ × ℝ => planeStrain e x.1 x.2 := by unfold planeStrain; fun_prop
  obtain ⟨M, hM⟩ := (bR.isCompact_closure.image hc).isBounded.subset_closedBall 0
  have hb : ∀ x ∈ R, |planeStrain e x.1 x.2| ≤ M := by
    intro x hx
    have := hM ⟨x, subset_closure hx, rfl⟩
    simpa using this
  have hwi := continuous_integrableOn hw bR
  refine Integrable.bdd_mul (c := |f (planeStrain e x0.1 x0.2)| + L * (M + M)) hwi
    ((hm.comp (measurable_planeStrain e)).aestronglyMeasurable) ?_
  refine (ae_restrict_iff' mR).2 (Filter.Eventually.of_forall fun x hx => ?_)
  rw [Real.norm_eq_abs]
  have h1 := hlip _ (hS x hx) _ (hS x0 hx0)
  have h2 : |planeStrain e x.1 x.2 - planeStrain e x0.1 x0.2| ≤ M + M :=
    (abs_sub _ _).trans (add_le_add (hb x hx) (hb x0 hx0))
  have h3 := mul_le_mul_of_nonneg_left h2 hL
  have h4 : |f (planeStrain e x.1 x.2)| ≤
      |f (planeStrain e x.1 x.2) - f (planeStrain e x0.1 x0.2)| + |f (planeStrain e x0.1 x0.2)| := by
    have := abs_add_le (f (planeStrain e x.1 x.2) - f (planeStrain e x0.1 x0.2)) (f (planeStrain e x0.1 x0.2))
    rwa [sub_add_cancel] at this
  linarith

/-- The fibre of a triangle carries the stress at the centroid over the whole triangle. -/
theorem fibre_constant (t : (ℝ × ℝ) × (ℝ × ℝ) × (ℝ × ℝ)) (hc : cross t.1 t.2.1 t.2.2 ≠ 0) (s : ℝ) (i : Fin 3) :
    (triFibre t).2.2 * s * lever (triFibre t).1 (triFibre t).2.1 i =
      ∫ x in triangle t.1 t.2.1 t.2.2, s * lever x.1 x.2 i := by
  obtain ⟨-, h00, h10, h01, -⟩ := C49_triangle t.1 t.2.1 t.2.2 hc (triFibre t).1 (triFibre t).2.1 (triFibre t).2.2 rfl
  rw [integral_const_mul]
  have hi : ∫ x in triangle t.1 t.2.1 t.2.2, lever x.1 x.2 i =
      (triFibre t).2.2 * lever (triFibre t).1 (triFibre t).2.1 i := by
    simp only [areaMoment] at h00 h10 h01
    fin_cases i
    · simpa [lever] using h00
    · simpa [lever] using h01
    · have := h10
      simp only [pow_one, pow_zero, mul_one] at this
      simp only [lever]
      simp [integral_neg, this]
  rw [hi]; ring

/-- One triangle: fibre against exact resultants. -/
theorem triangle_error {f : ℝ → ℝ} (hm : Measurable f) {S : Set ℝ} {L h : ℝ} (hL : 0 ≤ L) (hh : 0 ≤ h)
    (hlip : ∀ a ∈ S, ∀ b ∈ S, |f a - f b| ≤ L * |a - b|) (e : Fin 3 → ℝ) (t : (ℝ × ℝ) × (ℝ × ℝ) × (ℝ × ℝ))
    (hc : cross t.1 t.2.1 t.2.2 ≠ 0) (h1 : distSq t.1 t.2.1 ≤ h ^ 2) (h2 : distSq t.2.1 t.2.2 ≤ h ^ 2)
    (h3 : distSq t.2.2 t.1 ≤ h ^ 2) (hS : ∀ x ∈ triangle t.1 t.2.1 t.2.2, planeStrain e x.1 x.2 ∈ S) (i : Fin 3) :
    |(triFibre t).2.2 * f (planeStrain e (triFibre t).1 (triFibre t).2.1) * lever (triFibre t).1 (triFibre t).2.1 i -
      ∫ x in triangle t.1 t.2.1 t.2.2, f (planeStrain e x.1 x.2) * lever x.1 x.2 i| ≤
      L * (2 / 3 * (curvature e * h)) * ∫ x in triangle t.1 t.2.1 t.2.2, |lever x.1 x.2 i| := by
  have bT := triangle_bounded t.1 t.2.1 t.2.2
  have mT := triangle_measurable t.1 t.2.1 t.2.2
  have hi1 : IntegrableOn (fun x : ℝ × ℝ => f (planeStrain e (triFibre t).1 (triFibre t).2.1) * lever x.1 x.2 i)
      (triangle t.1 t.2.1 t.2.2) := continuous_integrableOn (continuous_const.mul (lever_continuous i)) bT
  have hi2 : IntegrableOn (fun x : ℝ × ℝ => f (planeStrain e x.1 x.2) * lever x.1 x.2 i) (triangle t.1 t.2.1 t.2.2) :=
    integrable_lip hm hL hlip e mT bT hS (lever_continuous i)
  rw [fibre_constant t hc, ← integral_sub hi1 hi2, ← integral_const_mul, ← Real.norm_eq_abs]
  refine norm_integral_le_of_norm_le
    (continuous_integrableOn (continuous_const.mul (lever_continuous i).abs) bT) ?_
  refine (ae_restrict_iff' mT).2 (Filter.Eventually.of_forall fun x hx => ?_)
  rw [Real.norm_eq_abs, ← sub_mul, abs_mul]
  refine mul_le_mul_of_nonneg_right ?_ (abs_nonneg _)
  refine (hlip _ (hS _ (centroid_mem _ _ _)) _ (hS x hx)).trans (mul_le_mul_of_nonneg_left ?_ hL)
  exact centroid_strain e hh h1 h2 h3 hx

theorem sum_error {α : Type} (l : List α) (a b c : α → ℝ) (h : ∀ t ∈ l, |a t - b t| ≤ c t) :
    |(l.map a).sum - (l.map b).sum| ≤ (l.map c).sum := by
  induction l with
  | nil => simp
  | cons t l ih =>
    simp only [List.map_cons, List.sum_cons]
    have h1 := h t (by simp)
    have h2 := ih fun t ht => h t (by simp [ht])
    rw [abs_le] at *
    constructor <;> linarith [h1.1, h1.2, h2.1, h2.2]

/-- **C57**, one surface.  Replace a region by the fibres of a triangular mesh (area and centroid of each triangle).  If the stress
follows the strain with a slope of at most `L` for the strains that occur, each of `N`, `My`, `Mz` is off by at most
`2/3 L κ h` times the integral of the absolute lever arm, `κ` being the length of the curvature vector and `h` the longest side. -/
theorem C57_surface {f : ℝ → ℝ} (hm : Measurable f) {S : Set ℝ} {L h : ℝ} (hL : 0 ≤ L) (hh : 0 ≤ h)
    (hlip : ∀ a ∈ S, ∀ b ∈ S, |f a - f b| ≤ L * |a - b|) (e : Fin 3 → ℝ)
    (mesh : List ((ℝ × ℝ) × (ℝ × ℝ) × (ℝ × ℝ))) (R : Set (ℝ × ℝ)) (mR : MeasurableSet R)
    (ht : Triangulates mesh R) (hs : SidesAtMost h mesh) (hS : ∀ x ∈ R, planeStrain e x.1 x.2 ∈ S) (i : Fin 3) :
    |resultants (mesh.map fun t => ⟨(triFibre t).1, (triFibre t).2.1, (triFibre t).2.2, f⟩) e i - regionResultants R f e i| ≤
      2 / 3 * L * √(e 1 ^ 2 + e 2 ^ 2) * h * ∫ x in R, |lever x.1 x.2 i| := by
  have hmT : ∀ T ∈ mesh.map fun t => triangle t.1 t.2.1 t.2.2, MeasurableSet T := by
    intro T hT
    obtain ⟨t, -, rfl⟩ := List.mem_map.1 hT
    exact triangle_measurable _ _ _
  have c1 := covers_integral ht.covers mR hmT (fun x => f (planeStrain e x.1 x.2) * lever x.1 x.2 i) (by
    intro T hT
    obtain ⟨t, htm, rfl⟩ := List.mem_map.1 hT
    exact integrable_lip hm hL hlip e (triangle_measurable _ _ _) (triangle_bounded _ _ _)
      (fun x hx => hS x (ht.inside t htm hx)) (lever_continuous i))
  have c2 := covers_integral ht.covers mR hmT (fun x => |lever x.1 x.2 i|) (by
    intro T hT
    obtain ⟨t, htm, rfl⟩ := List.mem_map.1 hT
    exact continuous_integrableOn (lever_continuous i).abs (triangle_bounded _ _ _))
  rw [List.map_map] at c1 c2
  rw [show regionResultants R f e i = _ from c1.symm, ← c2]
  simp only [resultants, List.map_map, Function.comp_def]
  have := sum_error mesh _ _ (fun t => L * (2 / 3 * (curvature e * h)) *
    ∫ x in triangle t.1 t.2.1 t.2.2, |lever x.1 x.2 i|) (fun t htm =>
      triangle_error hm hL hh hlip e t (ht.proper t htm) (hs t htm).1 (hs t htm).2.1 (hs t htm).2.2
        (fun x hx => hS x (ht.inside t htm hx)) i)
  refine this.trans (le_of_eq ?_)
  rw [List.sum_map_mul_left]
  unfold curvature; ring

/-- In a triangle with no angle below 30 degrees the square of a side is at most eight times the area. -/
theorem side_quality {a b c : ℝ × ℝ} (h1 : SineHalf a b c) (h2 : SineHalf b c a) : distSq a b ≤ 8 * (|cross a b c| / 2) := by
  have hcr : cross b c a = cross a b c := by unfold cross; ring
  have hsym : ∀ p q : ℝ × ℝ, distSq p q = distSq q p := by intro p q; unfold distSq; ring
  unfold SineHalf at h1 h2
  rw [hcr, hsym b a] at h2
  have d0 : ∀ p q : ℝ × ℝ, 0 ≤ distSq p q := fun p q => by unfold distSq; positivity
  have tri : √(distSq a b) ≤ √(distSq a c) + √(distSq b c) := by
    rw [← Real.sqrt_sq (add_nonneg (Real.sqrt_nonneg (distSq a c)) (Real.sqrt_nonneg (distSq b c)))]
    refine Real.sqrt_le_sqrt ?_
    rw [add_sq, Real.sq_sqrt (d0 _ _), Real.sq_sqrt (d0 _ _), mul_assoc, ← Real.sqrt_mul (d0 _ _)]
    have cs : (a.1 - c.1) * (c.1 - b.1) + (a.2 - c.2) * (c.2 - b.2) ≤ √(distSq a c * distSq b c) := by
      refine Real.le_sqrt_of_sq_le ?_
      unfold distSq
      nlinarith [sq_nonneg ((a.1 - c.1) * (c.2 - b.2) - (a.2 - c.2) * (c.1 - b.1))]
    have : distSq a b = distSq a c + distSq b c + 2 * ((a.1 - c.1) * (c.1 - b.1) + (a.2 - c.2) * (c.2 - b.2)) := by
      unfold distSq; ring
    linarith
  have sq := Real.mul_self_sqrt (d0 a b)
  have n0 := Real.sqrt_nonneg (distSq a b)
  nlinarith [mul_le_mul_of_nonneg_left tri n0]

theorem quality_sides {amax : ℝ} (ha : 0 ≤ amax) {mesh : List ((ℝ × ℝ) × (ℝ × ℝ) × (ℝ × ℝ))} (h : Quality amax mesh) :
    SidesAtMost √(8 * amax) mesh := by
  intro t ht
  obtain ⟨q1, q2, q3, qa⟩ := h t ht
  have hcr : cross t.2.1 t.2.2 t.1 = cross t.1 t.2.1 t.2.2 := by unfold cross; ring
  have hcr' : cross t.2.2 t.1 t.2.1 = cross t.1 t.2.1 t.2.2 := by unfold cross; ring
  rw [Real.sq_sqrt (by linarith)]
  refine ⟨?_, ?_, ?_⟩
  · linarith [side_quality q1 q2]
  · have := side_quality q2 q3; rw [hcr] at this; linarith
  · have := side_quality q3 q1; rw [hcr'] at this; linarith

/-- A surface with what is known about it: the region it occupies and the largest slope of its stress-strain curve for the
strains that occur. -/
structure MeshPart where
  surf : MeshSurf
  region : Set (ℝ × ℝ)
  slope : ℝ

/-- The mesher does what it is asked for (`pq30.0a<max area>`), and the stress follows the strain with a bounded slope over the
strains of the region. -/
structure MeshPart.Good (p : MeshPart) (e : Fin 3 → ℝ) (ms : ℝ) : Prop where
  measurable : MeasurableSet p.region
  area : p.surf.area = areaMoment 0 0 p.region
  mesh : Triangulates (p.surf.mesh (p.surf.area * ms)) p.region
  quality : Quality (p.surf.area * ms) (p.surf.mesh (p.surf.area * ms))
  law : Measurable p.surf.law.law.stress
  slope_nonneg : 0 ≤ p.slope
  lip : ∀ x ∈ p.region, ∀ y ∈ p.region,
    |p.surf.law.law.stress (planeStrain e x.1 x.2) - p.surf.law.law.stress (planeStrain e y.1 y.2)| ≤
      p.slope * |planeStrain e x.1 x.2 - planeStrain e y.1 y.2|

/-- Exact resultants of the section: integrals over the regions plus the bars. -/
noncomputable def exactForces (parts : List MeshPart) (bars : List Bar) (e : Fin 3 → ℝ) (i : Fin 3) : ℝ :=
  (parts.map fun p => regionResultants p.region p.surf.law.law.stress e i).sum +
    resultants (bars.map (Bar.fibre Law.stress)) e i

theorem part_error (p : MeshPart) (e : Fin 3 → ℝ) (ms : ℝ) (h : p.Good e ms) (hms : 0 < ms) (i : Fin 3) :
    |resultants (fibres Law.stress [⟨(p.surf.mesh (p.surf.area * ms)).map triFibre, p.surf.law⟩]) e i -
      regionResultants p.region p.surf.law.law.stress e i| ≤
      2 / 3 * √(e 1 ^ 2 + e 2 ^ 2) * (p.slope * √(8 * p.surf.area * ms) * ∫ x in p.region, |lever x.1 x.2 i|) := by
  have hA : 0 ≤ p.surf.area := by
    rw [h.area, areaMoment]
    exact setIntegral_nonneg h.measurable fun x _ => by simp
  have key := C57_surface h.law h.slope_nonneg (Real.sqrt_nonneg (8 * (p.surf.area * ms)))
    (S := {s | ∃ x ∈ p.region, planeStrain e x.1 x.2 = s}) (L := p.slope)
    (by
      rintro _ ⟨x, hx, rfl⟩ _ ⟨y, hy, rfl⟩
      exact h.lip x hx y hy) e _ p.region h.measurable h.mesh (quality_sides (by positivity) h.quality)
    (fun x hx => ⟨x, hx, rfl⟩) i
  simp only [fibres, List.flatMap_cons, List.flatMap_nil, List.append_nil, List.map_map, Function.comp_def]
  refine key.trans (le_of_eq ?_)
  rw [← mul_assoc 8]; ring

/-- **C57.** The fibre integrator on a section of surfaces and bars, meshed on the fly with a valid `mesh_size`, returns forces that
differ from the exact resultants by at most `2/3 κ` times the sum over the surfaces of slope `L`, side bound `sqrt(8 A mesh_size)`
and integral of the absolute lever arm (the area for `N`, the absolute first moments for `My`, `Mz`).  Bars are exact. -/
theorem C57_forces (parts : List MeshPart) (bars : List Bar) (hid : SameIds (bars.map Bar.law)) (e : Fin 3 → ℝ) (ms : ℝ)
    (hms : 0 < ms) (hms1 : ms ≤ 1) (hne : parts ≠ [] ∨ bars ≠ []) (h : ∀ p ∈ parts, p.Good e ms) :
    ∃ F d, fiberIntegrate (parts.map MeshPart.surf) bars e .stress none ms = .ok (.forces F, d) ∧
      ∀ i, |F i - exactForces parts bars e i| ≤ 2 / 3 * √(e 1 ^ 2 + e 2 ^ 2) *
        (parts.map fun p => p.slope * √(8 * p.surf.area * ms) * ∫ x in p.region, |lever x.1 x.2 i|).sum := by
  have ht : triangulate (parts.map MeshPart.surf) bars ms = .ok ((parts.map MeshPart.surf).map (fun g =>
      (⟨(g.mesh (g.area * ms)).map triFibre, g.law⟩ : Group)) ++ groupBars bars) := by
    unfold triangulate
    rw [if_neg (by push Not; exact ⟨hms, hms1⟩)]
  have hgb : bars ≠ [] → groupBars bars ≠ [] := by
    intro hb hg
    have := (C18_grouping Law.stress bars hid).length_eq
    rw [hg] at this
    simp [fibres] at this
    exact hb (List.length_eq_zero_iff.1 this.symm)
  set d := (parts.map MeshPart.surf).map (fun g => (⟨(g.mesh (g.area * ms)).map triFibre, g.law⟩ : Group)) ++ groupBars bars with hd
  have hdne : d ≠ [] := by
    rw [hd]
    rcases hne with h | h
    · simp [h]
    · simp [hgb h]
  refine ⟨resultants (fibres Law.stress d) e, d, ?_, ?_⟩
  · have := C18_forces (parts.map MeshPart.surf) bars d hdne e ms
    simp only [fiberIntegrate, ht] at this ⊢
    exact this
  · intro i
    have hb : resultants (fibres Law.stress (groupBars bars)) e i = resultants (bars.map (Bar.fibre Law.stress)) e i := by
      unfold resultants
      exact ((C18_grouping Law.stress bars hid).map _).sum_eq
    have hs : resultants (fibres Law.stress ((parts.map MeshPart.surf).map (fun g =>
        (⟨(g.mesh (g.area * ms)).map triFibre, g.law⟩ : Group)))) e i = (parts.map fun p => resultants (fibres Law.stress
          [⟨(p.surf.mesh (p.surf.area * ms)).map triFibre, p.surf.law⟩]) e i).sum := by
      clear h hne hdne hd ht
      induction parts with
      | nil => simp [fibres, resultants]
      | cons p ps ih =>
        simp only [List.map_cons, List.sum_cons]
        rw [← ih]
        simp [fibres, resultants]
    rw [hd, (C18_additive _ _ e).1, Pi.add_apply, hs, hb, exactForces, add_sub_add_right_eq_sub, ← List.sum_map_mul_left]
    exact sum_error parts _ _ _ fun p hp => part_error p e ms (h p hp) hms i

/-- **C57**, convergence.  With meshers that deliver for every mesh size, the forces of the fibre integrator come as close to the
exact resultants as desired by choosing `mesh_size` small. -/
theorem C57_converges (parts : List MeshPart) (bars : List Bar) (hid : SameIds (bars.map Bar.law)) (e : Fin 3 → ℝ)
    (hne : parts ≠ [] ∨ bars ≠ []) (h : ∀ p ∈ parts, ∀ ms, 0 < ms → ms ≤ 1 → p.Good e ms) (δ : ℝ) (hδ : 0 < δ) :
    ∃ m0 > 0, ∀ ms, 0 < ms → ms ≤ m0 →
      ∃ F d, fiberIntegrate (parts.map MeshPart.surf) bars e .stress none ms = .ok (.forces F, d) ∧
        ∀ i, |F i - exactForces parts bars e i| ≤ δ := by
  set B : Fin 3 → ℝ := fun i => 2 / 3 * √(e 1 ^ 2 + e 2 ^ 2) *
    (parts.map fun p => p.slope * √(8 * p.surf.area) * ∫ x in p.region, |lever x.1 x.2 i|).sum with hB
  have hsl : ∀ i, 0 ≤ B i := by
    intro i
    rw [hB]
    refine mul_nonneg (by positivity) (List.sum_nonneg ?_)
    intro v hv
    obtain ⟨p, hp, rfl⟩ := List.mem_map.1 hv
    have hg := h p hp 1 one_pos le_rfl
    exact mul_nonneg (mul_nonneg hg.slope_nonneg (Real.sqrt_nonneg _))
      (setIntegral_nonneg hg.measurable fun x _ => abs_nonneg _)
  set M := 1 + B 0 + B 1 + B 2 with hM
  have hMpos : 0 < M := by have := hsl 0; have := hsl 1; have := hsl 2; linarith
  have hle : ∀ i, B i ≤ M := by
    intro i
    have := hsl 0; have := hsl 1; have := hsl 2
    fin_cases i <;> simp only [hM] <;> simp <;> linarith
  refine ⟨min 1 ((δ / M) ^ 2), by positivity, fun ms h0 h1 => ?_⟩
  have hms1 : ms ≤ 1 := h1.trans (min_le_left _ _)
  obtain ⟨F, d, hF, hb⟩ := C57_forces parts bars hid e ms h0 hms1 hne fun p hp => h p hp ms h0 hms1
  refine ⟨F, d, hF, fun i => (hb i).trans ?_⟩
  have hsq : √ms ≤ δ / M := Real.sqrt_le_iff.2 ⟨by positivity, h1.trans (min_le_right _ _)⟩
  have he : 2 / 3 * √(e 1 ^ 2 + e 2 ^ 2) *
      (parts.map fun p => p.slope * √(8 * p.surf.area * ms) * ∫ x in p.region, |lever x.1 x.2 i|).sum = B i * √ms := by
    rw [hB]
    simp only
    rw [mul_assoc _ (List.sum _) √ms, ← List.sum_map_mul_right]
    congr 3
    funext p
    rw [Real.sqrt_mul' _ h0.le]; ring
  rw [he]
  calc B i * √ms ≤ M * (δ / M) := mul_le_mul (hle i) hsq (Real.sqrt_nonneg _) hMpos.le
    _ = δ := by field_simp

end SC
