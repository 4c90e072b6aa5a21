import Verif.Props.FiberStrength
import Verif.Props.RCExample
import Verif.Props.Maximum

/-! # C75: steel sections - the section, its forces and its governing strains -/

set_option autoImplicit false

namespace SC

open Spec MeasureTheory

/-- Elastic - perfectly plastic with limit strains `±u` beyond yielding (and clear of the snapping of strains to them). -/
structure PerfectlyPlastic (l : ElasticPlastic) (u : ℝ) : Prop where
  E : 0 < l.E
  fy : 0 ≤ l.fy
  Eh : l.Eh = 0
  limit : l.ult false = (-u, u)
  plateau : l.eps_sy + 1e-6 + 1e-5 * u ≤ u

/-- The stress between the limit strains. -/
noncomputable def ElasticPlastic.clamped (l : ElasticPlastic) (x : ℝ) : ℝ := l.E * max (-l.eps_sy) (min x l.eps_sy)

namespace PerfectlyPlastic

variable {l : ElasticPlastic} {u : ℝ}

theorem sy_nonneg (h : PerfectlyPlastic l u) : 0 ≤ l.eps_sy := div_nonneg h.fy h.E.le

theorem E_sy (h : PerfectlyPlastic l u) : l.E * l.eps_sy = l.fy := by
  have := h.E.ne'
  unfold ElasticPlastic.eps_sy; field_simp

theorem u_pos (h : PerfectlyPlastic l u) : 1e-6 < u ∧ l.eps_sy + 1e-6 ≤ u := by
  have h1 := h.sy_nonneg
  have h2 := h.plateau
  constructor <;> norm_num at * <;> linarith

theorem not_beyond (h : PerfectlyPlastic l u) {y : ℝ} (a : -u ≤ y) (b : y ≤ u) : ¬ l.beyond y := by
  have hl := h.limit
  cases hsu : l.eps_su with
  | none => simp [ElasticPlastic.beyond, hsu]
  | some u' =>
    simp only [ElasticPlastic.ult, hsu, Bool.false_eq_true, if_false, Prod.mk.injEq] at hl
    rw [ElasticPlastic.beyond, hsu]
    simp only [hl.2]
    push Not
    exact ⟨b, a⟩

theorem core_eq (h : PerfectlyPlastic l u) {y : ℝ} (a : -u ≤ y) (b : y ≤ u) : l.core y = l.clamped y := by
  rw [l.core_clamp h.E h.fy h.Eh.ge (h.not_beyond a b), h.Eh, ElasticPlastic.clamped]; ring

/-- Within the limit strains `get_stress` is the clamped linear law. -/
theorem stress_eq (h : PerfectlyPlastic l u) {x : ℝ} (h1 : -u ≤ x) (h2 : x ≤ u) : l.stress x = l.clamped x := by
  have hsy0 := h.sy_nonneg
  have hu := h.plateau
  have hu0 : 0 ≤ u := by linarith [h.u_pos.1, show (0:ℝ) < 1e-6 by norm_num]
  have hpos : (0:ℝ) < 1e-6 := by norm_num
  rw [ElasticPlastic.stress, h.limit]
  by_cases c1 : isclose x u
  · have : snap (-u, u) x = u := by simp [snap, c1]
    rw [this, h.core_eq (by linarith) le_rfl, ElasticPlastic.clamped, ElasticPlastic.clamped]
    simp only [isclose, abs_of_nonneg hu0] at c1
    have := (abs_le.1 c1).1
    rw [min_eq_right (by linarith), min_eq_right (by linarith)]
  · by_cases c2 : isclose x (-u)
    · have : snap (-u, u) x = -u := by simp [snap, c1, c2]
      rw [this, h.core_eq le_rfl (by linarith), ElasticPlastic.clamped, ElasticPlastic.clamped]
      simp only [isclose, abs_neg, abs_of_nonneg hu0] at c2
      have := (abs_le.1 c2).2
      rw [min_eq_left (by linarith), min_eq_left (by linarith), max_eq_left (by linarith), max_eq_left (by linarith)]
    · have : snap (-u, u) x = x := by simp [snap, c1, c2]
      rw [this, h.core_eq h1 h2]

theorem clamped_mono (h : PerfectlyPlastic l u) {x y : ℝ} (hxy : x ≤ y) : l.clamped x ≤ l.clamped y :=
  mul_le_mul_of_nonneg_left (max_le_max le_rfl (min_le_min hxy le_rfl)) h.E.le

theorem clamped_range (h : PerfectlyPlastic l u) (x : ℝ) : -l.fy ≤ l.clamped x ∧ l.clamped x ≤ l.fy := by
  have h0 := h.sy_nonneg
  have h1 : -l.eps_sy ≤ max (-l.eps_sy) (min x l.eps_sy) := le_max_left _ _
  have h2 : max (-l.eps_sy) (min x l.eps_sy) ≤ l.eps_sy := max_le (by linarith) (min_le_right _ _)
  have := h.E_sy
  have hE := h.E
  unfold ElasticPlastic.clamped
  constructor <;> nlinarith

theorem clamped_high (h : PerfectlyPlastic l u) {x : ℝ} (hx : l.eps_sy ≤ x) : l.clamped x = l.fy := by
  rw [ElasticPlastic.clamped, min_eq_right hx, max_eq_right (by linarith [h.sy_nonneg]), h.E_sy]

theorem clamped_low (h : PerfectlyPlastic l u) {x : ℝ} (hx : x ≤ -l.eps_sy) : l.clamped x = -l.fy := by
  rw [ElasticPlastic.clamped, min_eq_left (by linarith [h.sy_nonneg]), max_eq_left hx, mul_neg, h.E_sy]

theorem clamped_lipschitz (h : PerfectlyPlastic l u) (x y : ℝ) : |l.clamped x - l.clamped y| ≤ l.E * |x - y| := by
  unfold ElasticPlastic.clamped
  rw [← mul_sub, abs_mul, abs_of_pos h.E]
  refine mul_le_mul_of_nonneg_left ?_ h.E.le
  rw [max_comm, max_comm (-l.eps_sy)]
  refine (abs_max_sub_max_le_abs _ _ _).trans ?_
  rcases le_total x l.eps_sy with h1 | h1 <;> rcases le_total y l.eps_sy with h2 | h2 <;>
    simp only [min_eq_left, min_eq_right, h1, h2, le_refl]
  · rw [abs_of_nonpos (by linarith), abs_of_nonpos (by linarith)]; linarith
  · rw [abs_of_nonneg (by linarith), abs_of_nonneg (by linarith)]; linarith
  · simp

end PerfectlyPlastic

theorem ElasticPlastic.continuous_clamped (l : ElasticPlastic) : Continuous l.clamped := by
  unfold ElasticPlastic.clamped; fun_prop

/-- A steel part: polygon, the region it bounds, and its law (materials/reinforcement, materials/basic:
`constitutive_law='elasticperfectlyplastic'`). -/
structure SteelPart where
  polygon : Polygon
  region : Set (ℝ × ℝ)
  law : ElasticPlastic

/-- What the integrator reads of it. -/
noncomputable def SteelPart.surf (p : SteelPart) : Surf := Surf.ofMarin p.polygon p.law.marin p.law.marinT

open Classical in
/-- What the Marin integrator integrates: the clamped law between the limit strains, nothing beyond. -/
noncomputable def SteelPart.response (p : SteelPart) (x : ℝ) : ℝ :=
  if (p.law.ult false).1 ≤ x ∧ x ≤ (p.law.ult false).2 then p.law.clamped x else 0

/-- The surface; steel is not `concrete` (geometry/_geometry.py:447-450). -/
noncomputable def SteelPart.solid (p : SteelPart) : Solid := ⟨⟨p.surf, p.region, p.response⟩, false, p.law.ult⟩

/-- The cross-section: stresses by `get_stress`, limit strains by `get_ultimate_strain`. -/
noncomputable def steelSection (parts : List SteelPart) : CrossSection where
  plates := parts.map fun p => ⟨p.region, p.polygon.ext, p.law.stress, (p.law.ult false).1, (p.law.ult false).2⟩
  rods := []

theorem steel_corners (parts : List SteelPart) :
    (crossSection (parts.map SteelPart.solid) []).corners = (steelSection parts).corners := by
  simp only [CrossSection.corners, crossSection, steelSection, List.map_map, List.flatMap_map, Function.comp_def]
  rfl

theorem steel_admissible (parts : List SteelPart) (e : Fin 3 → ℝ) :
    (crossSection (parts.map SteelPart.solid) []).Admissible e ↔ (steelSection parts).Admissible e := by
  simp only [CrossSection.Admissible, crossSection, steelSection, List.map_map, List.forall_mem_map, List.map_nil, List.not_mem_nil,
    IsEmpty.forall_iff, implies_true, and_true]
  rfl

/-- What is assumed of a steel part. -/
structure SteelPart.Ok (split : Polygon → ℝ → ℝ → ShapelyResult) (th u : ℝ) (p : SteelPart) : Prop where
  encloses : Encloses p.polygon.ext p.polygon.ints p.region
  inHull : p.region ⊆ convexHull ℝ {v | v ∈ p.polygon.ext}
  splits : SplitsExactly split ((p.polygon.rotate (-th)).rotate (-Real.pi)) (rotPt (-Real.pi) '' (rotPt (-th) '' p.region))
  law : PerfectlyPlastic p.law u

/-- The Marin pieces are the law between the limit strains. -/
theorem steel_pieces {l : ElasticPlastic} {u : ℝ} (h : PerfectlyPlastic l u) (e0 e1 : ℝ) (he : e1 ≠ 0) (f : ℝ → ℝ)
    (hf : ∀ x, -u ≤ x → x ≤ u → f x = l.clamped x) (hf0 : ∀ x, x < -u ∨ u < x → f x = 0) :
    ∃ rs, (l.marin e0 e1).1.ranges = some rs ∧ PiecesMatch f e0 e1 (fun _ => True) rs (l.marin e0 e1).1.coeffs := by
  have hulty : l.ult true = (-l.eps_sy, l.eps_sy) := by simp [ElasticPlastic.ult]
  have hs0 := h.sy_nonneg
  have hu := h.u_pos
  have hpos : (0:ℝ) < 1e-6 := by norm_num
  simp only [ElasticPlastic.marin, if_neg he, h.limit, hulty, h.Eh]
  refine ⟨_, rfl, rfl, ⟨by simp; grind, by simp <;> grind⟩, ?_, ?_⟩
  · intro rc hrc y hok hlo hhi
    simp only [List.zip_cons_cons, List.zip_nil_right, List.mem_cons, List.not_mem_nil, or_false] at hrc
    rcases hrc with rfl | rfl | rfl <;> simp only [] at hlo hhi
    · rw [hf _ (by linarith) (by linarith), h.clamped_low hhi]
      simp [evalPoly]
    · rw [hf _ (by linarith) (by linarith), ElasticPlastic.clamped, min_eq_left hhi, max_eq_right hlo]
      simp only [evalPoly]; ring
    · rw [hf _ (by linarith) (by linarith), h.clamped_high hlo]
      simp [evalPoly]
  · intro y hok hout
    have a := hout (-u, -l.eps_sy) (by simp)
    have b := hout (-l.eps_sy, l.eps_sy) (by simp)
    have c := hout (l.eps_sy, u) (by simp)
    simp only at a b c
    apply hf0
    rcases a with a | a
    · exact .inl a
    · rcases c with c | c
      · rcases b with b | b <;> linarith
      · exact .inr c

theorem steel_response {p : SteelPart} {u : ℝ} (h : PerfectlyPlastic p.law u) :
    (∀ x, -u ≤ x → x ≤ u → p.response x = p.law.clamped x) ∧ ∀ x, x < -u ∨ u < x → p.response x = 0 := by
  constructor
  · intro x a b
    rw [SteelPart.response, h.limit, if_pos ⟨a, b⟩]
  · intro x hx
    rw [SteelPart.response, h.limit, if_neg (by rintro ⟨a, b⟩; simp only at a b; rcases hx with c | c <;> linarith)]

theorem steel_good {split : Polygon → ℝ → ℝ → ShapelyResult} {th u : ℝ} {p : SteelPart} (h : p.Ok split th u) (e chi : ℝ)
    (hchi : chi < 0) : (p.solid.spec.turn (-th)).Good split .stress ![e, chi, 0] := by
  have hg : (![e, chi, 0] : Fin 3 → ℝ) 1 ≠ 0 ∨ (![e, chi, 0] : Fin 3 → ℝ) 2 ≠ 0 := Or.inl hchi.ne
  have hp := gradient_pos hg
  obtain ⟨rs, hrs, hm⟩ := steel_pieces h.law ((![e, chi, 0] : Fin 3 → ℝ) 0) (gradient ![e, chi, 0]) hp.ne' p.response
    (steel_response h.law).1 (steel_response h.law).2
  have e2 : ∀ e0 e1, e1 ≠ 0 → (p.law.marin e0 e1).2 = e0 := by
    intro a b hb; simp [ElasticPlastic.marin, hb]
  have e2' : ∀ e0 e1, e1 ≠ 0 → (p.law.marinT e0 e1).2 = e0 := by
    intro a b hb; simp [ElasticPlastic.marinT, hb]
  exact (good_of_pieces split ![e, chi, 0] hg (p.polygon.rotate (-th)) (rotPt (-th) '' p.region)
    (encloses_rot (-th) h.encloses) (by rw [neutralAngle_neg hchi]; exact h.splits) p.law.marin p.law.marinT p.response _
    (fun _ _ => trivial) e2 e2').1 ⟨rs, hrs, piecesMatch_interior hm⟩

/-- Under a uniform limit strain the surface is integrated exactly. -/
theorem steel_good_uniform {split : Polygon → ℝ → ℝ → ShapelyResult} {p : SteelPart} {u : ℝ}
    (henc : Encloses p.polygon.ext p.polygon.ints p.region) (hl : PerfectlyPlastic p.law u) {e : ℝ} (he : e = u ∨ e = -u) :
    SurfSpec.Good split .stress ![e, 0, 0] ⟨p.surf, p.region, p.law.stress⟩ := by
  have hgrad : gradient ![e, 0, 0] = 0 := by simp [gradient]
  have hu := hl.u_pos
  have hs0 := hl.sy_nonneg
  have hpos : (0:ℝ) < 1e-6 := by norm_num
  have hulty : p.law.ult true = (-p.law.eps_sy, p.law.eps_sy) := by simp [ElasticPlastic.ult]
  have hsnap : snap (-u, u) e = e := by
    rcases he with rfl | rfl
    · have c : isclose e e := by
        unfold isclose
        rw [sub_self, abs_zero, abs_of_pos (by linarith)]
        norm_num at *
        linarith
      simp [snap, c]
    · by_cases c : isclose (-u) u
      · exfalso
        unfold isclose at c
        rw [abs_of_neg (by linarith), abs_of_pos (by linarith)] at c
        have := hl.plateau
        norm_num at *
        linarith
      · simp [snap, c]
  have hm : p.law.marin e 0 = (⟨none, [[p.law.stress e, 0]]⟩, e) := by
    simp only [ElasticPlastic.marin, if_true, hl.limit, hulty, hsnap, hl.Eh]
    rcases he with rfl | rfl
    · rw [if_pos ⟨by linarith, le_rfl⟩, hl.stress_eq (by linarith) le_rfl, hl.clamped_high (by linarith)]
      simp
    · rw [if_neg (by rintro ⟨a, -⟩; linarith), if_pos ⟨by linarith, le_rfl⟩, hl.stress_eq le_rfl (by linarith),
        hl.clamped_low (by linarith)]
      simp
  refine ⟨henc, ?_, ?_⟩
  · rintro ⟨m, rs, h1, hrs⟩
    exfalso
    rw [hgrad] at h1
    simp only [SteelPart.surf, Surf.ofMarin, Surf.coefficients, Matrix.cons_val, Except.ok.injEq, hm] at h1
    rw [← h1] at hrs
    cases hrs
  · rw [hgrad]
    refine ⟨?_, (p.law.marin e 0).1, rfl, Or.inl ⟨by rw [hm], ?_⟩⟩
    · change (p.law.marin e 0).2 = e
      rw [hm]
    · refine ⟨_, by rw [hm], fun y _ => ?_⟩
      simp [evalPoly]

/-- In an admissible state the integrated law and `get_stress` give the same forces. -/
theorem steel_forces {split : Polygon → ℝ → ℝ → ShapelyResult} {th u : ℝ} {parts : List SteelPart}
    (hok : ∀ p ∈ parts, p.Ok split th u) {e : Fin 3 → ℝ} (ha : (steelSection parts).Admissible e) :
    (crossSection (parts.map SteelPart.solid) []).forces e = (steelSection parts).forces e := by
  simp only [CrossSection.forces, crossSection, steelSection, List.map_map, Function.comp_def, List.map_nil]
  congr 2
  apply List.map_congr_left
  intro p hp
  funext i
  simp only [regionResultants]
  refine setIntegral_congr_fun (hok p hp).encloses.measurable fun x hx => ?_
  have := ha.1 ⟨p.region, p.polygon.ext, p.law.stress, (p.law.ult false).1, (p.law.ult false).2⟩
    (by simp only [steelSection, List.mem_map]; exact ⟨p, hp, rfl⟩) x ((hok p hp).inHull hx)
  simp only [(hok p hp).law.limit] at this
  change p.response _ * _ = p.law.stress _ * _
  rw [(steel_response (hok p hp).law).1 _ this.1 this.2, (hok p hp).law.stress_eq this.1 this.2]

/-- What the forces of an admissible plane are. -/
theorem steel_forces_clamped {split : Polygon → ℝ → ℝ → ShapelyResult} {th u : ℝ} {parts : List SteelPart}
    (hok : ∀ p ∈ parts, p.Ok split th u) {e : Fin 3 → ℝ} (ha : (steelSection parts).Admissible e) (i : Fin 3) :
    (steelSection parts).forces e i =
      (parts.map fun p => ∫ x in p.region, p.law.clamped (planeStrain e x.1 x.2) * lever x.1 x.2 i).sum := by
  simp only [CrossSection.forces, steelSection, List.map_map, Function.comp_def, List.map_nil, Pi.add_apply, list_sum_apply]
  have : resultants [] e i = 0 := by simp [resultants]
  rw [this, add_zero]
  congr 1
  apply List.map_congr_left
  intro p hp
  simp only [regionResultants]
  refine setIntegral_congr_fun (hok p hp).encloses.measurable fun x hx => ?_
  have := ha.1 ⟨p.region, p.polygon.ext, p.law.stress, (p.law.ult false).1, (p.law.ult false).2⟩
    (by simp only [steelSection, List.mem_map]; exact ⟨p, hp, rfl⟩) x ((hok p hp).inHull hx)
  simp only [(hok p hp).law.limit] at this
  change p.law.stress _ * _ = _
  rw [(hok p hp).law.stress_eq this.1 this.2]

theorem steel_ne {split : Polygon → ℝ → ℝ → ShapelyResult} {th u : ℝ} {parts : List SteelPart}
    (hok : ∀ p ∈ parts, p.Ok split th u) : ∀ s ∈ parts.map SteelPart.solid, s.spec.surf.polygon.ext ≠ [] := by
  intro s hs h
  obtain ⟨p, hp, rfl⟩ := List.mem_map.1 hs
  have := (hok p hp).encloses.ext_proper.2
  have h' : p.polygon.ext = [] := h
  rw [h'] at this
  apply this
  simp [signedMoment, Spec.edges]

/-- The section reaches from height `lo` to height `hi` above the axis inclined by `th`. -/
structure SteelDepth (th : ℝ) (parts : List SteelPart) (lo hi : ℝ) : Prop where
  range : ∀ p ∈ parts, ∀ v ∈ p.polygon.ext, lo ≤ height th v ∧ height th v ≤ hi
  top : ∃ p ∈ parts, ∃ v ∈ p.polygon.ext, height th v = hi
  bottom : ∃ p ∈ parts, ∃ v ∈ p.polygon.ext, height th v = lo
  size : 1e-6 ≤ hi - lo ∧ hi - lo ≤ 1e6

section balanced

variable {split : Polygon → ℝ → ℝ → ShapelyResult} {th u lo hi : ℝ} {parts : List SteelPart}

theorem steel_corner_cases (hok : ∀ p ∈ parts, p.Ok split th u) {c : (ℝ × ℝ) × ℝ × ℝ} (hc : c ∈ (steelSection parts).corners) :
    ∃ p ∈ parts, c.1 ∈ p.polygon.ext ∧ c.2 = (-u, u) := by
  simp only [CrossSection.corners, steelSection, List.mem_append, List.mem_flatMap, List.mem_map, List.map_nil, List.not_mem_nil,
    or_false] at hc
  obtain ⟨_, ⟨p, hp, rfl⟩, v, hv, rfl⟩ := hc
  refine ⟨p, hp, hv, ?_⟩
  rw [(hok p hp).law.limit]

theorem steel_corner (hok : ∀ p ∈ parts, p.Ok split th u) {p : SteelPart} (hp : p ∈ parts) {v : ℝ × ℝ} (hv : v ∈ p.polygon.ext) :
    ((v, -u, u) : (ℝ × ℝ) × ℝ × ℝ) ∈ (steelSection parts).corners := by
  simp only [CrossSection.corners, steelSection, List.mem_append, List.mem_flatMap, List.mem_map]
  refine Or.inl ⟨_, ⟨p, hp, rfl⟩, v, hv, ?_⟩
  rw [(hok p hp).law.limit]

theorem steel_lim (hok : ∀ p ∈ parts, p.Ok split th u) : ∀ c ∈ (steelSection parts).corners, c.2.1 ≤ 0 ∧ 0 ≤ c.2.2 := by
  intro c hc
  obtain ⟨p, hp, -, e⟩ := steel_corner_cases hok hc
  have := (hok p hp).law.u_pos.1
  rw [e]
  constructor <;> norm_num at * <;> linarith

theorem steel_flat (hok : ∀ p ∈ parts, p.Ok split th u) (hD : SteelDepth th parts lo hi) : ∀ c ∈ (steelSection parts).corners,
    ∀ d ∈ (steelSection parts).corners, 1e-13 * (height th d.1 - height th c.1) ≤ c.2.2 - d.2.1 := by
  intro c hc d hd
  obtain ⟨p, hp, hv, e⟩ := steel_corner_cases hok hc
  obtain ⟨q, hq, hw, e'⟩ := steel_corner_cases hok hd
  have h1 := (hok p hp).law.u_pos.1
  have h2 := (hD.range q hq _ hw).2
  have h4 := (hD.range p hp _ hv).1
  have h3 := hD.size.2
  rw [e, e']
  norm_num at *
  linarith

/-- The governing state: `u` at the lowest and `-u` at the highest point. -/
theorem steel_balanced {ms : ℝ} (hok : ∀ p ∈ parts, p.Ok split th u) (hu1 : u ≤ 1) (hD : SteelDepth th parts lo hi) :
    ∃ st, (sectionEngine split (parts.map SteelPart.solid) [] ms).balanced (-th) false = .ok (hi, lo, st) ∧
      st 0 + st 1 * lo = u ∧ st 0 + st 1 * hi = -u ∧ st 2 = 0 ∧
      ∀ c ∈ (steelSection parts).corners, planeStrain st 0 lo ≤ c.2.2 ∧ c.2.1 ≤ planeStrain st 0 hi := by
  set solids := parts.map SteelPart.solid with hsol
  have hne' := steel_ne hok
  have hcor := steel_corners parts
  rw [← hsol] at hcor hne'
  have hlim := steel_lim hok
  have hcc := fun c => steel_corner_cases hok (c := c)
  have hco := fun p hp v hv => steel_corner hok (p := p) hp (v := v) hv
  rw [← hcor] at hlim hcc hco ⊢
  have hln : ∀ g ∈ sectionParts solids [] (-th), compressionLimit false (solids.any Solid.concrete) g ≤ 0 := by
    intro g hg'
    obtain ⟨c, hc, -, h2⟩ := (part_corner hne' hg').1
    rw [compressionLimit_ultimate, ← h2]
    exact (hlim c hc).1
  have hlp : ∀ g ∈ sectionParts solids [] (-th), 0 ≤ tensionLimit false g := by
    intro g hg'
    obtain ⟨c, hc, -, h2⟩ := (part_corner hne' hg').1
    rw [tensionLimit, ← h2]
    exact (hlim c hc).2
  obtain ⟨pt, hpt, vt, hvt, htop⟩ := hD.top
  obtain ⟨pb, hpb, vb, hvb, hbot⟩ := hD.bottom
  have hu0 := (hok pt hpt).law.u_pos.1
  have hDs := hD.size
  obtain ⟨gb, hgb, ub, lb, lb'⟩ := corner_part (th := th) hne' (hco pb hpb vb hvb)
  obtain ⟨gv, hgv, uv, lv, lv'⟩ := corner_part (th := th) hne' (hco pt hpt vt hvt)
  simp only at ub lb lb' uv lv lv'
  have hex : ∃ r, balancedFailure (sectionParts solids [] (-th)) (solids.any Solid.concrete) false = .ok r := by
    by_contra hcon
    push Not at hcon
    have hlt : gb.yLow < gv.yHigh := by norm_num at *; linarith
    have := (C22_raises_iff _ _ _).1 hcon gb hgb gv hgv hlt
    rw [tensionLimit, compressionLimit_ultimate, ub, uv, le_div_iff₀ (by linarith)] at this
    have e : 1e-6 ≤ gv.yHigh - gb.yLow := by linarith
    norm_num at *
    linarith
  obtain ⟨⟨yn, yp, st⟩, hb⟩ := hex
  obtain ⟨⟨g, hgm, o, hom, hyp, hyn, hlt, htp, htn⟩, hadm, hst1, hst2⟩ := C22_balanced _ _ _ hln hlp _ _ _ hb
  have hpl : ∀ x y, planeStrain st x y = st 0 + st 1 * y := by intro x y; simp [planeStrain, hst2]
  obtain ⟨c, hc, k1, k2⟩ := (part_corner hne' hgm).1
  obtain ⟨d, hd, m1, m2⟩ := (part_corner hne' hom).2
  obtain ⟨pc, hpc, hvc, ec⟩ := hcc c hc
  obtain ⟨pd, hpd, hvd, ed⟩ := hcc d hd
  have t1 := htp 0
  have t2 := htn 0
  rw [hpl, tensionLimit, ← k2, ec] at t1
  rw [hpl, compressionLimit_ultimate, ← m2, ed] at t2
  simp only at t1 t2
  have hall : ∀ p ∈ parts, ∀ v ∈ p.polygon.ext, -u ≤ st 0 + st 1 * height th v ∧ st 0 + st 1 * height th v ≤ u := by
    intro p hp v hv
    obtain ⟨q, hq, u', l, l'⟩ := corner_part (th := th) hne' (hco p hp v hv)
    have := hadm q hq 0 _ l l'
    rw [compressionLimit_ultimate, tensionLimit, u', hpl] at this
    exact this
  have hneg : st 1 < 0 := by
    by_contra hcon
    push Not at hcon
    have := mul_nonneg hcon (sub_nonneg.2 hlt.le)
    norm_num at *
    linarith
  have hin : ∀ p ∈ parts, ∀ v ∈ p.polygon.ext, yp ≤ height th v ∧ height th v ≤ yn := by
    intro p hp v hv
    obtain ⟨a, b⟩ := hall p hp v hv
    constructor
    · by_contra hcon
      push Not at hcon
      have := mul_lt_mul_of_neg_left hcon hneg
      linarith
    · by_contra hcon
      push Not at hcon
      have := mul_lt_mul_of_neg_left hcon hneg
      linarith
  have e1 : yp = lo := by
    apply le_antisymm
    · rw [← hbot]; exact (hin pb hpb vb hvb).1
    · have := (hD.range pc hpc _ hvc).1
      rw [k1, hyp] at this
      exact this
  have e2 : yn = hi := by
    apply le_antisymm
    · have := (hD.range pd hpd _ hvd).2
      rw [m1, hyn] at this
      exact this
    · rw [← htop]; exact (hin pt hpt vt hvt).2
  subst e1 e2
  refine ⟨st, hb, t1, t2, hst2, fun q hq => ?_⟩
  obtain ⟨-, -, -, e⟩ := hcc q hq
  rw [hpl, hpl, t1, t2, e]
  exact ⟨le_rfl, le_rfl⟩

end balanced

end SC
