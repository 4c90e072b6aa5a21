import Verif.Props.SteelResults
import Verif.Props.ProfileReads

/-! # C75: the largest moment, and the plastic modulus of a profile -/

set_option autoImplicit false

namespace SC

open Spec MeasureTheory

section

variable {split : Polygon → ℝ → ℝ → ShapelyResult} {th u lo hi : ℝ} {parts : List SteelPart}

theorem steel_nonSoftening (hok : ∀ p ∈ parts, p.Ok split th u) : (steelSection parts).NonSoftening := by
  refine ⟨?_, ?_, ?_, ?_, ?_⟩
  · intro p hp
    simp only [steelSection, List.mem_map] at hp
    obtain ⟨q, hq, rfl⟩ := hp
    exact ⟨(hok q hq).encloses.measurable, (hok q hq).inHull⟩
  · intro p hp e i
    simp only [steelSection, List.mem_map] at hp
    obtain ⟨q, hq, rfl⟩ := hp
    have hl := (hok q hq).law
    have hu := hl.u_pos
    have hpos : (0:ℝ) < 1e-6 := by norm_num
    -- the stress is measurable and bounded
    have hm : Measurable q.law.stress := by
      refine Measurable.comp (g := q.law.core) ?_ (measurable_snap _)
      have hset : MeasurableSet {x | q.law.beyond x} := by
        cases hsu : q.law.eps_su with
        | none => simp [ElasticPlastic.beyond, hsu]
        | some u' =>
          have : {x | q.law.beyond x} = Set.Ioi u' ∪ Set.Iio (-u') := by
            ext x; simp [ElasticPlastic.beyond, hsu]
          rw [this]
          exact measurableSet_Ioi.union measurableSet_Iio
      unfold ElasticPlastic.core
      simp only
      refine Measurable.ite hset measurable_const (Measurable.ite ?_ (by fun_prop) (Measurable.ite ?_ (by fun_prop) (by fun_prop)))
      · refine measurableSet_lt measurable_const (Measurable.ite ?_ (by fun_prop) (by fun_prop))
        exact measurableSet_lt (by fun_prop) measurable_const
      · exact measurableSet_lt (by fun_prop) measurable_const
    have hcore : ∀ x, |q.law.core x| ≤ q.law.fy := by
      intro x
      by_cases hb : q.law.beyond x
      · simp [ElasticPlastic.core, hb, hl.fy]
      · rw [q.law.core_clamp hl.E hl.fy hl.Eh.ge hb, hl.Eh]
        have := hl.clamped_range x
        rw [ElasticPlastic.clamped] at this
        rw [abs_le]
        constructor <;> linarith [this.1, this.2]
    have hw : Continuous fun x : ℝ × ℝ => lever x.1 x.2 i := by fin_cases i <;> simp only [lever] <;> fun_prop
    refine Integrable.bdd_mul (c := q.law.fy) (continuous_integrableOn hw (hok q hq).encloses.bounded)
      ((hm.comp (measurable_planeStrain e)).aestronglyMeasurable) (Filter.Eventually.of_forall fun x => ?_)
    exact hcore _
  · intro r hr
    simp [steelSection] at hr
  · intro p hp
    simp only [steelSection, List.mem_map] at hp
    obtain ⟨q, hq, rfl⟩ := hp
    intro x hx y hy hxy
    simp only [(hok q hq).law.limit] at hx hy
    simp only
    rw [(hok q hq).law.stress_eq hx.1 hx.2, (hok q hq).law.stress_eq hy.1 hy.2]
    exact (hok q hq).law.clamped_mono hxy
  · intro r hr
    simp [steelSection] at hr

theorem steel_ultimate (hok : ∀ p ∈ parts, p.Ok split th u) (hD : SteelDepth th parts lo hi) {v c : ℝ} (hc : c < 0)
    (ha : (steelSection parts).Admissible (planeThrough th 0 v c)) (hl : (steelSection parts).AtLimit (planeThrough th 0 v c)) :
    (steelSection parts).Ultimate th (planeThrough th 0 v c) := by
  have hr : ∀ p ∈ (steelSection parts).plates, ∀ x ∈ p.region, lo ≤ height th x ∧ height th x ≤ hi := by
    intro p hp x hx
    simp only [steelSection, List.mem_map] at hp
    obtain ⟨q, hq, rfl⟩ := hp
    exact hull_range hD hq ((hok q hq).inHull hx)
  have hno : ∀ r, r ∉ (steelSection parts).rods := by intro r; simp [steelSection]
  obtain ⟨-, -, e | e⟩ := steel_extreme hok hD hc ha hl
  · right
    obtain ⟨pb, hpb, vb, hvb, hbot⟩ := hD.bottom
    refine ⟨_, steel_corner hok hpb hvb, ?_, fun e' _ => ⟨fun p hp x hx h => ?_, fun r hr' => absurd hr' (hno r)⟩⟩
    · rw [planeThrough_at]; simp only [hbot, e]
    · simp only [hbot] at h
      exact absurd (hr p hp x hx).1 (not_le.2 h)
  · left
    obtain ⟨pt, hpt, vt, hvt, htop⟩ := hD.top
    refine ⟨_, steel_corner hok hpt hvt, ?_, fun e' _ => ⟨fun p hp x hx h => ?_, fun r hr' => absurd hr' (hno r)⟩⟩
    · rw [planeThrough_at]; simp only [htop, e]
    · simp only [htop] at h
      exact absurd (hr p hp x hx).2 (not_le.2 h)

/-- **C75** (the strength is the largest moment). No strain plane about a parallel axis within the limit strains has a larger moment, up
to the difference of the axial forces times the distance of the farthest point from the axis through the origin. -/
theorem C75_largest (hok : ∀ p ∈ parts, p.Ok split th u) (hu1 : u ≤ 1) (hD : SteelDepth th parts lo hi) (ms : ℝ)
    (lu : Matrix (Fin 3) (Fin 3) ℝ → (Fin 3 → ℝ) → (Fin 3 → ℝ)) (n : ℝ) (ops : List Op) (b : BendingResult)
    (hops : Undisturbed (sectionEngine split (parts.map SteelPart.solid) [] ms) lu ops .fresh)
    (hrun : (bendingStrength (sectionEngine split (parts.map SteelPart.solid) [] ms) th n
      (history (sectionEngine split (parts.map SteelPart.solid) [] ms) lu ops .fresh)).2 = .ok b)
    (v c : ℝ) (ha' : (steelSection parts).Admissible (planeThrough th 0 v c)) :
    bendingMoment th ((steelSection parts).forces (planeThrough th 0 v c)) ≤
      bendingMoment th ![b.n, b.m.1, b.m.2] + max |lo| |hi| * |(steelSection parts).forces (planeThrough th 0 v c) 0 - b.n| := by
  obtain ⟨c', hc, hpl, hf, hl, ha⟩ := steel_result hok hu1 hD ms lu n ops b hops hrun
  have hw : (steelSection parts).Within th (max |lo| |hi|) := by
    refine ⟨fun p hp x hx => ?_, fun r hr => ?_⟩
    · simp only [steelSection, List.mem_map] at hp
      obtain ⟨q, hq, rfl⟩ := hp
      obtain ⟨r1, r2⟩ := hull_range hD hq ((hok q hq).inHull hx)
      rw [max_comm]
      exact abs_le_max_abs_abs r1 r2 |>.trans_eq (max_comm _ _)
    · simp [steelSection] at hr
  have := ultimate_maximal (steel_nonSoftening hok) hw ((abs_nonneg lo).trans (le_max_left _ _)) ha (steel_ultimate hok hD hc ha hl) ha'
  rw [hf] at this
  exact this

/-- **C75** (profiles). The plastic modulus `Wply` of a profile times the yield strength is the bending strength of the section with the
same polygon, up to the elastic core, the tolerances of both calculations and the moment of the axial force that remains. -/
theorem C75_profile {part : SteelPart} (hok : part.Ok split 0 u) (hu1 : u ≤ 1) (hD : SteelDepth 0 [part] lo hi)
    {sh : Shapely} (h : ProfileShape part.polygon part.region) (hs : SplitsWell sh part.polygon part.region)
    (eig : ℝ → ℝ → ℝ → Eig) (ms : ℝ) (lu : Matrix (Fin 3) (Fin 3) ℝ → (Fin 3 → ℝ) → (Fin 3 → ℝ)) :
    ∃ W, (Profile.read sh eig .Wply (Profile.fresh part.polygon)).2 = .ok W ∧
      ∀ (n : ℝ) (ops : List Op) (b : BendingResult),
        Undisturbed (sectionEngine split [part.solid] [] ms) lu ops .fresh →
        (bendingStrength (sectionEngine split [part.solid] [] ms) 0 n
          (history (sectionEngine split [part.solid] [] ms) lu ops .fresh)).2 = .ok b →
        -b.m.1 ≤ part.law.fy * W + max |lo| |hi| * |b.n| ∧
        (b.n * (hi - lo) < part.law.fy * absMoment part.region hi → -b.n * (hi - lo) < part.law.fy * absMoment part.region lo →
          part.law.fy * (W - 1e-10 * (hi - lo) * max 1 (areaMoment 0 0 part.region)) -
            part.law.fy * part.law.eps_sy * (hi - lo) / (4 * u) * areaMoment 0 0 part.region - max |lo| |hi| * |b.n| ≤ -b.m.1) := by
  obtain ⟨w, hw, hw1, hw2⟩ := exists_balance h
  obtain ⟨W, hW, hW1, hW2, hmin⟩ := C60_plastic_modulus h hs eig hw hw1 hw2
  have hok' : ∀ p ∈ [part], p.Ok split 0 u := by
    intro p hp
    rw [List.mem_singleton.1 hp]
    exact hok
  have hne : part.polygon.ext ≠ [] := steel_ne hok' part.solid (by simp)
  -- the bounds of the polygon are `lo` and `hi`
  have hlo : part.polygon.bounds.2.1 = lo := by
    obtain ⟨v, hv, e⟩ := low_mem hne
    obtain ⟨p, hp, v', hv', e'⟩ := hD.bottom
    rw [List.mem_singleton.1 hp] at hv'
    apply le_antisymm
    · rw [← e', RCBeam.height_zero]; exact (bounds_spec hne hv').2.2.1
    · rw [← e]
      have := (hD.range part (by simp) v hv).1
      rwa [RCBeam.height_zero] at this
  have hhi : part.polygon.bounds.2.2.2 = hi := by
    obtain ⟨v, hv, e⟩ := high_mem hne
    obtain ⟨p, hp, v', hv', e'⟩ := hD.top
    rw [List.mem_singleton.1 hp] at hv'
    apply le_antisymm
    · rw [← e]
      have := (hD.range part (by simp) v hv).2
      rwa [RCBeam.height_zero] at this
    · rw [← e', RCBeam.height_zero]; exact (bounds_spec hne hv').2.2.2
  rw [hlo] at hw1 hW2
  rw [hhi] at hw2 hW2
  have hpm : ∀ z, plasticMoment 0 (yieldPlates [part]) z = part.law.fy * absMoment part.region z := by
    intro z
    rw [plasticMoment_parts]
    simp only [List.map_cons, List.map_nil, List.sum_cons, List.sum_nil, add_zero, absMoment, RCBeam.height_zero]
  have hA : areaMoment 0 0 part.region = ∫ _ in part.region, (1:ℝ) := by simp [areaMoment]
  have hbm : ∀ b : BendingResult, bendingMoment 0 ![b.n, b.m.1, b.m.2] = -b.m.1 := by intro b; simp [bendingMoment]
  have hcl : coreLoss [part] (u / (hi - lo)) = part.law.fy * part.law.eps_sy * (hi - lo) / (4 * u) * areaMoment 0 0 part.region := by
    simp only [coreLoss, List.map_cons, List.map_nil, List.sum_cons, List.sum_nil, add_zero, ← hA]
    congr 1
    have h1 : hi - lo ≠ 0 := by
      have := hD.size.1
      intro h0
      rw [h0] at this
      norm_num at this
    have h2 : u ≠ 0 := by
      have := hok.law.u_pos.1
      intro h0
      rw [h0] at this
      norm_num at this
    field_simp
  have hax : ∀ z n : ℝ, lo ≤ z → z ≤ hi → |z * n| ≤ max |lo| |hi| * |n| := by
    intro z n h1 h2
    rw [abs_mul]
    exact mul_le_mul_of_nonneg_right (abs_le_max_abs_abs h1 h2) (abs_nonneg _)
  refine ⟨W, hW, fun n ops b hops hrun => ?_⟩
  obtain ⟨-, -, -, hup, hdown⟩ := C75_strength hok' hu1 hD ms lu n ops b hops hrun
  simp only [hpm, hbm, hcl] at hup hdown
  have hf := hok.law.fy
  constructor
  · have h1 := hup w
    have h2 := (abs_le.1 (hax w b.n hw1 hw2)).1
    have h3 := mul_le_mul_of_nonneg_left hW1 hf
    linarith
  · intro k1 k2
    obtain ⟨z, z1, z2, hz⟩ := hdown k1 k2
    have h2 := (abs_le.1 (hax z b.n z1 z2)).2
    have h3 := mul_le_mul_of_nonneg_left (hmin z) hf
    have h4 := mul_le_mul_of_nonneg_left hW2 hf
    rw [mul_add] at h4
    rw [mul_sub]
    linarith

end

end SC
