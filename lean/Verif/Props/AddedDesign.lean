import Verif.Props.Added
import Verif.Props.HardeningGap

/-! # C79 from the arguments of the material constructors -/

set_option autoImplicit false

namespace SC

open Spec MeasureTheory

theorem sound_force_mono {parts : List ConcretePart} (hok : ∀ p ∈ parts, p.Sound) {e e' : Fin 3 → ℝ}
    (h : ∀ p ∈ parts, ∀ x ∈ p.region, p.law.stress (planeStrain e' x.1 x.2) ≤ p.law.stress (planeStrain e x.1 x.2)) :
    (concreteSection parts []).forces e' 0 ≤ (concreteSection parts []).forces e 0 := by
  have hI := (sound_nonSoftening (bars := []) hok (by intro b hb; simp at hb) (by intro b hb; simp at hb)).integrable
  have hf : ∀ e, (concreteSection parts []).forces e 0 =
      (parts.map fun p => ∫ x in p.region, p.law.stress (planeStrain e x.1 x.2) * lever x.1 x.2 0).sum := by
    intro e
    simp only [CrossSection.forces, concreteSection, List.map_map, Function.comp_def, Pi.add_apply, list_sum_apply, List.map_nil,
      regionResultants, List.sum_nil, resultants, add_zero]
  rw [hf, hf]
  refine List.sum_le_sum fun p hp => ?_
  have hm : (⟨p.region, p.polygon.ext, p.law.stress, (p.law.ult false).1, (p.law.ult false).2⟩ : Plate) ∈ (concreteSection parts []).plates := by
    simp only [concreteSection, List.mem_map]; exact ⟨p, hp, rfl⟩
  refine setIntegral_mono_on (hI _ hm e' 0) (hI _ hm e 0) (hok p hp).encloses.measurable fun x hx => ?_
  simpa [lever] using h p hp x hx

/-- The lowest layer is in tension in an ultimate plane when the axial force exceeds that of the plane with the crushing strain at the
top and no strain in the layer. -/
theorem OrdinaryRC.layer_tension {th ecu eu H : ℝ} {parts : List ConcretePart} {bars : List Bar}
    (h : OrdinaryRC th parts bars ecu eu H) (hok : ∀ p ∈ parts, p.Sound) (hA : ∀ b ∈ bars, 0 ≤ b.area)
    (hmono : ∀ b ∈ bars, MonotoneOn b.law.law.stress (Set.Icc (b.law.law.ult false).1 (b.law.law.ult false).2))
    {v c zl zt : ℝ} (hc : c ≤ 0) (ha : (concreteSection parts bars).Admissible (planeThrough th 0 v c))
    (hl : (concreteSection parts bars).AtLimit (planeThrough th 0 v c)) (hz : ∀ b ∈ bars, zl ≤ height th (b.x, b.y))
    (ht : ∀ p ∈ parts, ∀ v ∈ p.polygon.ext, height th v ≤ zt) (hzt : zl < zt)
    (hn : (concreteSection parts bars).forces (planeThrough th zt (-ecu) (-(ecu / (zt - zl)))) 0 <
      (concreteSection parts bars).forces (planeThrough th 0 v c) 0) : 0 ≤ v + c * zl := by
  by_contra hneg
  push Not at hneg
  have hrod : ∀ b ∈ bars, (⟨b.fibre Law.stress, (b.law.law.ult false).1, (b.law.law.ult false).2⟩ : Rod) ∈
      (concreteSection parts bars).rods := by
    intro b hb; simp only [concreteSection, List.mem_map]; exact ⟨b, hb, rfl⟩
  have hecu : 0 < ecu := by linarith [h.ecu_range.1, show (0:ℝ) < 1e-3 by norm_num]
  have hhull : ∀ p ∈ parts, ∀ x ∈ convexHull ℝ {v | v ∈ p.polygon.ext}, height th x ≤ zt := by
    intro p hp x hx
    obtain ⟨w, hw, hle⟩ := OrdinaryRC.hull_height (th := th) hx
    exact hle.trans (ht p hp w hw)
  have hbt : ∀ b ∈ bars, height th (b.x, b.y) ≤ zt := by
    intro b hb
    obtain ⟨p, hp, hx⟩ := h.inside b hb
    exact hhull p hp _ hx
  have htop : v + c * zt ≤ -ecu := by
    obtain ⟨k, hk, hkl⟩ := hl
    rcases hkl with hkl | hkl
    · rw [planeThrough_at] at hkl
      rcases h.corner_cases hk with ⟨p, hp, hv, hk2⟩ | ⟨b, hb, hk1, hk2, hk3⟩
      · have := ht p hp k.1 hv
        rw [hk2] at hkl
        simp only at hkl
        nlinarith
      · have := hbt b hb
        rw [hk1] at hkl
        nlinarith
    · exact absurd (h.tension_pivot hc ha hz hk hkl) (not_le.2 hneg)
  have hd : 0 < zt - zl := by linarith
  set q : ℝ := ecu / (zt - zl) with hq
  have hqd : q * (zt - zl) = ecu := by rw [hq]; field_simp
  have hqpos : 0 < q := by positivity
  have hstr : ∀ x : ℝ × ℝ, planeStrain (planeThrough th zt (-ecu) (-q)) x.1 x.2 = -ecu - q * (height th x - zt) := by
    intro x; rw [planeThrough_height]; ring
  have hcmp : ∀ y, zl ≤ y → y ≤ zt → v + c * y ≤ -ecu - q * (y - zt) := by
    intro y h1 h2
    have e1 : 0 ≤ (y - zl) * (-ecu - (v + c * zt)) := mul_nonneg (by linarith) (by linarith)
    have e2 : 0 ≤ (zt - y) * (-(v + c * zl)) := mul_nonneg (by linarith) (by linarith)
    have e3 : 0 ≤ (-ecu - q * (y - zt) - (v + c * y)) * (zt - zl) := by
      have : (-ecu - q * (y - zt) - (v + c * y)) * (zt - zl) =
          (y - zl) * (-ecu - (v + c * zt)) + (zt - y) * (-(v + c * zl)) := by linear_combination (zt - y) * hqd
      rw [this]; linarith
    have := nonneg_of_mul_nonneg_left e3 hd
    linarith
  refine absurd hn (not_lt.2 ?_)
  rw [force_split (bars := bars), force_split (bars := bars)]
  refine add_le_add (sound_force_mono hok fun p hp x hx => ?_) (List.sum_le_sum fun b hb => ?_)
  · have hxh := (hok p hp).inHull hx
    have hy := hhull p hp x hxh
    rcases le_or_gt zl (height th x) with hy' | hy'
    · refine pr_stress_mono p.fc p.eps_0 p.eps_u (hok p hp).peak (hok p hp).plateau ?_ ?_
      · have := (ha.1 ⟨p.region, p.polygon.ext, p.law.stress, (p.law.ult false).1, (p.law.ult false).2⟩
          (by simp only [concreteSection, List.mem_map]; exact ⟨p, hp, rfl⟩) x hxh).1
        rwa [part_ult] at this
      · rw [planeThrough_at, hstr]
        exact hcmp _ hy' hy
    · have t0 := pr_stress_tension p.fc p.eps_0 p.eps_u (hok p hp).peak (hok p hp).plateau
        (x := planeStrain (planeThrough th zt (-ecu) (-q)) x.1 x.2) (by rw [hstr]; nlinarith)
      exact (pr_stress_range p.fc p.eps_0 p.eps_u (hok p hp).peak _).2.trans_eq t0.symm
  · refine mul_le_mul_of_nonneg_left ?_ (hA b hb)
    have h1 := hstr (b.x, b.y)
    have h2 := planeThrough_at th v c (b.x, b.y)
    have h3 := hcmp _ (hz b hb) (hbt b hb)
    have h4 := ha.2 _ (hrod b hb)
    simp only at h1 h2
    simp only [Bar.fibre] at h4
    have hzb := hz b hb
    have hzb' := hbt b hb
    refine hmono b hb h4 ⟨?_, ?_⟩ ?_
    · rw [h1, ]
      rw [h2] at h4
      linarith [h4.1]
    · rw [h1, (h.rupture b hb).1]
      have := h.eu_range.1
      have e1 : q * (zt - height th (b.x, b.y)) ≤ q * (zt - zl) := mul_le_mul_of_nonneg_left (by linarith) hqpos.le
      norm_num at *
      nlinarith
    · rw [h1, h2]; exact h3

variable {lower : String → String}

/-- **C79** (design, partial: the loads of C73, tension in the lowest layer). For a section of normal strength concrete with bars of
one perfectly plastic steel, and the same section with further bars in its lowest layer: the bending strength of the second under the
axial load `n` is at least that of the first, up to `R` times the tolerances of the two searches, for all axial loads above that of
the state with the crushing strain at the top and no strain in the lowest layer. -/
theorem C79_design_partial (hl : PyLower lower) (ccls : ConcClass) (ca : ConcArgs) (c : Built Conc)
    (hc : newConcrete lower ccls ca = some (.ok c)) (hcn : ca.law = .name "parabolarectangle")
    (hci : ca.initialStrain = none ∧ ca.initialStress = none) (hce : ca.eps_c2 = none ∧ ca.eps_cu2 = none ∧ ca.n = none)
    (hcf : ccls ≠ .ec2_2023 → |ca.fck| ≤ 50)
    (scls : SteelClass) (sa : SteelArgs) (s : Built Steel)
    (hs : newSteel lower scls sa = some (.ok s)) (hsn : sa.law = .name "elasticperfectlyplastic")
    (hsi : sa.initialStrain = none ∧ sa.initialStress = none)
    (hgap : designYield sa + 1e-6 + 1e-5 * designUltimate scls sa ≤ designUltimate scls sa)
    (heu : 0.0035 ≤ designUltimate scls sa ∧ designUltimate scls sa ≤ 0.09)
    (split : Polygon → ℝ → ℝ → ShapelyResult) (ms th : ℝ) (lu : Matrix (Fin 3) (Fin 3) ℝ → (Fin 3 → ℝ) → (Fin 3 → ℝ))
    (shapes : List (Polygon × Set (ℝ × ℝ))) (bars more : List Bar) (id : ℕ) (hbars : ∀ b ∈ bars ++ more, b.law = ⟨id, s.mat.law⟩)
    (hA : ∀ b ∈ bars ++ more, 0 ≤ b.area)
    (henc : ∀ p ∈ shapes, Encloses p.1.ext p.1.ints p.2) (hull : ∀ p ∈ shapes, p.2 ⊆ convexHull ℝ {v | v ∈ p.1.ext})
    (hsplit : ∀ p ∈ shapes,
      SplitsExactly split ((p.1.rotate (-th)).rotate (-Real.pi)) (rotPt (-Real.pi) '' (rotPt (-th) '' p.2)))
    {H H0 R : ℝ} (hg0 : RCGeometry 0 shapes (bars.map fun b => (b.x, b.y)) H0)
    (hg : RCGeometry th shapes (bars.map fun b => (b.x, b.y)) H)
    (hmore : ∀ b ∈ more, ∃ s ∈ shapes, (b.x, b.y) ∈ convexHull ℝ {v | v ∈ s.1.ext})
    (hR : ∀ p ∈ shapes, ∀ v ∈ p.1.ext, |height th v| ≤ R)
    (zl zt : ℝ) (hlow : ∀ b ∈ bars, zl ≤ height th (b.x, b.y)) (hlayer : ∃ b ∈ bars, height th (b.x, b.y) = zl)
    (hadd : ∀ b ∈ more, height th (b.x, b.y) = zl) (htop : ∀ p ∈ shapes, ∀ v ∈ p.1.ext, height th v ≤ zt) (hzt : zl < zt)
    (fc : ℝ) (hfc : fc = designConcrete ccls ca) (δ : List Bar → ℝ)
    (hδ : ∀ bars, δ bars =
      (2 * |fc| / 0.002 * (shapes.map fun p => areaMoment 0 0 p.2).sum + |sa.Es| * (bars.map fun b => |b.area|).sum) * H)
    (hsmall : δ (bars ++ more) ≤ 1e22) (S : List Bar → CrossSection) (hS : ∀ bars, S bars = concreteSection (normalParts fc shapes) bars)
    (E : List Bar → Engine) (hE : ∀ bars, E bars = sectionEngine split ((normalParts fc shapes).map ConcretePart.solid) bars ms) :
    (∀ p ∈ normalParts fc shapes, p.law.law = c.mat.law) ∧
    ∃ C : Set ℝ, C.Countable ∧ ∀ (n : ℝ) (ops ops' : List Op), n ∉ C → Undisturbed (E bars) lu ops .fresh →
      Undisturbed (E (bars ++ more)) lu ops' .fresh →
      (∀ l ∈ [bars, bars ++ more], (S l).forces ![-0.0035, 0, 0] 0 + δ l * 1e-13 < n ∧
        n < (S l).forces ![designUltimate scls sa, 0, 0] 0 - δ l * 1e-13) →
      (S bars).forces (planeThrough th zt (-0.0035) (-(0.0035 / (zt - zl)))) 0 + 1e-2 < n →
        ∃ b b' : BendingResult, (bendingStrength (E bars) th n (history (E bars) lu ops .fresh)).2 = .ok b ∧
          (bendingStrength (E (bars ++ more)) th n (history (E (bars ++ more)) lu ops' .fresh)).2 = .ok b' ∧
          bendingMoment th ![b.n, b.m.1, b.m.2] ≤ bendingMoment th ![b'.n, b'.m.1, b'.m.2] + R * 2e-2 := by
  have hsub : ∀ x ∈ bars, x ∈ bars ++ more := fun x hx => List.mem_append_left _ hx
  obtain ⟨hult, hst, -⟩ := C73_steel hl scls sa s hs hsn hsi.1 hsi.2 hgap
  have ext : ∀ {t K}, RCGeometry t shapes (bars.map fun b => (b.x, b.y)) K →
      RCGeometry t shapes ((bars ++ more).map fun b => (b.x, b.y)) K := by
    intro t K hg
    refine ⟨fun b hb => ?_, hg.span, hg.size, ?_⟩
    · obtain ⟨x, hx, rfl⟩ := List.mem_map.1 hb
      rcases List.mem_append.1 hx with hx | hx
      · exact hg.inside _ (List.mem_map_of_mem hx)
      · exact hmore x hx
    · obtain ⟨b, hb, r⟩ := hg.depth
      exact ⟨b, by rw [List.map_append]; exact List.mem_append_left _ hb, r⟩
  have hHpos : 0 < H := by linarith [hg.size.1, show (0:ℝ) < 1e-3 by norm_num]
  have hδle : δ bars ≤ δ (bars ++ more) := by
    rw [hδ, hδ, List.map_append, List.sum_append]
    refine mul_le_mul_of_nonneg_right ?_ hHpos.le
    have h1 : 0 ≤ (more.map fun b => |b.area|).sum := List.sum_nonneg fun x hx => by
      obtain ⟨b, -, rfl⟩ := List.mem_map.1 hx; exact abs_nonneg _
    have := mul_nonneg (abs_nonneg sa.Es) h1
    linarith
  obtain ⟨hpl, C1, hC1, m1⟩ := C73_design_partial hl ccls ca c hc hcn hci hce hcf scls sa s hs hsn hsi hgap heu split ms th lu shapes bars id
    (fun b hb => hbars b (hsub b hb)) henc hull hsplit hg0 hg fc hfc (δ bars) (hδ bars) (hδle.trans hsmall) (S bars) (hS bars) (E bars) (hE bars)
  obtain ⟨-, C2, hC2, m2⟩ := C73_design_partial hl ccls ca c hc hcn hci hce hcf scls sa s hs hsn hsi hgap heu split ms th lu shapes
    (bars ++ more) id hbars henc hull hsplit (ext hg0) (ext hg) fc hfc (δ (bars ++ more)) (hδ _) hsmall (S (bars ++ more)) (hS _)
    (E (bars ++ more)) (hE _)
  refine ⟨hpl, C1 ∪ C2, hC1.union hC2, fun n ops ops' hn hops hops' hrange hten => ?_⟩
  obtain ⟨r1, r2⟩ := hrange bars (by simp)
  obtain ⟨r3, r4⟩ := hrange (bars ++ more) (by simp)
  obtain ⟨b, hb, ⟨cu, hcu, e⟩, hf, hlim, had, htol⟩ := (m1 n ops hops).2 r1 r2
  obtain ⟨b', hb', -, -, -, -, htol'⟩ := (m2 n ops' hops').2 r3 r4
  refine ⟨b, b', hb, hb', ?_⟩
  have t1 := htol fun hm => hn (Or.inl hm)
  have t2 := htol' fun hm => hn (Or.inr hm)
  have hok : ∀ p ∈ normalParts fc shapes, p.Ok split th := by
    intro p hp
    obtain ⟨q, hq, rfl⟩ := List.mem_map.1 hp
    exact ⟨henc q hq, hull q hq, hsplit q hq, by norm_num, by norm_num [abs_of_pos]⟩
  have hmono : ∀ b ∈ bars ++ more, MonotoneOn b.law.law.stress (Set.Icc (b.law.law.ult false).1 (b.law.law.ult false).2) := by
    intro b hb
    rw [hbars b hb]
    intro x hx y hy hxy
    simp only [hult] at hx hy
    rw [hst x (abs_le.2 hx), hst y (abs_le.2 hy)]
    exact mul_le_mul_of_nonneg_left (max_le_max_left _ (min_le_min_right _ hxy)) (abs_nonneg _)
  have hRC := hg.ordinary (fc := fc) (L := ⟨id, s.mat.law⟩) (fun b hb => hbars b (hsub b hb)) hult heu.1 heu.2
  have hRC' := (ext hg).ordinary (fc := fc) hbars hult heu.1 heu.2
  have hplane : ![b.eps_a, b.chi.1, b.chi.2] = planeThrough th 0 b.eps_a cu := by rw [planeThrough_curvature, e]
  have hf0 := hf
  rw [hplane, hS] at hf hlim had
  obtain ⟨low, hlow1, hlow2⟩ := hlayer
  have ht := hRC.layer_tension (zl := zl) (zt := zt) (fun p hp => (hok p hp).sound) (fun b hb => hA b (hsub b hb)) (fun b hb => hmono b (hsub b hb)) hcu.le had hlim hlow (by
      intro p hp
      obtain ⟨q, hq, rfl⟩ := List.mem_map.1 hp
      exact htop q hq) hzt (by
      rw [hf, ← hS]
      have := (abs_le.1 t1).1
      simp only [Matrix.cons_val_zero]
      linarith)
  have hzero : s.mat.law.stress 0 = 0 := by
    have hy : 0 ≤ designUltimate scls sa := by linarith [heu.1]
    rw [hst 0 (by rw [abs_zero]; exact hy)]
    have hyp : 0 ≤ designYield sa := by
      obtain ⟨-, law, hm, hx⟩ := C48_law hl scls sa s _ hs hsn
      simp only [String.reduceEq, false_and, true_and, false_or, or_false] at hx
      obtain ⟨g, -, -⟩ := hx
      simp only [designYield]
      positivity
    rw [min_eq_left hyp, max_eq_right (by linarith), mul_zero]
  rw [hE] at hb hb' hops hops'
  have key := C79_strength (R := R) hRC hRC' hok (single_ids hbars) (single_sizes (fun b hb => hbars b (hsub b hb))) (single_sizes hbars) hA hmono
    (fun b hb => by rw [hbars b (List.mem_append_right _ hb)]; exact hzero) (by
      intro p hp
      obtain ⟨q, hq, rfl⟩ := List.mem_map.1 hp
      exact hR q hq) hlow low hlow1 hlow2 (fun b hb => ⟨hadd b hb, by
        rw [hbars b (List.mem_append_right _ hb), hbars low (hsub low hlow1)]⟩) n n ops ops' b b' hops hb hops' hb' (by
      rw [hplane]
      have := planeThrough_at th b.eps_a cu (low.x, low.y)
      rw [hlow2] at this
      rw [show planeStrain (planeThrough th 0 b.eps_a cu) low.x low.y = b.eps_a + cu * zl from this]
      exact ht)
  have hR0 := (hRC.within (R := R) hok (by
      intro p hp
      obtain ⟨q, hq, rfl⟩ := List.mem_map.1 hp
      exact hR q hq)).2
  have hdiff : |b.n - b'.n| ≤ 2e-2 := by
    have : b.n - b'.n = (b.n - n) - (b'.n - n) := by ring
    rw [this]
    refine (abs_sub _ _).trans ?_
    norm_num at *
    linarith
  have := mul_le_mul_of_nonneg_left hdiff hR0
  linarith

end SC
