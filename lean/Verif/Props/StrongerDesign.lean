import Verif.Props.Stronger
import Verif.Props.AddedDesign
import Verif.Props.AddedExample

/-! # C82 from the arguments of the material constructors -/

set_option autoImplicit false

namespace SC

open Spec MeasureTheory

variable {lower : String → String}

/-- In one plane, stronger concrete carries more compression. -/
theorem stronger_force {split : Polygon → ℝ → ℝ → ShapelyResult} {th fc fc' : ℝ} {shapes : List (Polygon × Set (ℝ × ℝ))} {bars : List Bar}
    (hok : ∀ p ∈ normalParts fc shapes, p.Ok split th) (hok' : ∀ p ∈ normalParts fc' shapes, p.Ok split th) (hf : |fc| ≤ |fc'|)
    (e : Fin 3 → ℝ) (hin : ∀ s ∈ shapes, ∀ x ∈ s.2, -0.0035 ≤ planeStrain e x.1 x.2) :
    (concreteSection (normalParts fc' shapes) bars).forces e 0 ≤ (concreteSection (normalParts fc shapes) bars).forces e 0 := by
  rw [force_split (bars := bars), force_split (parts := normalParts fc shapes) (bars := bars)]
  refine add_le_add ?_ le_rfl
  have hI := (concrete_nonSoftening (bars := []) hok (by intro b hb; simp at hb) (by intro b hb; simp at hb)).integrable
  have hI' := (concrete_nonSoftening (bars := []) hok' (by intro b hb; simp at hb) (by intro b hb; simp at hb)).integrable
  have hfo : ∀ parts e, (concreteSection parts []).forces e 0 =
      (parts.map fun p : ConcretePart => ∫ x in p.region, p.law.stress (planeStrain e x.1 x.2) * lever x.1 x.2 0).sum := by
    intro parts e
    simp only [CrossSection.forces, concreteSection, List.map_map, Function.comp_def, Pi.add_apply, list_sum_apply, List.map_nil,
      regionResultants, List.sum_nil, resultants, add_zero]
  rw [hfo, hfo]
  simp only [normalParts, List.map_map, Function.comp_def]
  refine List.sum_le_sum fun s hs => ?_
  have m : ∀ f, (⟨s.1, s.2, f, 0.002, 0.0035⟩ : ConcretePart) ∈ normalParts f shapes := fun f => List.mem_map.2 ⟨s, hs, rfl⟩
  refine setIntegral_mono_on
    (hI' ⟨_, s.1.ext, (⟨s.1, s.2, fc', 0.002, 0.0035⟩ : ConcretePart).law.stress, _, _⟩ (by
      simp only [concreteSection, List.mem_map]; exact ⟨_, m fc', rfl⟩) e 0)
    (hI ⟨_, s.1.ext, (⟨s.1, s.2, fc, 0.002, 0.0035⟩ : ConcretePart).law.stress, _, _⟩ (by
      simp only [concreteSection, List.mem_map]; exact ⟨_, m fc, rfl⟩) e 0)
    (hok _ (m fc)).encloses.measurable fun x hx => ?_
  have o := hok _ (m fc)
  have hz : -|(0.0035:ℝ)| ≤ planeStrain e x.1 x.2 := by
    rw [abs_of_pos (by norm_num)]; exact hin s hs x hx
  have h1 : (⟨s.1, s.2, fc, 0.002, 0.0035⟩ : ConcretePart).law.stress (planeStrain e x.1 x.2) = _ :=
    pr_stress_formula fc 0.002 0.0035 o.peak o.plateau hz
  have h2 : (⟨s.1, s.2, fc', 0.002, 0.0035⟩ : ConcretePart).law.stress (planeStrain e x.1 x.2) = _ :=
    pr_stress_formula fc' 0.002 0.0035 o.peak o.plateau hz
  rw [h1, h2]
  have hb := (blockShape_range (a := |0.002|) (by norm_num [abs_of_pos]) (-planeStrain e x.1 x.2)).1
  simp only [blockShape] at hb
  simp only [lever, Matrix.cons_val, mul_one]
  have := mul_le_mul_of_nonneg_right hf hb
  linarith

/-- **C82** (design, partial: the loads of C73, tension in the bars). Two sections of the same geometry with one layer of bars of one
perfectly plastic steel, of two normal strength concretes: under the same axial load the one with the stronger concrete has no smaller
bending strength, up to `R` times the tolerances of the two searches, for all axial loads above that of the state of the weaker one with
the crushing strain at the top and no strain in the bars. -/
theorem C82_design_partial (hl : PyLower lower) (ccls ccls' : ConcClass) (ca ca' : ConcArgs) (c c' : Built Conc)
    (hc : newConcrete lower ccls ca = some (.ok c)) (hcn : ca.law = .name "parabolarectangle")
    (hci : ca.initialStrain = none ∧ ca.initialStress = none) (hce : ca.eps_c2 = none ∧ ca.eps_cu2 = none ∧ ca.n = none)
    (hcf : ccls ≠ .ec2_2023 → |ca.fck| ≤ 50)
    (hc' : newConcrete lower ccls' ca' = some (.ok c')) (hcn' : ca'.law = .name "parabolarectangle")
    (hci' : ca'.initialStrain = none ∧ ca'.initialStress = none) (hce' : ca'.eps_c2 = none ∧ ca'.eps_cu2 = none ∧ ca'.n = none)
    (hcf' : ccls' ≠ .ec2_2023 → |ca'.fck| ≤ 50)
    (scls : SteelClass) (sa : SteelArgs) (s : Built Steel)
    (hs : newSteel lower scls sa = some (.ok s)) (hsn : sa.law = .name "elasticperfectlyplastic")
    (hsi : sa.initialStrain = none ∧ sa.initialStress = none)
    (hgap : designYield sa + 1e-6 + 1e-5 * designUltimate scls sa ≤ designUltimate scls sa)
    (heu : 0.0035 ≤ designUltimate scls sa ∧ designUltimate scls sa ≤ 0.09)
    (split : Polygon → ℝ → ℝ → ShapelyResult) (ms th : ℝ) (lu : Matrix (Fin 3) (Fin 3) ℝ → (Fin 3 → ℝ) → (Fin 3 → ℝ))
    (shapes : List (Polygon × Set (ℝ × ℝ))) (bars : List Bar) (id : ℕ) (hbars : ∀ b ∈ bars, b.law = ⟨id, s.mat.law⟩)
    (hA : ∀ b ∈ bars, 0 ≤ b.area)
    (henc : ∀ p ∈ shapes, Encloses p.1.ext p.1.ints p.2) (hull : ∀ p ∈ shapes, p.2 ⊆ convexHull ℝ {v | v ∈ p.1.ext})
    (hsplit : ∀ p ∈ shapes,
      SplitsExactly split ((p.1.rotate (-th)).rotate (-Real.pi)) (rotPt (-Real.pi) '' (rotPt (-th) '' p.2)))
    {H H0 R : ℝ} (hg0 : RCGeometry 0 shapes (bars.map fun b => (b.x, b.y)) H0)
    (hg : RCGeometry th shapes (bars.map fun b => (b.x, b.y)) H)
    (hR : ∀ p ∈ shapes, ∀ v ∈ p.1.ext, |height th v| ≤ R)
    (zl zt : ℝ) (hlayer : ∀ b ∈ bars, height th (b.x, b.y) = zl) (htop : ∀ p ∈ shapes, ∀ v ∈ p.1.ext, height th v ≤ zt) (hzt : zl < zt)
    (fc fc' : ℝ) (hfc : fc = designConcrete ccls ca) (hfc' : fc' = designConcrete ccls' ca') (hf : |fc| ≤ |fc'|) (δ : ℝ → ℝ)
    (hδ : ∀ fc, δ fc =
      (2 * |fc| / 0.002 * (shapes.map fun p => areaMoment 0 0 p.2).sum + |sa.Es| * (bars.map fun b => |b.area|).sum) * H)
    (hsmall : δ fc ≤ 1e22 ∧ δ fc' ≤ 1e22) (S : ℝ → CrossSection) (hS : ∀ fc, S fc = concreteSection (normalParts fc shapes) bars)
    (E : ℝ → Engine) (hE : ∀ fc, E fc = sectionEngine split ((normalParts fc shapes).map ConcretePart.solid) bars ms) :
    (∀ p ∈ normalParts fc shapes, p.law.law = c.mat.law) ∧ (∀ p ∈ normalParts fc' shapes, p.law.law = c'.mat.law) ∧
    ∃ C : Set ℝ, C.Countable ∧ ∀ (n : ℝ) (ops ops' : List Op), n ∉ C → Undisturbed (E fc) lu ops .fresh →
      Undisturbed (E fc') lu ops' .fresh →
      (∀ f ∈ [fc, fc'], (S f).forces ![-0.0035, 0, 0] 0 + δ f * 1e-13 < n ∧
        n < (S f).forces ![designUltimate scls sa, 0, 0] 0 - δ f * 1e-13) →
      (S fc).forces (planeThrough th zt (-0.0035) (-(0.0035 / (zt - zl)))) 0 + 1e-2 < n →
        ∃ b b' : BendingResult, (bendingStrength (E fc) th n (history (E fc) lu ops .fresh)).2 = .ok b ∧
          (bendingStrength (E fc') th n (history (E fc') lu ops' .fresh)).2 = .ok b' ∧
          bendingMoment th ![b.n, b.m.1, b.m.2] ≤ bendingMoment th ![b'.n, b'.m.1, b'.m.2] + R * 2e-2 := by
  obtain ⟨hult, hst, -⟩ := C73_steel hl scls sa s hs hsn hsi.1 hsi.2 hgap
  obtain ⟨hpl, C1, hC1, m1⟩ := C73_design_partial hl ccls ca c hc hcn hci hce hcf scls sa s hs hsn hsi hgap heu split ms th lu shapes bars id
    hbars henc hull hsplit hg0 hg fc hfc (δ fc) (hδ fc) hsmall.1 (S fc) (hS fc) (E fc) (hE fc)
  obtain ⟨hpl', C2, hC2, m2⟩ := C73_design_partial hl ccls' ca' c' hc' hcn' hci' hce' hcf' scls sa s hs hsn hsi hgap heu split ms th lu shapes
    bars id hbars henc hull hsplit hg0 hg fc' hfc' (δ fc') (hδ fc') hsmall.2 (S fc') (hS fc') (E fc') (hE fc')
  refine ⟨hpl, hpl', C1 ∪ C2, hC1.union hC2, fun n ops ops' hn hops hops' hrange hten => ?_⟩
  obtain ⟨r1, r2⟩ := hrange fc (by simp)
  obtain ⟨r3, r4⟩ := hrange fc' (by simp)
  obtain ⟨b, hb, ⟨cu, hcu, e⟩, hfo, hlim, had, htol⟩ := (m1 n ops hops).2 r1 r2
  obtain ⟨b', hb', ⟨cu', hcu', e'⟩, hfo', hlim', had', htol'⟩ := (m2 n ops' hops').2 r3 r4
  refine ⟨b, b', hb, hb', ?_⟩
  have t1 := htol fun hm => hn (Or.inl hm)
  have t2 := htol' fun hm => hn (Or.inr hm)
  have hok : ∀ f, ∀ p ∈ normalParts f shapes, p.Ok split th := by
    intro f p hp
    obtain ⟨q, hq, rfl⟩ := List.mem_map.1 hp
    exact ⟨henc q hq, hull q hq, hsplit q hq, by norm_num, by norm_num [abs_of_pos]⟩
  have hmono : ∀ b ∈ bars, MonotoneOn b.law.law.stress (Set.Icc (b.law.law.ult false).1 (b.law.law.ult false).2) := by
    intro b hb
    rw [hbars b hb]
    intro x hx y hy hxy
    simp only [hult] at hx hy
    rw [hst x (abs_le.2 hx), hst y (abs_le.2 hy)]
    exact mul_le_mul_of_nonneg_left (max_le_max_left _ (min_le_min_right _ hxy)) (abs_nonneg _)
  have hRC := hg.ordinary (fc := fc) (L := ⟨id, s.mat.law⟩) hbars hult heu.1 heu.2
  have hRC' := hg.ordinary (fc := fc') (L := ⟨id, s.mat.law⟩) hbars hult heu.1 heu.2
  have hplane : ![b.eps_a, b.chi.1, b.chi.2] = planeThrough th 0 b.eps_a cu := by rw [planeThrough_curvature, e]
  have hplane' : ![b'.eps_a, b'.chi.1, b'.chi.2] = planeThrough th 0 b'.eps_a cu' := by rw [planeThrough_curvature, e']
  rw [hplane, hS] at hfo hlim had
  rw [hplane', hS] at hfo' hlim' had'
  have hpt : ∀ f, ∀ p ∈ normalParts f shapes, ∀ v ∈ p.polygon.ext, height th v ≤ zt := by
    intro f p hp
    obtain ⟨q, hq, rfl⟩ := List.mem_map.1 hp
    exact htop q hq
  have h0 : (S fc').forces (planeThrough th zt (-0.0035) (-(0.0035 / (zt - zl)))) 0 ≤
      (S fc).forces (planeThrough th zt (-0.0035) (-(0.0035 / (zt - zl)))) 0 := by
    rw [hS, hS]
    refine stronger_force (split := split) (th := th) (hok fc) (hok fc') hf _ fun q hq x hx => ?_
    rw [planeThrough_height]
    obtain ⟨w, hw, hle⟩ := OrdinaryRC.hull_height (th := th) (hull q hq hx)
    have h1 := hle.trans (htop q hq w hw)
    have h2 : 0 < 0.0035 / (zt - zl) := div_pos (by norm_num) (by linarith)
    nlinarith
  have ht := hRC.layer_tension (zl := zl) (zt := zt) (fun p hp => (hok fc p hp).sound) hA hmono hcu.le had hlim (fun b hb => (hlayer b hb).ge) (hpt fc) hzt (by
      rw [hfo, ← hS]
      have := (abs_le.1 t1).1
      simp only [Matrix.cons_val_zero]
      linarith)
  have ht' := hRC'.layer_tension (zl := zl) (zt := zt) (fun p hp => (hok fc' p hp).sound) hA hmono hcu'.le had' hlim' (fun b hb => (hlayer b hb).ge) (hpt fc') hzt (by
      rw [hfo', ← hS]
      have := (abs_le.1 t2).1
      simp only [Matrix.cons_val_zero]
      linarith)
  have hpR : ∀ p ∈ normalParts fc shapes, ∀ v ∈ p.polygon.ext, |height th v| ≤ R := by
    intro p hp
    obtain ⟨q, hq, rfl⟩ := List.mem_map.1 hp
    exact hR q hq
  rw [hE] at hb hb' hops hops'
  have key := C82_strength (P := fun f => normalParts f shapes) (R := R) (fun f => rfl) (by norm_num) hRC hRC' (hok fc) (hok fc')
    (single_ids hbars) (single_sizes hbars) hA hmono hpR hlayer hf n n ops ops' b b' hops hb hops' hb' (by
      intro x hx
      have p1 := planeThrough_at th b.eps_a cu (x.x, x.y)
      have p2 := planeThrough_at th b'.eps_a cu' (x.x, x.y)
      simp only [hlayer x hx] at p1 p2
      rw [hplane, hplane', p1, p2]
      exact ⟨ht, ht'⟩)
  have hR0 := (hRC.within (R := R) (hok fc) hpR).2
  have hdiff : |b.n - b'.n| ≤ 2e-2 := by
    have : b.n - b'.n = (b.n - n) - (b'.n - n) := by ring
    rw [this]
    refine (abs_sub _ _).trans ?_
    norm_num at *
    linarith
  have := mul_le_mul_of_nonneg_left hdiff hR0
  linarith

end SC
