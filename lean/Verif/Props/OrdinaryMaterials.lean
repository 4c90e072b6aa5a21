import Verif.Props.OrdinaryRC
import Verif.Props.RCExample
import Verif.Props.Steels

/-! # C73: ordinary reinforced concrete, from the material objects -/

set_option autoImplicit false

namespace SC

open Spec MeasureTheory

variable {lower : String → String}

/-- The design compressive strength of the class. -/
noncomputable def Spec.designConcrete (cls : ConcClass) (a : ConcArgs) : ℝ :=
  match cls with
  | .ec2_2023 => min ((40 / |a.fck|) ^ ((1 : ℝ) / 3)) 1 * |a.fck| / a.gamma_c.getD 1.5
  | _ => factor a.alpha_cc 1 * |a.fck| / factor a.gamma_c 1.5

/-- **C73** (concrete). A concrete of normal strength with default strains and the law `parabolarectangle` has the design
parabola-rectangle with strains 0.002 and 0.0035 and exponent 2. -/
theorem C73_concrete (hl : PyLower lower) (cls : ConcClass) (a : ConcArgs) (b : Built Conc)
    (h : newConcrete lower cls a = some (.ok b)) (hn : a.law = .name "parabolarectangle")
    (hi1 : a.initialStrain = none) (hi2 : a.initialStress = none)
    (h1 : a.eps_c2 = none) (h2 : a.eps_cu2 = none) (h3 : a.n = none) (hf : cls ≠ .ec2_2023 → |a.fck| ≤ 50) :
    b.mat.law = (ParabolaRectangle.new (designConcrete cls a) 0.002 0.0035 2).law := by
  have hmat : ∀ law, Material.create a.density a.initialStrain a.initialStress a.compat law = some (.ok b.mat) → b.mat.law = law := by
    intro law hm
    rw [hi1, hi2, C15_none] at hm
    simp only [Option.some.injEq, Except.ok.injEq] at hm
    rw [← hm]
  cases cls with
  | ec2_2004 =>
    have hf' := hf (by decide)
    obtain ⟨law, hm, hx⟩ := C47_law_ec2_2004 hl a b _ h hn
    simp only [String.reduceEq, false_and, true_and, false_or, or_false] at hx
    obtain ⟨fc, e, u, n, e1, e2, e3, e4, hlaw⟩ := hx
    obtain ⟨-, -, -, -, -, -, -, v1, -, -, -, v2, v3, v4, -⟩ := C47_values_ec2_2004 a b h _ _ _ _ rfl rfl rfl rfl
    rw [v1] at e1
    rw [v2] at e2
    rw [v3] at e3
    rw [v4] at e4
    simp only [Except.ok.injEq, h1, h2, h3, given, Option.getD_none, EC2_2004.eps_c2, EC2_2004.eps_cu2,
      EC2_2004.n_parabolic_rectangular, abs_abs, if_pos hf'] at e1 e2 e3 e4
    rw [hmat law hm, hlaw, ← e1, ← e2, ← e3, ← e4]
    simp only [designConcrete]
    norm_num
  | mc2010 =>
    have hf' := hf (by decide)
    obtain ⟨law, hm, hx⟩ := C47_law_mc2010 hl a b _ h hn
    simp only [String.reduceEq, false_and, true_and, false_or, or_false] at hx
    obtain ⟨fc, e, u, n, e1, e2, e3, e4, hlaw⟩ := hx
    obtain ⟨-, -, -, -, -, -, -, -, v1, -, -, -, v2, v3, v4, -⟩ := C47_values_mc2010 a b h _ _ rfl rfl
    rw [v1] at e1
    rw [v2] at e2
    rw [v3] at e3
    rw [v4] at e4
    simp only [Except.ok.injEq, h1, h2, h3, given, Option.getD_none, MC2010.eps_c2, MC2010.eps_cu2,
      MC2010.n_parabolic_rectangular, abs_abs, if_pos hf'] at e1 e2 e3 e4
    rw [hmat law hm, hlaw, ← e1, ← e2, ← e3, ← e4]
    simp only [designConcrete]
    norm_num
  | ec2_2023 =>
    obtain ⟨law, hm, hx⟩ := C47_law_ec2_2023 hl a b _ h hn
    simp only [String.reduceEq, false_and, true_and, false_or, or_false] at hx
    obtain ⟨fc, e, u, n, e1, e2, e3, e4, hlaw⟩ := hx
    obtain ⟨-, -, -, -, -, -, -, -, -, -, -, -, -, -, v2, v3, v4, v1⟩ := C47_values_ec2_2023 a b h _ _ rfl rfl
    obtain ⟨-, -, g1, g2⟩ := (C47_accepts_2023 hl a hn hi1 hi2).1 ⟨b, h⟩
    rw [v1 g1 g2] at e1
    rw [v2] at e2
    rw [v3] at e3
    rw [v4] at e4
    simp only [Except.ok.injEq, h1, h2, h3, given, Option.getD_none] at e1 e2 e3 e4
    rw [hmat law hm, hlaw, ← e1, ← e2, ← e3, ← e4]
    rfl

/-- **C73** (steel). A steel with the law `elasticperfectlyplastic` has the limit strains `±` design ultimate strain, and between them the
stress of the design diagram; its modulus is at most `Es`. -/
theorem C73_steel (hl : PyLower lower) (cls : SteelClass) (a : SteelArgs) (b : Built Steel)
    (h : newSteel lower cls a = some (.ok b)) (hn : a.law = .name "elasticperfectlyplastic")
    (hi1 : a.initialStrain = none) (hi2 : a.initialStress = none)
    (hgap : designYield a + 1e-6 + 1e-5 * designUltimate cls a ≤ designUltimate cls a) :
    b.mat.law.ult false = (-designUltimate cls a, designUltimate cls a) ∧
    (∀ x, |x| ≤ designUltimate cls a → b.mat.law.stress x = |a.Es| * max (-designYield a) (min x (designYield a))) ∧
    ∀ x ∈ Set.Icc (b.mat.law.ult false).1 (b.mat.law.ult false).2, ∀ y ∈ Set.Icc (b.mat.law.ult false).1 (b.mat.law.ult false).2,
      |b.mat.law.stress x - b.mat.law.stress y| ≤ |a.Es| * |x - y| := by
  obtain ⟨hE, law, hm, hx⟩ := C48_law hl cls a b _ h hn
  simp only [String.reduceEq, false_and, true_and, false_or, or_false] at hx
  obtain ⟨g, gs, hlaw⟩ := hx
  rw [hi1, hi2, C15_none] at hm
  simp only [Option.some.injEq, Except.ok.injEq] at hm
  have hml : b.mat.law = law := by rw [← hm]
  rw [hml, hlaw]
  refine ⟨by simp [ElasticPlastic.law, ElasticPlastic.ult], fun x hx => ?_, ?_⟩
  · exact ep_stress_clamp (⟨|a.Es|, designStrength a a.fyk, 0, some (designUltimate cls a)⟩ : ElasticPlastic) (abs_pos.2 hE)
      (div_nonneg (abs_nonneg _) (by linarith)) rfl rfl hgap (abs_le.1 hx).1 (abs_le.1 hx).2
  exact ep_lipschitz (⟨|a.Es|, designStrength a a.fyk, 0, some (designUltimate cls a)⟩ : ElasticPlastic) (abs_pos.2 hE)
    (div_nonneg (abs_nonneg _) (by linarith)) rfl rfl hgap

/-- One steel: one group. -/
theorem groupBars_single {bars : List Bar} {L : LawObj} (h : ∀ b ∈ bars, b.law = L) :
    groupBars bars = [] ∨ ∃ pts, groupBars bars = [⟨pts, L⟩] := by
  have key : ∀ (l : List Bar) (d : List Group), (∀ b ∈ l, b.law = L) → (d = [] ∨ ∃ pts, d = [⟨pts, L⟩]) →
      (l.foldl insertBar d = [] ∨ ∃ pts, l.foldl insertBar d = [⟨pts, L⟩]) := by
    intro l
    induction l with
    | nil => intro d _ hd; exact hd
    | cons b l ih =>
      intro d hl hd
      refine ih _ (fun b hb => hl b (List.mem_cons_of_mem _ hb)) ?_
      have hb := hl b List.mem_cons_self
      rcases hd with rfl | ⟨pts, rfl⟩
      · right; exact ⟨_, by rw [← hb]; rfl⟩
      · right
        refine ⟨pts ++ [(b.x, b.y, b.area)], ?_⟩
        simp [insertBar, hb]
  exact key bars [] h (Or.inl rfl)

theorem single_sizes {bars : List Bar} {L : LawObj} (h : ∀ b ∈ bars, b.law = L) : EqualSizes (groupBars bars) := by
  intro x hx y hy
  rcases groupBars_single h with e | ⟨pts, e⟩ <;> rw [e] at hx hy
  · simp at hx
  · rw [List.mem_singleton.1 hx, List.mem_singleton.1 hy]

theorem single_ids {bars : List Bar} {L : LawObj} (h : ∀ b ∈ bars, b.law = L) : SameIds (bars.map Bar.law) := by
  intro x hx y hy _
  obtain ⟨b, hb, rfl⟩ := List.mem_map.1 hx
  obtain ⟨c, hc, rfl⟩ := List.mem_map.1 hy
  rw [h b hb, h c hc]

/-- The concrete parts of a section with the parabola-rectangle law of a normal strength concrete. -/
noncomputable def normalParts (fc : ℝ) (shapes : List (Polygon × Set (ℝ × ℝ))) : List ConcretePart :=
  shapes.map fun s => ⟨s.1, s.2, fc, 0.002, 0.0035⟩

/-- The geometry of a reinforced concrete section, seen in the direction `th`: `H` bounds the depth. -/
structure RCGeometry (th : ℝ) (shapes : List (Polygon × Set (ℝ × ℝ))) (bars : List (ℝ × ℝ)) (H : ℝ) : Prop where
  inside : ∀ b ∈ bars, ∃ s ∈ shapes, b ∈ convexHull ℝ {v | v ∈ s.1.ext}
  span : ∀ s ∈ shapes, ∀ v ∈ s.1.ext, ∀ t ∈ shapes, ∀ w ∈ t.1.ext, height th v - height th w ≤ H
  size : 1e-3 ≤ H ∧ H ≤ 1e9
  depth : ∃ b ∈ bars, ∃ s ∈ shapes, ∃ v ∈ s.1.ext, H ≤ 1000 * (height th v - height th b)

theorem hull_low {th : ℝ} {P : Set (ℝ × ℝ)} {x : ℝ × ℝ} (hx : x ∈ convexHull ℝ P) : ∃ v ∈ P, height th v ≤ height th x := by
  have e : ∀ y : ℝ × ℝ, height (th + Real.pi) y = -height th y := by
    intro y
    simp only [height, Real.cos_add_pi, Real.sin_add_pi]
    ring
  obtain ⟨v, hv, h⟩ := OrdinaryRC.hull_height (th := th + Real.pi) hx
  rw [e, e] at h
  exact ⟨v, hv, by linarith⟩

theorem RCGeometry.ordinary {th H fc eu : ℝ} {shapes : List (Polygon × Set (ℝ × ℝ))} {bars : List Bar} {L : LawObj}
    (h : RCGeometry th shapes (bars.map fun b => (b.x, b.y)) H) (hb : ∀ b ∈ bars, b.law = L) (hu : L.law.ult false = (-eu, eu))
    (heu : 0.0035 ≤ eu) (heu' : eu ≤ 0.09) : OrdinaryRC th (normalParts fc shapes) bars 0.0035 eu H := by
  have hcor : ∀ c ∈ (concreteSection (normalParts fc shapes) bars).corners, ∃ s ∈ shapes, c.1 ∈ convexHull ℝ {v | v ∈ s.1.ext} := by
    intro c hc
    simp only [CrossSection.corners, concreteSection, List.mem_append, List.mem_flatMap, List.mem_map, normalParts] at hc
    rcases hc with ⟨_, ⟨_, ⟨s, hs, rfl⟩, rfl⟩, v, hv, rfl⟩ | ⟨_, ⟨b, hb', rfl⟩, rfl⟩
    · exact ⟨s, hs, subset_convexHull ℝ _ hv⟩
    · exact h.inside _ (List.mem_map_of_mem hb')
  refine ⟨?_, ?_, by norm_num, ⟨by linarith, heu'⟩, ?_, ?_, h.size, ?_⟩
  · intro p hp
    obtain ⟨s, -, rfl⟩ := List.mem_map.1 hp
    norm_num [abs_of_pos]
  · intro b hb'
    rw [hb b hb', hu]
    exact ⟨rfl, by simp only; linarith⟩
  · intro b hb'
    obtain ⟨s, hs, hin⟩ := h.inside _ (List.mem_map_of_mem hb')
    exact ⟨_, List.mem_map_of_mem hs, hin⟩
  · intro c hc d hd
    obtain ⟨s, hs, h1⟩ := hcor c hc
    obtain ⟨t, ht, h2⟩ := hcor d hd
    obtain ⟨v, hv, hle⟩ := OrdinaryRC.hull_height (th := th) h1
    obtain ⟨w, hw, hle'⟩ := hull_low (th := th) h2
    linarith [h.span s hs v hv t ht w hw]
  · obtain ⟨_, hb', s, hs, v, hv, hle⟩ := h.depth
    obtain ⟨b, hb'', rfl⟩ := List.mem_map.1 hb'
    exact ⟨b, hb'', _, List.mem_map_of_mem hs, v, hv, hle⟩

/-- **C73** (design). The strength of a section of normal strength concrete with bars of one perfectly plastic steel, from the
arguments of the material constructors and the geometry; `n_min`, `n_max` are the forces under uniform strains `-0.0035` and
`designUltimate`.  Partial: see `C73_strength_partial`. -/
theorem C73_design_partial (hl : PyLower lower) (ccls : ConcClass) (ca : ConcArgs) (c : Built Conc)
    (hc : newConcrete lower ccls ca = some (.ok c)) (hcn : ca.law = .name "parabolarectangle")
    (hci : ca.initialStrain = none ∧ ca.initialStress = none) (hce : ca.eps_c2 = none ∧ ca.eps_cu2 = none ∧ ca.n = none)
    (hcf : ccls ≠ .ec2_2023 → |ca.fck| ≤ 50)
    (scls : SteelClass) (sa : SteelArgs) (s : Built Steel)
    (hs : newSteel lower scls sa = some (.ok s)) (hsn : sa.law = .name "elasticperfectlyplastic")
    (hsi : sa.initialStrain = none ∧ sa.initialStress = none)
    (hgap : designYield sa + 1e-6 + 1e-5 * designUltimate scls sa ≤ designUltimate scls sa)
    (heu : 0.0035 ≤ designUltimate scls sa ∧ designUltimate scls sa ≤ 0.09)
    (split : Polygon → ℝ → ℝ → ShapelyResult) (ms th : ℝ) (lu : Matrix (Fin 3) (Fin 3) ℝ → (Fin 3 → ℝ) → (Fin 3 → ℝ))
    (shapes : List (Polygon × Set (ℝ × ℝ))) (bars : List Bar) (id : ℕ) (hbars : ∀ b ∈ bars, b.law = ⟨id, s.mat.law⟩)
    (henc : ∀ p ∈ shapes, Encloses p.1.ext p.1.ints p.2) (hull : ∀ p ∈ shapes, p.2 ⊆ convexHull ℝ {v | v ∈ p.1.ext})
    (hsplit : ∀ p ∈ shapes,
      SplitsExactly split ((p.1.rotate (-th)).rotate (-Real.pi)) (rotPt (-Real.pi) '' (rotPt (-th) '' p.2)))
    {H H0 : ℝ} (hg0 : RCGeometry 0 shapes (bars.map fun b => (b.x, b.y)) H0)
    (hg : RCGeometry th shapes (bars.map fun b => (b.x, b.y)) H)
    (fc : ℝ) (hfc : fc = designConcrete ccls ca) (δ : ℝ)
    (hδ : δ = (2 * |fc| / 0.002 * (shapes.map fun p => areaMoment 0 0 p.2).sum + |sa.Es| * (bars.map fun b => |b.area|).sum) * H)
    (hsmall : δ ≤ 1e22) (S : CrossSection) (hS : S = concreteSection (normalParts fc shapes) bars)
    (E : Engine) (hE : E = sectionEngine split ((normalParts fc shapes).map ConcretePart.solid) bars ms) :
    (∀ p ∈ normalParts fc shapes, p.law.law = c.mat.law) ∧
    ∃ C : Set ℝ, C.Countable ∧ ∀ (n : ℝ) (ops : List Op), Undisturbed E lu ops .fresh →
      (n < S.forces ![-0.0035, 0, 0] 0 ∨ S.forces ![designUltimate scls sa, 0, 0] 0 < n →
        (bendingStrength E th n (history E lu ops .fresh)).2 = .error .valueError) ∧
      (S.forces ![-0.0035, 0, 0] 0 + δ * 1e-13 < n → n < S.forces ![designUltimate scls sa, 0, 0] 0 - δ * 1e-13 →
        ∃ b : BendingResult, (bendingStrength E th n (history E lu ops .fresh)).2 = .ok b ∧
          (∃ c < 0, b.chi = (c * Real.cos th, c * Real.sin th)) ∧
          S.forces ![b.eps_a, b.chi.1, b.chi.2] = ![b.n, b.m.1, b.m.2] ∧
          S.AtLimit ![b.eps_a, b.chi.1, b.chi.2] ∧ S.Admissible ![b.eps_a, b.chi.1, b.chi.2] ∧
          (n ∉ C → |b.n - n| ≤ 1e-2)) := by
  have hlaw := C73_concrete hl ccls ca c hc hcn hci.1 hci.2 hce.1 hce.2.1 hce.2.2 hcf
  obtain ⟨hult, -, hlip⟩ := C73_steel hl scls sa s hs hsn hsi.1 hsi.2 hgap
  refine ⟨?_, ?_⟩
  · intro p hp
    obtain ⟨q, -, rfl⟩ := List.mem_map.1 hp
    rw [hlaw, hfc]
    rfl
  have hr : OrdinaryRC.axialRigidity (normalParts fc shapes) bars |sa.Es| * H = δ := by
    have e1 : (shapes.map fun p => 2 * |fc| / |(0.002:ℝ)| * areaMoment 0 0 p.2).sum =
        2 * |fc| / 0.002 * (shapes.map fun p => areaMoment 0 0 p.2).sum := by
      rw [List.sum_map_mul_left, abs_of_pos (by norm_num : (0:ℝ) < 0.002)]
    have e2 : (bars.map fun b => |sa.Es| * |b.area|).sum = |sa.Es| * (bars.map fun b => |b.area|).sum := List.sum_map_mul_left ..
    rw [hδ, OrdinaryRC.axialRigidity, e2, ← e1]
    simp only [normalParts, List.map_map, Function.comp_def]
  have hok : ∀ p ∈ normalParts fc shapes, p.Ok split th := by
    intro p hp
    obtain ⟨q, hq, rfl⟩ := List.mem_map.1 hp
    exact ⟨henc q hq, hull q hq, hsplit q hq, by norm_num, by norm_num [abs_of_pos]⟩
  have := C73_strength_partial split ms lu (hg0.ordinary (fc := fc) hbars hult heu.1 heu.2)
    (hg.ordinary (fc := fc) hbars hult heu.1 heu.2) hok (single_ids hbars) (single_sizes hbars) (abs_nonneg sa.Es) (by
      intro b hb
      rw [hbars b hb]
      exact hlip) (by rw [hr]; exact hsmall)
  rw [hr] at this
  rw [hS, hE]
  exact this

end SC
