import Verif.Props.MaximumDesign
import Verif.Props.PolyDesign
import Verif.Props.Material

/-! # C89: prestressed sections, from the arguments of the material constructors -/

set_option autoImplicit false

namespace SC

open Spec MeasureTheory

variable {lower : String → String}

/-- The strain `p` a tendon is given by the arguments of its material: none, the initial strain itself, or the elastic strain of an
initial stress up to the design strength. -/
def Spec.Prestrain (a : SteelArgs) (p : ℝ) : Prop :=
  (a.initialStrain = none ∧ a.initialStress = none ∧ a.compat ≠ some false ∧ p = 0) ∨
  (a.initialStrain = some p ∧ a.initialStress = none) ∨
  (a.initialStrain = none ∧ ∃ σ, a.initialStress = some σ ∧ 1e-12 < σ ∧ σ ≤ designStrength a a.fyk ∧ p = σ / |a.Es|)

/-- The stress of a tendon when the section around it has the strain `x`: that of the design diagram of the steel at the initial strain
and, if the tendon is bonded (which is the default), the strain of the section. -/
noncomputable def Spec.tendonStress (a : SteelArgs) (p x : ℝ) : ℝ :=
  |a.Es| * max (-designYield a) (min (p + if a.compat = some false then 0 else x) (designYield a))

theorem tendonStress_mono (a : SteelArgs) (p : ℝ) : Monotone (tendonStress a p) := by
  intro x y h
  unfold tendonStress
  refine mul_le_mul_of_nonneg_left (max_le_max_left _ (min_le_min_right _ ?_)) (abs_nonneg _)
  split_ifs <;> linarith

theorem tendonStress_lipschitz (a : SteelArgs) (p x y : ℝ) : |tendonStress a p x - tendonStress a p y| ≤ |a.Es| * |x - y| := by
  unfold tendonStress
  rw [← mul_sub, abs_mul, abs_abs]
  refine mul_le_mul_of_nonneg_left ?_ (abs_nonneg _)
  generalize hu : (p + if a.compat = some false then 0 else x) = s
  generalize hv : (p + if a.compat = some false then 0 else y) = t
  have h0 : |s - t| ≤ |x - y| := by
    rw [← hu, ← hv]
    split_ifs
    · simp
    · rw [add_sub_add_left_eq_sub]
  have h1 : |max (-designYield a) (min s (designYield a)) - max (-designYield a) (min t (designYield a))| ≤
      |min s (designYield a) - min t (designYield a)| := by
    simpa using abs_max_sub_max_le_max (-designYield a) (min s (designYield a)) (-designYield a) (min t (designYield a))
  have h2 : |min s (designYield a) - min t (designYield a)| ≤ |s - t| := by
    simpa using abs_min_sub_min_le_max s (designYield a) t (designYield a)
  exact h1.trans (h2.trans h0)

/-- A material with an initial strain. -/
theorem wrapped_law {density p : ℝ} {cmp : Option Bool} {law : Law} {m : Material} {s : Option ℝ}
    (hm : Material.wrap ⟨density, some p, s, cmp, law⟩ = m) :
    (∀ yl, m.law.ult yl = ((law.ult yl).1 - p, (law.ult yl).2 - p)) ∧
    ∀ x, m.law.stress x = law.stress (p + if cmp = some false then 0 else x) := by
  subst hm
  refine ⟨fun yl => rfl, fun x => ?_⟩
  rcases cmp with _ | _ | _ <;> simp [Material.wrap, InitialStrain.law, InitialStrain.stress, InitialStrain.initialStress, add_comm]

/-- Every stress up to the strength of a perfectly plastic steel is reached by the search for the initial strain, at the elastic strain. -/
theorem stress_reached {E fy U σ : ℝ} (hE : 0 < E) (hfy : 0 ≤ fy) (hgap : fy / E + 1e-6 + 1e-5 * U ≤ U) (hσ : 1e-12 < σ) (hs : σ ≤ fy) :
    initialStrainFromStress (ElasticPlastic.mk E fy 0 (some U)).law σ = some (.ok (σ / E)) := by
  set l : ElasticPlastic := ⟨E, fy, 0, some U⟩ with hl
  have hsy : l.eps_sy = fy / E := rfl
  have hy0 : 0 ≤ fy / E := div_nonneg hfy hE.le
  have hU0 : 0 < U := by norm_num at *; linarith
  have hy : fy / E ≤ U := by norm_num at *; linarith
  have hp0 : 0 ≤ σ / E := div_nonneg (by linarith) hE.le
  have hpy : σ / E ≤ fy / E := div_le_div_of_nonneg_right hs hE.le
  have hcl : ∀ x, -U ≤ x → x ≤ U → l.law.stress x = E * max (-(fy / E)) (min x (fy / E)) := fun x a b =>
    ep_stress_clamp l hE hfy rfl rfl hgap a b
  refine C15_one_step l.law σ E hE.ne' ?_ ?_ ?_ (by rwa [abs_of_pos (by linarith)])
  · rw [hcl _ (by linarith) hU0.le, min_eq_left hy0, max_eq_right (by linarith), mul_zero]
  · show l.tangent 0 = E
    have hb : ¬ l.beyond 0 := by
      show ¬ (0 > U ∨ 0 < -U)
      push Not; constructor <;> linarith
    rw [ElasticPlastic.tangent, if_neg hb, hsy, if_pos ⟨by linarith, by linarith⟩]
  · rw [hcl _ (by linarith) (by linarith), min_eq_left hpy, max_eq_right (by linarith)]
    field_simp

/-- **C89** (accepted input). With an initial strain, or a stress up to its strength, a steel is accepted whenever it is without. -/
theorem C89_accepts (hl : PyLower lower) (cls : SteelClass) (a : SteelArgs) (hn : a.law = .name "elasticperfectlyplastic") {p : ℝ}
    (hp : Prestrain a p) (hgap : designYield a + 1e-6 + 1e-5 * designUltimate cls a ≤ designUltimate cls a) :
    (∃ b, newSteel lower cls a = some (.ok b)) ↔ 1 ≤ gammaS a ∧ strainFactorOk cls a ∧ a.Es ≠ 0 := by
  refine ⟨fun ⟨b, hb⟩ => ?_, fun h => ?_⟩
  · obtain ⟨h0, law, -, hx⟩ := C48_law hl cls a b _ hb hn
    simp only [String.reduceEq, false_and, true_and, false_or, or_false] at hx
    exact ⟨hx.1, hx.2.1, h0⟩
  obtain ⟨b, hb⟩ := (C48_accepts_perfect hl cls { a with initialStrain := none, initialStress := none } hn rfl rfl).2 h
  obtain ⟨-, law, hm, hx⟩ := C48_law hl cls _ b _ hb hn
  simp only [String.reduceEq, false_and, true_and, false_or, or_false] at hx
  obtain ⟨-, -, hlaw⟩ := hx
  obtain ⟨-, law', hs, hm'⟩ := newSteel_ok hb
  simp only [C15_none, Option.some.injEq, Except.ok.injEq] at hm hm'
  have hll : law' = law := by
    have := hm'.trans hm.symm
    injection this
  subst hll
  have hboth : ¬ (a.initialStrain.isSome ∧ a.initialStress.isSome) := by
    rcases hp with ⟨q1, q2, -⟩ | ⟨q1, q2⟩ | ⟨q1, σ, q2, -⟩ <;> simp [q1, q2]
  have hsel : (do
      raiseIf (a.initialStrain.isSome ∧ a.initialStress.isSome)
      selectLaw lower "steel" a.law (a.store.methods cls) : Except PyErr Law) = .ok law' := by
    simp only [except_bind_ok, raiseIf_ok]
    exact ⟨(), hboth, hs⟩
  have hcreate : ∃ m, Material.create a.density a.initialStrain a.initialStress a.compat law' = some (.ok m) := by
    rcases hp with ⟨q1, q2, -⟩ | ⟨q1, q2⟩ | ⟨q1, σ, q2, q3, q4, q5⟩
    · rw [q1, q2]; exact ⟨_, C15_none _ _ _⟩
    · rw [q1, q2]
      obtain ⟨m, hm, -⟩ := C15_initial_strain a.density p a.compat law'
      exact ⟨m, hm⟩
    · have hE' : 0 < |a.Es| := abs_pos.2 h.2.2
      have hfy : 0 ≤ designStrength a a.fyk := div_nonneg (abs_nonneg _) (zero_le_one.trans h.1)
      have hone : initialStrainFromStress law' σ = some (.ok (σ / |a.Es|)) := by
        rw [hlaw]
        exact stress_reached hE' hfy hgap q3 q4
      rw [q1, q2]
      exact ⟨_, by simp [Material.create, Material.init, Material.applyInitialStrain, hone]; rfl⟩
  obtain ⟨m, hm⟩ := hcreate
  refine ⟨⟨a.store, m⟩, ?_⟩
  unfold newSteel
  rw [hsel]
  simp only [hm, Option.map_some]

/-- **C89** (tendons). A steel with the law `elasticperfectlyplastic` and an initial strain or stress has the limit strains and the
stresses of its design diagram, both measured from the initial strain; an unbonded tendon keeps its initial stress; and what the
material reports as initial strain and stress is that state. -/
theorem C89_tendon (hl : PyLower lower) (cls : SteelClass) (a : SteelArgs) (b : Built Steel)
    (h : newSteel lower cls a = some (.ok b)) (hn : a.law = .name "elasticperfectlyplastic") {p : ℝ} (hp : Prestrain a p)
    (hgap : designYield a + 1e-6 + 1e-5 * designUltimate cls a ≤ designUltimate cls a)
    (hr : 0 ≤ designUltimate cls a + p ∧ 0 ≤ designUltimate cls a - p) :
    b.mat.law.ult false = (-(designUltimate cls a + p), designUltimate cls a - p) ∧
    (∀ x, -(designUltimate cls a + p) ≤ x → x ≤ designUltimate cls a - p → b.mat.law.stress x = tendonStress a p x) ∧
    (a.initialStrain.isSome ∨ a.initialStress.isSome →
      b.mat.initialStrain = some p ∧ b.mat.initialStress = some (tendonStress a p 0)) := by
  obtain ⟨hE, law, hm, hx⟩ := C48_law hl cls a b _ h hn
  simp only [String.reduceEq, false_and, true_and, false_or, or_false] at hx
  obtain ⟨g, gs, hlaw⟩ := hx
  set U := designUltimate cls a with hU
  set l : ElasticPlastic := ⟨|a.Es|, designStrength a a.fyk, 0, some U⟩ with hldef
  have hE' : 0 < |a.Es| := abs_pos.2 hE
  have hfy : 0 ≤ designStrength a a.fyk := div_nonneg (abs_nonneg _) (by linarith)
  have hy0 : 0 ≤ designYield a := by
    unfold designYield
    exact div_nonneg hfy hE'.le
  have hcl : ∀ x, |x| ≤ U → law.stress x = |a.Es| * max (-designYield a) (min x (designYield a)) := by
    intro x hx
    rw [hlaw]
    exact ep_stress_clamp l hE' hfy rfl rfl hgap (abs_le.1 hx).1 (abs_le.1 hx).2
  have hul : law.ult false = (-U, U) := by rw [hlaw]; simp [ElasticPlastic.law, ElasticPlastic.ult, hldef]
  have hpU : |p| ≤ U := abs_le.2 ⟨by linarith [hr.1], by linarith [hr.2]⟩
  have key : ∀ {d : ℝ} {s : Option ℝ} {m : Material}, Material.wrap ⟨d, some p, s, a.compat, law⟩ = m → m = b.mat →
      b.mat.law.ult false = (-(U + p), U - p) ∧
      (∀ x, -(U + p) ≤ x → x ≤ U - p → b.mat.law.stress x = tendonStress a p x) := by
    intro d s m hw hmb
    subst hmb
    obtain ⟨w1, w2⟩ := wrapped_law hw
    refine ⟨by rw [w1, hul]; rw [neg_add, sub_eq_add_neg (-U)], fun x h1 h2 => ?_⟩
    rw [w2, hcl _ ?_]
    · rfl
    · split_ifs
      · simpa using hpU
      · exact abs_le.2 ⟨by linarith, by linarith⟩
  have hp0 : law.stress p = tendonStress a p 0 := by
    rw [hcl _ hpU, tendonStress]
    simp
  rcases hp with ⟨q1, q2, q3, rfl⟩ | ⟨q1, q2⟩ | ⟨q1, σ, q2, q3, q4, q5⟩
  · rw [q1, q2, C15_none] at hm
    simp only [Option.some.injEq, Except.ok.injEq] at hm
    have hml : b.mat.law = law := by rw [← hm]
    refine ⟨by rw [hml, hul]; simp, fun x h1 h2 => ?_, fun hh => by simp [q1, q2] at hh⟩
    rw [hml, hcl x (abs_le.2 ⟨by linarith, by linarith⟩), tendonStress, if_neg q3, zero_add]
  · rw [q1, q2] at hm
    have hc : Material.create a.density (some p) none a.compat law = some (.ok (Material.wrap ⟨|a.density|, some p, none, a.compat, law⟩)) := rfl
    rw [hc] at hm
    simp only [Option.some.injEq, Except.ok.injEq] at hm
    obtain ⟨k1, k2⟩ := key rfl hm
    refine ⟨k1, k2, fun _ => ?_⟩
    rw [← hm, ← hp0]
    exact ⟨rfl, rfl⟩
  · have hσp : designYield a = designStrength a a.fyk / |a.Es| := rfl
    have hp1 : 0 ≤ p := by rw [q5]; exact div_nonneg (by linarith) hE'.le
    have hpy : p ≤ designYield a := by rw [q5, hσp]; exact div_le_div_of_nonneg_right q4 hE'.le
    have hst : law.stress p = σ := by
      rw [hcl _ hpU, min_eq_left hpy, max_eq_right (by linarith), q5]
      field_simp
    have hone : initialStrainFromStress law σ = some (.ok p) := by
      rw [q5, hlaw]
      exact stress_reached hE' hfy hgap q3 q4
    rw [q1, q2] at hm
    have hc : Material.create a.density none (some σ) a.compat law = some (.ok (Material.wrap ⟨|a.density|, some p, some σ, a.compat, law⟩)) := by
      simp [Material.create, Material.init, Material.applyInitialStrain, hone]
    rw [hc] at hm
    simp only [Option.some.injEq, Except.ok.injEq] at hm
    obtain ⟨k1, k2⟩ := key rfl hm
    refine ⟨k1, k2, fun _ => ?_⟩
    rw [← hm, ← hp0, hst]
    exact ⟨rfl, rfl⟩

/-- The range of the initial strain: an elongation of at least 0.0001 and a shortening of at least that of the crushing of the concrete
are left to the tendons. -/
def Spec.TendonRange (cls : SteelClass) (a : SteelArgs) (p el eu : ℝ) : Prop :=
  el = designUltimate cls a + p ∧ eu = designUltimate cls a - p ∧ 0.0035 ≤ el ∧ 1e-4 ≤ eu ∧ eu ≤ 0.09

/-- What a tendon is to the section. -/
theorem tendon_facts (hl : PyLower lower) {cls : SteelClass} {a : SteelArgs} {b : Built Steel}
    (h : newSteel lower cls a = some (.ok b)) (hn : a.law = .name "elasticperfectlyplastic") {p el eu : ℝ} (hp : Prestrain a p)
    (hgap : designYield a + 1e-6 + 1e-5 * designUltimate cls a ≤ designUltimate cls a) (hr : TendonRange cls a p el eu) :
    b.mat.law.ult false = (-el, eu) ∧ (∀ x ∈ Set.Icc (-el) eu, b.mat.law.stress x = tendonStress a p x) ∧
    (∀ x ∈ Set.Icc (-el) eu, ∀ y ∈ Set.Icc (-el) eu, |b.mat.law.stress x - b.mat.law.stress y| ≤ |a.Es| * |x - y|) ∧
    MonotoneOn b.mat.law.stress (Set.Icc (-el) eu) := by
  obtain ⟨r1, r2, r3, r4, -⟩ := hr
  obtain ⟨t1, t2, -⟩ := C89_tendon hl cls a b h hn hp hgap ⟨by rw [← r1]; norm_num at *; linarith, by rw [← r2]; norm_num at *; linarith⟩
  rw [← r1, ← r2] at t1 t2
  refine ⟨t1, fun x hx => t2 x hx.1 hx.2, fun x hx y hy => ?_, fun x hx y hy hxy => ?_⟩
  · rw [t2 x hx.1 hx.2, t2 y hy.1 hy.2]
    exact tendonStress_lipschitz a p x y
  · rw [t2 x hx.1 hx.2, t2 y hy.1 hy.2]
    exact tendonStress_mono a p hxy

/-- **C89** (design). The strength of a section of normal strength concrete prestressed by tendons of one perfectly plastic steel, from the
arguments of the material constructors, the initial strain or stress and the geometry: the axial force range is that of the uniform
strains at which the concrete crushes and the tendons break, and between them the answer is a strain plane at a limit whose force is the
load and whose moment no admissible plane exceeds.  Partial: as `C73_design_partial`, the load is met up to a countable set of loads, and
answers exist for loads inside the range by `δ · 1e-13`. -/
theorem C89_design_partial (hl : PyLower lower) (ccls : ConcClass) (ca : ConcArgs) (c : Built Conc)
    (hc : newConcrete lower ccls ca = some (.ok c)) (hcn : ca.law = .name "parabolarectangle")
    (hci : ca.initialStrain = none ∧ ca.initialStress = none) (hce : ca.eps_c2 = none ∧ ca.eps_cu2 = none ∧ ca.n = none)
    (hcf : ccls ≠ .ec2_2023 → |ca.fck| ≤ 50)
    (scls : SteelClass) (sa : SteelArgs) (s : Built Steel)
    (hs : newSteel lower scls sa = some (.ok s)) (hsn : sa.law = .name "elasticperfectlyplastic")
    {p el eu : ℝ} (hp : Prestrain sa p)
    (hgap : designYield sa + 1e-6 + 1e-5 * designUltimate scls sa ≤ designUltimate scls sa) (hr : TendonRange scls sa p el eu)
    (split : Polygon → ℝ → ℝ → ShapelyResult) (ms th : ℝ) (lu : Matrix (Fin 3) (Fin 3) ℝ → (Fin 3 → ℝ) → (Fin 3 → ℝ))
    (shapes : List (Polygon × Set (ℝ × ℝ))) (bars : List Bar) (id : ℕ) (hbars : ∀ b ∈ bars, b.law = ⟨id, s.mat.law⟩)
    (hA : ∀ b ∈ bars, 0 ≤ b.area)
    (henc : ∀ p ∈ shapes, Encloses p.1.ext p.1.ints p.2) (hull : ∀ p ∈ shapes, p.2 ⊆ convexHull ℝ {v | v ∈ p.1.ext})
    (hsplit : ∀ p ∈ shapes,
      SplitsExactly split ((p.1.rotate (-th)).rotate (-Real.pi)) (rotPt (-Real.pi) '' (rotPt (-th) '' p.2)))
    {H H0 R : ℝ} (hg0 : RCGeometry 0 shapes (bars.map fun b => (b.x, b.y)) H0)
    (hg : RCGeometry th shapes (bars.map fun b => (b.x, b.y)) H) (hR : ∀ p ∈ shapes, ∀ v ∈ p.1.ext, |height th v| ≤ R)
    (fc : ℝ) (hfc : fc = designConcrete ccls ca) (δ : ℝ)
    (hδ : δ = (2 * |fc| / 0.002 * (shapes.map fun p => areaMoment 0 0 p.2).sum + |sa.Es| * (bars.map fun b => |b.area|).sum) * H)
    (hsmall : δ ≤ 1e22) (S : CrossSection) (hS : S = concreteSection (normalParts fc shapes) bars)
    (E : Engine) (hE : E = sectionEngine split ((normalParts fc shapes).map ConcretePart.solid) bars ms) :
    (∀ q ∈ normalParts fc shapes, q.law.law = c.mat.law) ∧
    (∀ b ∈ bars, b.law.law.ult false = (-el, eu) ∧ ∀ x ∈ Set.Icc (-el) eu, b.law.law.stress x = tendonStress sa p x) ∧
    (limits E .fresh).2 = .ok (S.forces ![-0.0035, 0, 0] 0, S.forces ![eu, 0, 0] 0) ∧
    ∃ C : Set ℝ, C.Countable ∧ ∀ (n : ℝ) (ops : List Op), Undisturbed E lu ops .fresh →
      (n < S.forces ![-0.0035, 0, 0] 0 ∨ S.forces ![eu, 0, 0] 0 < n →
        (bendingStrength E th n (history E lu ops .fresh)).2 = .error .valueError) ∧
      (S.forces ![-0.0035, 0, 0] 0 + δ * 1e-13 < n → n < S.forces ![eu, 0, 0] 0 - δ * 1e-13 →
        ∃ b : BendingResult, (bendingStrength E th n (history E lu ops .fresh)).2 = .ok b ∧
          (∃ c < 0, b.chi = (c * Real.cos th, c * Real.sin th)) ∧
          S.forces ![b.eps_a, b.chi.1, b.chi.2] = ![b.n, b.m.1, b.m.2] ∧
          S.AtLimit ![b.eps_a, b.chi.1, b.chi.2] ∧ S.Admissible ![b.eps_a, b.chi.1, b.chi.2] ∧
          (n ∉ C → |b.n - n| ≤ 1e-2) ∧
          ∀ v c, S.Admissible (planeThrough th 0 v c) → bendingMoment th (S.forces (planeThrough th 0 v c)) ≤
            bendingMoment th ![b.n, b.m.1, b.m.2] + R * |S.forces (planeThrough th 0 v c) 0 - b.n|) := by
  have hlaw := C73_concrete hl ccls ca c hc hcn hci.1 hci.2 hce.1 hce.2.1 hce.2.2 hcf
  obtain ⟨hult, hst, hlip, hmono⟩ := tendon_facts hl hs hsn hp hgap hr
  obtain ⟨-, -, r3, r4, r5⟩ := hr
  have hsh : ∀ q ∈ shapes, (⟨q.1, q.2, fc, 0.002, 0.0035⟩ : ConcretePart).polygon = q.1 ∧
      |(⟨q.1, q.2, fc, 0.002, 0.0035⟩ : ConcretePart).eps_u| = 0.0035 := fun q _ => ⟨rfl, by norm_num [abs_of_pos]⟩
  have o0 : OrdinaryRC 0 (normalParts fc shapes) bars 0.0035 eu H0 :=
    hg0.solids hbars hult (by norm_num) r3 r4 r5 _ hsh
  have o : OrdinaryRC th (normalParts fc shapes) bars 0.0035 eu H :=
    hg.solids hbars hult (by norm_num) r3 r4 r5 _ hsh
  have hrr : OrdinaryRC.axialRigidity (normalParts fc shapes) bars |sa.Es| * H = δ := by
    have e1 : (shapes.map fun p => 2 * |fc| / |(0.002:ℝ)| * areaMoment 0 0 p.2).sum =
        2 * |fc| / 0.002 * (shapes.map fun p => areaMoment 0 0 p.2).sum := by
      rw [List.sum_map_mul_left, abs_of_pos (by norm_num : (0:ℝ) < 0.002)]
    have e2 : (bars.map fun b => |sa.Es| * |b.area|).sum = |sa.Es| * (bars.map fun b => |b.area|).sum := List.sum_map_mul_left ..
    rw [hδ, OrdinaryRC.axialRigidity, e2, ← e1]
    simp only [normalParts, List.map_map, Function.comp_def]
  have hok : ∀ (t : ℝ), (∀ p ∈ shapes,
      SplitsExactly split ((p.1.rotate (-t)).rotate (-Real.pi)) (rotPt (-Real.pi) '' (rotPt (-t) '' p.2))) →
      ∀ p ∈ normalParts fc shapes, p.Ok split t := by
    intro t ht p hp
    obtain ⟨q, hq, rfl⟩ := List.mem_map.1 hp
    exact ⟨henc q hq, hull q hq, ht q hq, by norm_num, by norm_num [abs_of_pos]⟩
  have hstr := C73_strength_partial split ms lu o0 o (hok th hsplit) (single_ids hbars) (single_sizes hbars) (abs_nonneg sa.Es) (by
      intro b hb
      rw [hbars b hb]
      simp only [hult]
      exact hlip) (by rw [hrr]; exact hsmall)
  rw [hrr] at hstr
  refine ⟨?_, fun b hb => by rw [hbars b hb]; exact ⟨hult, hst⟩, ?_, ?_⟩
  · intro q hq
    obtain ⟨q, -, rfl⟩ := List.mem_map.1 hq
    rw [hlaw, hfc]
    rfl
  · rw [hE, hS]
    exact C73_limits split ms o0 (fun q hq => by
      obtain ⟨r, hr, rfl⟩ := List.mem_map.1 hq
      exact ⟨henc r hr, by norm_num [abs_of_pos], by norm_num [abs_of_pos]⟩) (single_ids hbars) (single_sizes hbars)
  subst hS hE
  obtain ⟨C, hC, hmain⟩ := hstr
  refine ⟨C, hC, fun n ops hops => ⟨(hmain n ops hops).1, fun h1 h2 => ?_⟩⟩
  obtain ⟨b, hb, m1, m2, m3, m4, m5⟩ := (hmain n ops hops).2 h1 h2
  refine ⟨b, hb, m1, m2, m3, m4, m5, fun v c ha => ?_⟩
  exact C74_strength o (hok th hsplit) (single_ids hbars) (single_sizes hbars) hA (by
      intro b hb
      rw [hbars b hb]
      simp only [hult]
      exact hmono) (R := R) (by
      intro p hp
      obtain ⟨q, hq, rfl⟩ := List.mem_map.1 hp
      exact hR q hq) n ops b hops hb v c ha

end SC
