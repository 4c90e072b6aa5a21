import Verif.Props.Steels

/-! # C59: the basic materials -/

set_option autoImplicit false

namespace SC

variable {lower : String → String}

theorem createLaw_elastic (hl : PyLower lower) (E : ℝ) (u : Option EpsUArg) :
    createLaw lower mkLaw "elastic" (fun n => if n = "__elastic__" then some (.ok (.elastic E u)) else none) =
      (Elastic.mk? E u).map .elastic := by
  have h1 : constitutiveLaws.lookup (lower "elastic") = some .elastic := by
    rw [hl.fixed _ (by simp)]; simp [constitutiveLaws, List.lookup]
  have h2 : "__" ++ "elastic" ++ "__" = "__elastic__" := by decide
  simp only [createLaw, h1, h2, if_true, mkLaw]

theorem createLaw_plastic (hl : PyLower lower) (E fy Eh : ℝ) (u : Option ℝ) :
    createLaw lower mkLaw "elasticplastic"
      (fun n => if n = "__elasticplastic__" then some (.ok (.plastic E fy Eh u)) else none) =
      (ElasticPlastic.mk? E fy Eh u).map .elasticPlastic := by
  have h1 : constitutiveLaws.lookup (lower "elasticplastic") = some .elasticPlastic := by
    rw [hl.fixed _ (by simp)]; simp [constitutiveLaws, List.lookup]
  have h2 : "__" ++ "elasticplastic" ++ "__" = "__elasticplastic__" := by decide
  simp only [createLaw, h1, h2, if_true, mkLaw]

/-- **C59 (elastic material).** `ElasticMaterial` without initial strain or stress is accepted exactly for a positive modulus and an
admissible ultimate strain, and then its stress is the modulus times the strain and its tangent the modulus at every strain. -/
theorem C59_elastic (hl : PyLower lower) (E density : ℝ) (compat : Option Bool) :
    (0 < E → ∃ m, newElastic lower E density none none none compat = some (.ok m) ∧ m.density = |density| ∧
      (∀ e, m.law.stress e = E * e) ∧ (∀ e, m.law.tangent e = E)) ∧
    (E ≤ 0 → ∀ u, newElastic lower E density u none none compat = some (.error .valueError)) ∧
    (∀ u v, 0 < E → setUltimate u = .ok v → ∃ m, newElastic lower E density (some u) none none compat = some (.ok m) ∧
      m.law.ult false = v ∧ (∀ e, m.law.stress e = E * e)) ∧
    (∀ u e, 0 < E → setUltimate u = .error e → newElastic lower E density (some u) none none compat = some (.error e)) := by
  have hr : raiseIf ((none : Option ℝ).isSome ∧ (none : Option ℝ).isSome) = .ok () := raiseIf_ok.2 (by simp)
  refine ⟨fun h => ?_, fun h u => ?_, fun u v h hv => ?_, fun u e h he => ?_⟩
  · unfold newElastic
    rw [createLaw_elastic hl, hr]
    simp only [Elastic.mk?, if_neg (not_le.2 h), Except.map, bind, Except.bind]
    exact ⟨_, C15_none _ _ _, rfl, fun e => rfl, fun e => rfl⟩
  · unfold newElastic
    rw [createLaw_elastic hl, hr]
    simp only [Elastic.mk?, if_pos h, Except.map, bind, Except.bind]
  · unfold newElastic
    rw [createLaw_elastic hl, hr]
    simp only [Elastic.mk?, if_neg (not_le.2 h), hv, Except.map, bind, Except.bind]
    exact ⟨_, C15_none _ _ _, rfl, fun e => rfl⟩
  · unfold newElastic
    rw [createLaw_elastic hl, hr]
    simp only [Elastic.mk?, if_neg (not_le.2 h), he, Except.map, bind, Except.bind]

example : setUltimate (.pair 0.02 (-0.01)) = .ok (-0.01, 0.02) := by
  unfold setUltimate; norm_num

/-- **C59 (elastic copy).** `ElasticMaterial.from_material(m)` has the density of `m` and, at every strain, the tangent
`m` has at zero strain; it is unlimited (no initial strain is taken over).  If that tangent is not positive, `ValueError`. -/
theorem C59_from_material (hl : PyLower lower) (m : Material) (hd : 0 ≤ m.density) :
    (0 < m.law.tangent 0 → ∃ m', elasticFrom lower m = some (.ok m') ∧ m'.density = m.density ∧
      (∀ e, m'.law.tangent e = m.law.tangent 0) ∧ (∀ e, m'.law.stress e = m.law.tangent 0 * e) ∧
      m'.initialStrain = none) ∧
    (m.law.tangent 0 ≤ 0 → elasticFrom lower m = some (.error .valueError)) := by
  constructor
  · intro h
    obtain ⟨m', h1, h2, h3, h4⟩ := (C59_elastic hl (m.law.tangent 0) m.density none).1 h
    refine ⟨m', h1, by rw [h2, abs_of_nonneg hd], h4, h3, ?_⟩
    unfold newElastic at h1
    rw [createLaw_elastic hl, raiseIf_ok (u := ()) |>.2 (by simp)] at h1
    simp only [Elastic.mk?, if_neg (not_le.2 h), Except.map, bind, Except.bind, C15_none, Option.some.injEq,
      Except.ok.injEq] at h1
    rw [← h1]
  · intro h
    exact (C59_elastic hl (m.law.tangent 0) m.density none).2.1 h none

/-- A copy of a copy is the same material. -/
theorem C59_from_material_idem (hl : PyLower lower) (m m' : Material) (h : elasticFrom lower m = some (.ok m')) :
    elasticFrom lower m' = some (.ok m') := by
  unfold elasticFrom newElastic at h ⊢
  rw [createLaw_elastic hl, raiseIf_ok (u := ()) |>.2 (by simp)] at h
  rw [createLaw_elastic hl, raiseIf_ok (u := ()) |>.2 (by simp)]
  by_cases hE : m.law.tangent 0 ≤ 0
  · simp only [Elastic.mk?, if_pos hE, Except.map, bind, Except.bind] at h
    simp at h
  · simp only [Elastic.mk?, if_neg hE, Except.map, bind, Except.bind, C15_none, Option.some.injEq,
      Except.ok.injEq] at h
    subst h
    have : (AnyLaw.elastic ⟨m.law.tangent 0, none⟩).law.tangent 0 = m.law.tangent 0 := rfl
    simp only [this, Elastic.mk?, if_neg hE, Except.map, bind, Except.bind, C15_none, abs_abs]

/-- **C59 (elastic copies of the library's materials).** The elastic copy of a reinforcement (in any of the three codes, with a
named law and no initial strain) has the modulus of the reinforcement. -/
theorem C59_from_steel (hl : PyLower lower) (cls : SteelClass) (a : SteelArgs) (b : Built Steel) (name : String)
    (h : newSteel lower cls a = some (.ok b)) (hn : a.law = .name name)
    (hi1 : a.initialStrain = none) (hi2 : a.initialStress = none)
    (hu : 0 ≤ Spec.designUltimate cls a) :
    ∃ m', elasticFrom lower b.mat = some (.ok m') ∧ ∀ e, m'.law.stress e = |a.Es| * e := by
  obtain ⟨hE, law, hm, hx⟩ := C48_law hl cls a b name h hn
  rw [hi1, hi2, C15_none] at hm
  simp only [Option.some.injEq, Except.ok.injEq] at hm
  have hml : b.mat.law = law := by rw [← hm]
  have hEp : 0 < |a.Es| := abs_pos.2 hE
  have hplastic : ∀ Eh, 1 ≤ Spec.gammaS a →
      (ElasticPlastic.mk |a.Es| (Spec.designStrength a a.fyk) Eh (some (Spec.designUltimate cls a))).law.tangent 0 = |a.Es| := by
    intro Eh hg
    have hf : 0 ≤ Spec.designStrength a a.fyk / |a.Es| :=
      div_nonneg (div_nonneg (abs_nonneg _) (by linarith)) hEp.le
    have hb : ¬ (ElasticPlastic.mk |a.Es| (Spec.designStrength a a.fyk) Eh
        (some (Spec.designUltimate cls a))).beyond 0 := by
      simp only [ElasticPlastic.beyond]; push Not; constructor <;> linarith
    simp only [ElasticPlastic.law, ElasticPlastic.tangent, ElasticPlastic.eps_sy]
    rw [if_neg hb]
    exact if_pos ⟨neg_nonpos.2 hf, hf⟩
  have ht : b.mat.law.tangent 0 = |a.Es| := by
    rw [hml]
    rcases hx with ⟨-, rfl⟩ | ⟨-, hg, -, rfl⟩ | ⟨-, hg, -, -, rfl⟩
    · rfl
    · exact hplastic _ hg
    · exact hplastic _ hg
  obtain ⟨m', h1, -, -, h4, -⟩ := (C59_from_material hl b.mat (by rw [← hm]; exact abs_nonneg _)).1 (by rw [ht]; exact hEp)
  exact ⟨m', h1, fun e => by rw [h4, ht]⟩

/-- **C59 (elastic-plastic material).** `ElasticPlasticMaterial` carries the elastic-plastic law with the values given (the laws of
C11 apply); it is accepted exactly for a positive modulus. -/
theorem C59_elasticplastic (hl : PyLower lower) (E fy density Eh : ℝ) (u : Option ℝ) (compat : Option Bool) :
    (0 < E → newElasticPlastic lower E fy density Eh u none none compat =
      some (.ok ⟨|density|, none, none, compat, (ElasticPlastic.mk E fy Eh u).law⟩)) ∧
    (E ≤ 0 → newElasticPlastic lower E fy density Eh u none none compat = some (.error .valueError)) := by
  have hr : raiseIf ((none : Option ℝ).isSome ∧ (none : Option ℝ).isSome) = .ok () := raiseIf_ok.2 (by simp)
  constructor
  · intro h
    unfold newElasticPlastic
    rw [createLaw_plastic hl, hr]
    simp only [ElasticPlastic.mk?, gt_iff_lt, if_pos h, Except.map, bind, Except.bind]
    exact C15_none _ _ _
  · intro h
    unfold newElasticPlastic
    rw [createLaw_plastic hl, hr]
    simp only [ElasticPlastic.mk?, gt_iff_lt, if_neg (not_lt.2 h), Except.map, bind, Except.bind]

/-- **C59 (generic material).** `GenericMaterial` carries exactly the law given. -/
theorem C59_generic (density : ℝ) (law : Law) (compat : Option Bool) :
    ∃ m, newGeneric density law none none compat = some (.ok m) ∧ m.law = law ∧ m.density = |density| :=
  ⟨_, rfl, rfl, rfl⟩

end SC
