import Verif.Props.Materials

/-! # C48: reinforcements: the design values and the design law -/

set_option autoImplicit false

namespace SC

/-! ### Specification -/

namespace Spec

/-- A partial factor: the value given unless it is missing or zero. -/
noncomputable def factorOf (x : Option ℝ) (default : ℝ) : ℝ :=
  match x with
  | some v => open Classical in if v = 0 then default else v
  | none => default

/-- The partial factor of the strength. -/
noncomputable def gammaS (a : SteelArgs) : ℝ := factorOf a.gamma_s 1.15

/-- The design value of a strength. -/
noncomputable def designStrength (a : SteelArgs) (f : ℝ) : ℝ := |f| / gammaS a

/-- The design yield strain. -/
noncomputable def designYield (a : SteelArgs) : ℝ := |a.fyk| / gammaS a / |a.Es|

/-- The design ultimate strain: reduced by the strain factor (default 0.9), in EC2 2023 by the strength factor. -/
noncomputable def designUltimate (cls : SteelClass) (a : SteelArgs) : ℝ :=
  match cls with
  | .ec2_2023 => |a.epsuk| / gammaS a
  | _ => |a.epsuk| * factorOf a.gamma_eps 0.9

/-- The strain factor is at most 1 (not an argument of EC2 2023). -/
def strainFactorOk (cls : SteelClass) (a : SteelArgs) : Prop :=
  match cls with
  | .ec2_2023 => True
  | _ => factorOf a.gamma_eps 0.9 ≤ 1

end Spec

open Spec

variable {lower : String → String}

theorem orDefault_factorOf (x : Option ℝ) (d : ℝ) : orDefault x d = factorOf x d := by
  cases x <;> rfl

theorem design_ok {cls : SteelClass} {a : SteelArgs} {f v : ℝ} :
    a.store.design cls |f| = .ok v ↔ 1 ≤ gammaS a ∧ v = designStrength a f := by
  have hg : a.store.gammaS = gammaS a := orDefault_factorOf _ _
  unfold Steel.design
  rw [hg]
  cases cls
  · simp only [EC2_2004.fyd, if_neg (not_lt.2 (abs_nonneg f)), designStrength]
    split_ifs with h
    · simp [not_le.2 h]
    · simp only [Except.ok.injEq, not_lt.1 h, true_and]; exact eq_comm
  · simp only [MC2010.fyd, if_neg (not_lt.2 (abs_nonneg f)), designStrength]
    split_ifs with h
    · simp [not_le.2 h]
    · simp only [Except.ok.injEq, not_lt.1 h, true_and]; exact eq_comm
  · simp only [EC2_2023.fyd, except_bind_ok, raiseIf_ok, except_pure_ok, designStrength]
    constructor
    · rintro ⟨_, -, _, h, rfl⟩; exact ⟨not_lt.1 h, rfl⟩
    · rintro ⟨h, rfl⟩; exact ⟨(), not_lt.2 (abs_nonneg f), (), not_lt.2 h, rfl⟩

theorem epsud_ok {cls : SteelClass} {a : SteelArgs} {v : ℝ} (hg1 : 1 ≤ gammaS a) :
    a.store.epsud cls = .ok v ↔ strainFactorOk cls a ∧ v = designUltimate cls a := by
  have hg : a.store.gammaS = gammaS a := orDefault_factorOf _ _
  have he : a.store.gammaEps = factorOf a.gamma_eps 0.9 := orDefault_factorOf _ _
  have hu : a.store.epsuk = |a.epsuk| := rfl
  unfold Steel.epsud
  cases cls
  · simp only [EC2_2004.epsud, he, hu, if_neg (not_lt.2 (abs_nonneg a.epsuk)), strainFactorOk, designUltimate]
    split_ifs with h
    · simp [not_le.2 h]
    · simp only [Except.ok.injEq, not_lt.1 h, true_and]; exact eq_comm
  · simp only [MC2010.epsud, he, hu, if_neg (not_lt.2 (abs_nonneg a.epsuk)), strainFactorOk, designUltimate]
    split_ifs with h
    · simp [not_le.2 h]
    · simp only [Except.ok.injEq, not_lt.1 h, true_and]; exact eq_comm
  · simp only [EC2_2023.eps_ud, hg, hu, except_bind_ok, raiseIf_ok, except_pure_ok, strainFactorOk, designUltimate, true_and]
    constructor
    · rintro ⟨_, -, _, h, rfl⟩; rfl
    · rintro rfl; exact ⟨(), not_lt.2 (abs_nonneg _), (), not_lt.2 hg1, rfl⟩

theorem epsyd_ok {cls : SteelClass} {a : SteelArgs} {v : ℝ} :
    a.store.epsyd cls = .ok v ↔ 1 ≤ gammaS a ∧ a.Es ≠ 0 ∧ v = designYield a := by
  unfold Steel.epsyd Steel.fyd
  simp only [except_bind_ok, pyDiv_eq_ok]
  constructor
  · rintro ⟨f, hf, h1, h2⟩
    obtain ⟨g, rfl⟩ := design_ok.1 hf
    exact ⟨g, abs_ne_zero.1 h1, h2.symm ▸ rfl⟩
  · rintro ⟨g, h1, rfl⟩
    exact ⟨designStrength a a.fyk, design_ok.2 ⟨g, rfl⟩, abs_ne_zero.2 h1, rfl⟩

/-- **C48 (design values).** The design strengths exist exactly for a strength factor of at least 1 (a missing or zero one
is 1.15) and are then the magnitudes divided by the factor; the design yield strain is the design strength over the modulus; the
design ultimate strain is as specified. -/
theorem C48_design (cls : SteelClass) (a : SteelArgs) :
    (1 ≤ gammaS a → a.store.fyd cls = .ok (|a.fyk| / gammaS a) ∧ a.store.ftd cls = .ok (|a.ftk| / gammaS a) ∧
      (a.Es ≠ 0 → a.store.epsyd cls = .ok (|a.fyk| / gammaS a / |a.Es|)) ∧
      (strainFactorOk cls a → a.store.epsud cls = .ok (designUltimate cls a))) ∧
    (gammaS a < 1 → a.store.fyd cls = .error .valueError ∧ a.store.ftd cls = .error .valueError ∧
      a.store.epsyd cls = .error .valueError) := by
  constructor
  · intro h
    exact ⟨design_ok.2 ⟨h, rfl⟩, design_ok.2 ⟨h, rfl⟩, fun hE => epsyd_ok.2 ⟨h, hE, rfl⟩,
      fun hs => (epsud_ok h).2 ⟨hs, rfl⟩⟩
  · intro h
    have key : ∀ f : ℝ, a.store.design cls |f| = .error .valueError := by
      intro f
      have hg : a.store.gammaS = gammaS a := orDefault_factorOf _ _
      unfold Steel.design
      rw [hg]
      cases cls
      · simp [EC2_2004.fyd, h]
      · simp [MC2010.fyd, h]
      · simp only [EC2_2023.fyd, except_bind_error, raiseIf_error]
        exact .inr ⟨(), raiseIf_ok.2 (not_lt.2 (abs_nonneg f)), .inl ⟨h, trivial⟩⟩
    refine ⟨key _, key _, ?_⟩
    unfold Steel.epsyd Steel.fyd
    rw [show a.store.design cls a.store.fyk = .error .valueError from key _]
    rfl

/-! ### Construction -/

theorem newSteel_ok {cls : SteelClass} {a : SteelArgs} {b : Built Steel}
    (h : newSteel lower cls a = some (.ok b)) :
    b.own = a.store ∧ ∃ law, selectLaw lower "steel" a.law (a.store.methods cls) = .ok law ∧
        Material.create a.density a.initialStrain a.initialStress a.compat law = some (.ok b.mat) := by
  unfold newSteel at h
  cases hx : (do
      raiseIf (a.initialStrain.isSome ∧ a.initialStress.isSome)
      selectLaw lower "steel" a.law (a.store.methods cls) : Except PyErr Law) with
  | error e => rw [hx] at h; simp at h
  | ok law =>
    rw [hx] at h
    simp only [except_bind_ok] at hx
    obtain ⟨_, -, h3⟩ := hx
    simp only [Option.map_eq_some_iff] at h
    obtain ⟨r, h4, h5⟩ := h
    cases r with
    | error e => simp at h5
    | ok m =>
      simp only [Except.ok.injEq] at h5
      subst h5
      exact ⟨rfl, law, h3, h4⟩

theorem newSteel_mk {cls : SteelClass} {a : SteelArgs} {law : Law} (h1 : a.initialStrain = none)
    (h2 : a.initialStress = none) (h4 : selectLaw lower "steel" a.law (a.store.methods cls) = .ok law) :
    newSteel lower cls a = some (.ok ⟨a.store, ⟨|a.density|, none, none, a.compat, law⟩⟩) := by
  have : (do
      raiseIf (a.initialStrain.isSome ∧ a.initialStress.isSome)
      selectLaw lower "steel" a.law (a.store.methods cls) : Except PyErr Law) = .ok law := by
    simp only [except_bind_ok, raiseIf_ok]
    exact ⟨(), by simp [h1], h4⟩
  unfold newSteel
  rw [this, h1, h2]
  rfl

theorem plasticKw_ok {cls : SteelClass} {a : SteelArgs} {kw : LawKw} :
    a.store.plasticKw cls = .ok kw ↔
      1 ≤ gammaS a ∧ strainFactorOk cls a ∧ a.Es ≠ 0 ∧ designUltimate cls a ≠ designYield a ∧
      kw = .plastic |a.Es| (designStrength a a.fyk)
        ((designStrength a a.ftk - designStrength a a.fyk) / (designUltimate cls a - designYield a))
        (some (designUltimate cls a)) := by
  unfold Steel.plasticKw Steel.ftd Steel.fyd
  simp only [except_bind_ok, except_pure_ok, pyDiv_eq_ok]
  constructor
  · rintro ⟨ft, h1, fy, h2, eu, h3, ey, h4, Eh, ⟨h5, rfl⟩, rfl⟩
    obtain ⟨g, rfl⟩ := design_ok.1 h1
    obtain ⟨-, rfl⟩ := design_ok.1 h2
    obtain ⟨g2, rfl⟩ := (epsud_ok g).1 h3
    obtain ⟨-, g3, rfl⟩ := epsyd_ok.1 h4
    exact ⟨g, g2, g3, fun h => h5 (sub_eq_zero.2 h), rfl⟩
  · rintro ⟨g, g2, g3, h5, rfl⟩
    exact ⟨_, design_ok.2 ⟨g, rfl⟩, _, design_ok.2 ⟨g, rfl⟩, _, (epsud_ok g).2 ⟨g2, rfl⟩, _,
      epsyd_ok.2 ⟨g, g3, rfl⟩, _, ⟨sub_ne_zero.2 h5, rfl⟩, rfl⟩

/-- **C48 (accepted input).** A reinforcement with the default law and without initial strain or stress is accepted
exactly for a strength factor of at least 1, a strain factor of at most 1, a modulus different from zero and a design ultimate
strain different from the design yield strain. -/
theorem C48_accepts (hl : PyLower lower) (cls : SteelClass) (a : SteelArgs) (hlaw : a.law = .name "elasticplastic")
    (h1 : a.initialStrain = none) (h2 : a.initialStress = none) :
    (∃ b, newSteel lower cls a = some (.ok b)) ↔
      1 ≤ gammaS a ∧ strainFactorOk cls a ∧ a.Es ≠ 0 ∧ designUltimate cls a ≠ designYield a := by
  have hlook : constitutiveLaws.lookup (lower "elasticplastic") = some .elasticPlastic := by
    rw [hl.fixed _ (by simp)]; simp [constitutiveLaws, List.lookup]
  have hname : "__" ++ "elasticplastic" ++ "__" = "__elasticplastic__" := by decide
  constructor
  · rintro ⟨b, hb⟩
    obtain ⟨-, law, hs, -⟩ := newSteel_ok hb
    rw [hlaw] at hs
    obtain ⟨c, kw, l, -, h4, -⟩ := selectLaw_name hs
    rw [hname] at h4
    simp only [Steel.methods, String.reduceEq, if_true, if_false, Option.some.injEq] at h4
    obtain ⟨g1, g2, g3, g4, -⟩ := plasticKw_ok.1 h4
    exact ⟨g1, g2, g3, g4⟩
  · rintro ⟨g1, g2, g3, g4⟩
    have hkw := plasticKw_ok.2 ⟨g1, g2, g3, g4, rfl⟩
    have hs : ∃ l, selectLaw lower "steel" a.law (a.store.methods cls) = .ok l := by
      rw [hlaw]
      refine ⟨_, selectLaw_name_mk hlook (c := .elasticPlastic) (l := .elasticPlastic ⟨|a.Es|, designStrength a a.fyk,
          (designStrength a a.ftk - designStrength a a.fyk) / (designUltimate cls a - designYield a),
          some (designUltimate cls a)⟩) (kw := .plastic |a.Es| (designStrength a a.fyk)
          ((designStrength a a.ftk - designStrength a a.fyk) / (designUltimate cls a - designYield a))
          (some (designUltimate cls a))) ?_ ?_ (by simp [AnyLaw.materials])⟩
      · rw [hname]
        simp only [Steel.methods, String.reduceEq, if_true, if_false, hkw]
      · simp [mkLaw, ElasticPlastic.mk?, abs_pos.2 g3, Except.map]
    obtain ⟨l, hs⟩ := hs
    exact ⟨_, newSteel_mk h1 h2 hs⟩

/-- **C48 (accepted input, perfectly plastic).** With the law without hardening the design ultimate strain does not matter. -/
theorem C48_accepts_perfect (hl : PyLower lower) (cls : SteelClass) (a : SteelArgs) (hlaw : a.law = .name "elasticperfectlyplastic")
    (h1 : a.initialStrain = none) (h2 : a.initialStress = none) :
    (∃ b, newSteel lower cls a = some (.ok b)) ↔ 1 ≤ gammaS a ∧ strainFactorOk cls a ∧ a.Es ≠ 0 := by
  have hlook : constitutiveLaws.lookup (lower "elasticperfectlyplastic") = some .elasticPlastic := by
    rw [hl.fixed _ (by simp)]; simp [constitutiveLaws, List.lookup]
  have hname : "__" ++ "elasticperfectlyplastic" ++ "__" = "__elasticperfectlyplastic__" := by decide
  constructor
  · rintro ⟨b, hb⟩
    obtain ⟨-, law, hs, -⟩ := newSteel_ok hb
    rw [hlaw] at hs
    obtain ⟨c, kw, l, h3, h4, h5, -⟩ := selectLaw_name hs
    rw [hlook] at h3
    simp only [Option.some.injEq] at h3
    subst h3
    rw [hname] at h4
    simp only [Steel.methods, String.reduceEq, if_true, if_false, Option.some.injEq, except_bind_ok, except_pure_ok] at h4
    obtain ⟨fy, e1, eu, e2, rfl⟩ := h4
    obtain ⟨g, -⟩ := design_ok.1 e1
    obtain ⟨gs, -⟩ := (epsud_ok g).1 e2
    refine ⟨g, gs, fun h0 => ?_⟩
    simp [mkLaw, ElasticPlastic.mk?, SteelArgs.store, h0, Except.map] at h5
  · rintro ⟨g1, g2, g3⟩
    have hs : ∃ l, selectLaw lower "steel" a.law (a.store.methods cls) = .ok l := by
      rw [hlaw]
      refine ⟨_, selectLaw_name_mk hlook (c := .elasticPlastic) (l := .elasticPlastic ⟨|a.Es|, designStrength a a.fyk, 0,
          some (designUltimate cls a)⟩) (kw := .plastic |a.Es| (designStrength a a.fyk) 0 (some (designUltimate cls a))) ?_ ?_
          (by simp [AnyLaw.materials])⟩
      · rw [hname]
        simp only [Steel.methods, String.reduceEq, if_true, if_false, Option.some.injEq, except_bind_ok, except_pure_ok]
        exact ⟨_, design_ok.2 ⟨g1, rfl⟩, _, (epsud_ok g1).2 ⟨g2, rfl⟩, rfl⟩
      · simp [mkLaw, ElasticPlastic.mk?, abs_pos.2 g3, Except.map]
    obtain ⟨l, hs⟩ := hs
    exact ⟨_, newSteel_mk h1 h2 hs⟩

/-- **C48 (laws).** A reinforcement constructed with a law name carries the law of that name with the design values: the
elastic one with the modulus, the perfectly plastic and the hardening one with modulus, design yield strength and design ultimate
strain, the latter with the modulus of the line from the yield point to the ultimate point; other names are not accepted. -/
theorem C48_law (hl : PyLower lower) (cls : SteelClass) (a : SteelArgs) (b : Built Steel) (name : String)
    (h : newSteel lower cls a = some (.ok b)) (hn : a.law = .name name) :
    a.Es ≠ 0 ∧ ∃ law, Material.create a.density a.initialStrain a.initialStress a.compat law = some (.ok b.mat) ∧
      ((name = "elastic" ∧ law = (Elastic.mk |a.Es| none).law) ∨
       (name = "elasticperfectlyplastic" ∧ 1 ≤ gammaS a ∧ strainFactorOk cls a ∧
          law = (ElasticPlastic.mk |a.Es| (designStrength a a.fyk) 0 (some (designUltimate cls a))).law) ∨
       (name = "elasticplastic" ∧ 1 ≤ gammaS a ∧ strainFactorOk cls a ∧ designUltimate cls a ≠ designYield a ∧
          law = (ElasticPlastic.mk |a.Es| (designStrength a a.fyk)
            ((designStrength a a.ftk - designStrength a a.fyk) / (designUltimate cls a - designYield a))
            (some (designUltimate cls a))).law)) := by
  obtain ⟨ho, law, hs, hm⟩ := newSteel_ok h
  rw [hn] at hs
  obtain ⟨c, kw, l, h1, h2, h3, -, h5⟩ := selectLaw_name hs
  have hfix : ∀ s : String, s ∈ lawNames → lower s = s := fun s hs => hl.fixed _ (by
    simp only [lawNames, List.mem_cons, List.not_mem_nil, or_false] at hs
    simp only [List.mem_cons, List.not_mem_nil, or_false]
    tauto)
  simp only [Steel.methods] at h2
  split_ifs at h2 with g1 g2 g3
  · have hname : name = "elastic" := dunder_inj g1
    subst hname
    rw [hfix _ (by simp [lawNames])] at h1
    simp only [constitutiveLaws, List.lookup, String.reduceBEq, Option.some.injEq] at h1
    simp only [Option.some.injEq, Except.ok.injEq] at h2
    subst h1 h2
    simp only [mkLaw, except_map_ok, Elastic.mk?] at h3
    obtain ⟨l', h3, rfl⟩ := h3
    split_ifs at h3 with hE
    cases h3
    have hE' : a.Es ≠ 0 := abs_pos.1 (not_le.1 hE)
    exact ⟨hE', law, hm, .inl ⟨rfl, h5⟩⟩
  · have hname : name = "elasticperfectlyplastic" := dunder_inj g2
    subst hname
    rw [hfix _ (by simp [lawNames])] at h1
    simp only [constitutiveLaws, List.lookup, String.reduceBEq, Option.some.injEq] at h1
    simp only [Option.some.injEq, except_bind_ok, except_pure_ok] at h2
    obtain ⟨fy, hfy, eu, heu, rfl⟩ := h2
    obtain ⟨g, rfl⟩ := design_ok.1 hfy
    obtain ⟨gs, rfl⟩ := (epsud_ok g).1 heu
    subst h1
    simp only [mkLaw, except_map_ok, ElasticPlastic.mk?] at h3
    obtain ⟨l', h3, rfl⟩ := h3
    split_ifs at h3 with hE
    cases h3
    have hE' : a.Es ≠ 0 := abs_pos.1 hE
    exact ⟨hE', law, hm, .inr (.inl ⟨rfl, g, gs, h5⟩)⟩
  · have hname : name = "elasticplastic" := dunder_inj g3
    subst hname
    rw [hfix _ (by simp [lawNames])] at h1
    simp only [constitutiveLaws, List.lookup, String.reduceBEq, Option.some.injEq] at h1
    simp only [Option.some.injEq] at h2
    obtain ⟨g, gs, hE', hne, rfl⟩ := plasticKw_ok.1 h2
    subst h1
    simp only [mkLaw, except_map_ok, ElasticPlastic.mk?] at h3
    obtain ⟨l', h3, rfl⟩ := h3
    split_ifs at h3 with hE
    cases h3
    exact ⟨hE', law, hm, .inr (.inr ⟨rfl, g, gs, hne, h5⟩)⟩

/-! ### The curve -/

/-- The law on both branches, without assumption on the sign of the hardening modulus, as long as the stress at the
ultimate strain is not negative. -/
theorem ep_core {E fy Eh u x : ℝ} (hE : 0 < E) (hfy : 0 ≤ fy) (hyu : fy / E ≤ u) (hft : 0 ≤ fy + Eh * (u - fy / E))
    (h0 : 0 ≤ x) :
    (x ≤ fy / E → (ElasticPlastic.mk E fy Eh (some u)).core x = E * x ∧
      (ElasticPlastic.mk E fy Eh (some u)).core (-x) = -(E * x)) ∧
    (fy / E ≤ x → x ≤ u → (ElasticPlastic.mk E fy Eh (some u)).core x = fy + Eh * (x - fy / E) ∧
      (ElasticPlastic.mk E fy Eh (some u)).core (-x) = -(fy + Eh * (x - fy / E))) ∧
    (u < x → (ElasticPlastic.mk E fy Eh (some u)).core x = 0 ∧ (ElasticPlastic.mk E fy Eh (some u)).core (-x) = 0) := by
  have hy : E * (fy / E) = fy := by field_simp
  have hy0 : 0 ≤ fy / E := div_nonneg hfy hE.le
  have hd : fy * (1 - Eh / E) = fy - Eh * (fy / E) := by field_simp
  refine ⟨fun h1 => ?_, fun h1 h2 => ?_, fun h1 => ?_⟩
  · have h2 : E * x ≤ fy := by rw [← hy]; exact mul_le_mul_of_nonneg_left h1 hE.le
    have h3 : 0 ≤ E * x := by positivity
    constructor
    · unfold ElasticPlastic.core ElasticPlastic.beyond
      simp only
      rw [if_neg (by linarith : ¬ E * x < -fy), if_neg (by linarith : ¬ E * x > fy),
        if_neg (by push Not; constructor <;> linarith)]
    · unfold ElasticPlastic.core ElasticPlastic.beyond
      simp only
      rw [if_neg (by linarith : ¬ E * -x < -fy), if_neg (by linarith : ¬ E * -x > fy),
        if_neg (by push Not; constructor <;> linarith)]
      ring
  · have h3 : fy ≤ E * x := by rw [← hy]; exact mul_le_mul_of_nonneg_left h1 hE.le
    have hpos : 0 ≤ fy + Eh * (x - fy / E) := by
      rcases le_total 0 Eh with c | c
      · have := mul_nonneg c (sub_nonneg.2 h1); linarith
      · nlinarith [mul_nonneg (neg_nonneg.2 c) (sub_nonneg.2 h2)]
    constructor
    · unfold ElasticPlastic.core ElasticPlastic.beyond ElasticPlastic.deltaSig
      simp only
      rw [if_neg (by linarith : ¬ E * x < -fy), if_neg (by push Not; constructor <;> linarith : ¬ (x > u ∨ x < -u)), hd]
      rcases h3.eq_or_lt with c | c
      · rw [if_neg (by linarith)]
        have : x = fy / E := by rw [eq_div_iff hE.ne']; linarith
        rw [← this, ← c]; ring
      · rw [if_pos c]; ring
    · unfold ElasticPlastic.core ElasticPlastic.beyond ElasticPlastic.deltaSig
      simp only
      rw [if_neg (by push Not; constructor <;> linarith : ¬ (-x > u ∨ -x < -u)), hd]
      rcases h3.eq_or_lt with c | c
      · rw [if_neg (by linarith : ¬ E * -x < -fy), if_neg (by linarith)]
        have : x = fy / E := by rw [eq_div_iff hE.ne']; linarith
        rw [← this]; nlinarith
      · rw [if_pos (by linarith : E * -x < -fy), if_neg (by linarith)]; ring
  · constructor
    · unfold ElasticPlastic.core ElasticPlastic.beyond
      simp only
      rw [if_pos (.inl h1)]
    · unfold ElasticPlastic.core ElasticPlastic.beyond
      simp only
      rw [if_pos (.inr (by linarith))]

/-- The tolerance with which a strain is taken for the ultimate strain `u`. -/
noncomputable def Spec.tol (u : ℝ) : ℝ := 1e-6 + 1e-5 * u

/-- **C48 (design points).** The hardening law of a reinforcement reaches, on both sides, exactly the design yield strength at
the design yield strain and the design ultimate strength at the design ultimate strain, is straight from the origin to the first
and from the first to the second point, and vanishes beyond; all strains within the tolerance of the ultimate strain are taken for
it.  Holds for every reinforcement of the three codes whose design yield strain is below the ultimate one by more than the
tolerance; no assumption on `ftk ≥ fyk`. -/
theorem C48_curve (hl : PyLower lower) (cls : SteelClass) (a : SteelArgs) (b : Built Steel)
    (h : newSteel lower cls a = some (.ok b)) (hn : a.law = .name "elasticplastic")
    (hi1 : a.initialStrain = none) (hi2 : a.initialStress = none)
    (fy ft ey eu : ℝ) (hfy : a.store.fyd cls = .ok fy) (hft : a.store.ftd cls = .ok ft)
    (hey : a.store.epsyd cls = .ok ey) (heu : a.store.epsud cls = .ok eu)
    (hu : 2e-6 ≤ eu) (hgap : ey + tol eu < eu) :
    b.mat.law.stress ey = fy ∧ b.mat.law.stress (-ey) = -fy ∧
    b.mat.law.stress eu = ft ∧ b.mat.law.stress (-eu) = -ft ∧
    ∀ e, 0 ≤ e →
      (e ≤ ey → b.mat.law.stress e = |a.Es| * e ∧ b.mat.law.stress (-e) = -(|a.Es| * e)) ∧
      (ey ≤ e → e + tol eu < eu → b.mat.law.stress e = fy + (ft - fy) * ((e - ey) / (eu - ey)) ∧
        b.mat.law.stress (-e) = -(fy + (ft - fy) * ((e - ey) / (eu - ey)))) ∧
      (|e - eu| ≤ tol eu → b.mat.law.stress e = ft ∧ b.mat.law.stress (-e) = -ft) ∧
      (eu + tol eu < e → b.mat.law.stress e = 0 ∧ b.mat.law.stress (-e) = 0) := by
  obtain ⟨hE, law, hm, hx⟩ := C48_law hl cls a b _ h hn
  simp only [String.reduceEq, false_and, true_and, false_or] at hx
  obtain ⟨g, gs, hne, hlaw⟩ := hx
  obtain ⟨-, rfl⟩ := design_ok.1 hfy
  obtain ⟨-, rfl⟩ := design_ok.1 hft
  obtain ⟨-, -, rfl⟩ := epsyd_ok.1 hey
  obtain ⟨-, rfl⟩ := (epsud_ok g).1 heu
  rw [hi1, hi2, C15_none] at hm
  simp only [Option.some.injEq, Except.ok.injEq] at hm
  have hml : b.mat.law = law := by rw [← hm]
  rw [hml, hlaw]
  have hEp : 0 < |a.Es| := abs_pos.2 hE
  have hfy0 : 0 ≤ designStrength a a.fyk := div_nonneg (abs_nonneg _) (by linarith)
  have hft0 : 0 ≤ designStrength a a.ftk := div_nonneg (abs_nonneg _) (by linarith)
  have hyd : designYield a = designStrength a a.fyk / |a.Es| := rfl
  rw [hyd] at hgap hne ⊢
  generalize designUltimate cls a = u at *
  generalize designStrength a a.fyk = fy at *
  generalize designStrength a a.ftk = ft at *
  generalize |a.Es| = E at *
  have hy0 : 0 ≤ fy / E := div_nonneg hfy0 hEp.le
  unfold tol at hgap ⊢
  have hyu : fy / E < u := by linarith
  have hd : 0 < u - fy / E := by linarith
  generalize hEh : (ft - fy) / (u - fy / E) = Eh
  have hline : ∀ e, Eh * (e - fy / E) = (ft - fy) * ((e - fy / E) / (u - fy / E)) := by
    intro e; rw [← hEh]; ring
  have hend : fy + Eh * (u - fy / E) = ft := by
    rw [hline, div_self hd.ne']; ring
  have hcore := fun x hx => ep_core (E := E) (fy := fy) (Eh := Eh) (u := u) (x := x) hEp hfy0 hyu.le (by rw [hend]; exact hft0) hx
  have hstress : ∀ e, (ElasticPlastic.mk E fy Eh (some u)).law.stress e =
      (ElasticPlastic.mk E fy Eh (some u)).core (snap (-u, u) e) := fun e => rfl
  have hu0 : 0 < u := by linarith
  -- strains clear of the limit are not moved
  have hsnap : ∀ e, 0 ≤ e → 1e-6 + 1e-5 * u < |e - u| → snap (-u, u) e = e := by
    intro e h0 hc
    refine snap_of_clear ?_ ?_
    · unfold Clear
      rw [abs_neg, abs_of_pos hu0, sub_neg_eq_add, abs_of_pos (by linarith)]
      linarith
    · unfold Clear
      rw [abs_of_pos hu0]; exact hc
  have hsnapu : ∀ e, |e - u| ≤ 1e-6 + 1e-5 * u → snap (-u, u) e = u := by
    intro e hc
    unfold snap
    rw [if_pos]
    by_contra hn
    rw [not_isclose_iff] at hn
    unfold Clear at hn
    simp only [abs_of_pos hu0] at hn
    linarith
  have hneg : ∀ e, snap (-u, u) (-e) = -snap (-u, u) e := fun e => snap_sym hu e
  have main : ∀ e, 0 ≤ e →
      (e ≤ fy / E → (ElasticPlastic.mk E fy Eh (some u)).law.stress e = E * e ∧
        (ElasticPlastic.mk E fy Eh (some u)).law.stress (-e) = -(E * e)) ∧
      (fy / E ≤ e → e + (1e-6 + 1e-5 * u) < u →
        (ElasticPlastic.mk E fy Eh (some u)).law.stress e = fy + (ft - fy) * ((e - fy / E) / (u - fy / E)) ∧
        (ElasticPlastic.mk E fy Eh (some u)).law.stress (-e) = -(fy + (ft - fy) * ((e - fy / E) / (u - fy / E)))) ∧
      (|e - u| ≤ 1e-6 + 1e-5 * u → (ElasticPlastic.mk E fy Eh (some u)).law.stress e = ft ∧
        (ElasticPlastic.mk E fy Eh (some u)).law.stress (-e) = -ft) ∧
      (u + (1e-6 + 1e-5 * u) < e → (ElasticPlastic.mk E fy Eh (some u)).law.stress e = 0 ∧
        (ElasticPlastic.mk E fy Eh (some u)).law.stress (-e) = 0) := by
    intro e h0
    refine ⟨fun h1 => ?_, fun h1 h2 => ?_, fun h1 => ?_, fun h1 => ?_⟩
    · rw [hstress, hstress, hneg, hsnap e h0 (by rw [abs_sub_comm, abs_of_pos (by linarith)]; linarith)]
      exact (hcore e h0).1 h1
    · rw [hstress, hstress, hneg, hsnap e h0 (by rw [abs_sub_comm, abs_of_pos (by linarith)]; linarith), ← hline]
      exact (hcore e h0).2.1 h1 (by linarith)
    · rw [hstress, hstress, hneg, hsnapu e h1, ← hend]
      exact (hcore u hu0.le).2.1 hyu.le le_rfl
    · rw [hstress, hstress, hneg, hsnap e h0 (by rw [abs_of_pos (by linarith)]; linarith)]
      exact (hcore e h0).2.2 (by linarith)
  have hEy : E * (fy / E) = fy := by field_simp
  obtain ⟨y1, y2⟩ := (main _ hy0).1 le_rfl
  obtain ⟨u1, u2⟩ := (main u hu0.le).2.2.1 (by simp; positivity)
  rw [hEy] at y1 y2
  exact ⟨y1, y2, u1, u2, main⟩

/-- Arguments of a B500 (or another) steel, everything else at its default. -/
noncomputable def steelArgs (fyk Es ftk epsuk : ℝ) : SteelArgs where
  fyk := fyk
  Es := Es
  ftk := ftk
  epsuk := epsuk
  density := 7850
  gamma_s := none
  gamma_eps := none
  law := .name "elasticplastic"
  initialStrain := none
  initialStress := none
  compat := none

/-- Non-vacuity of `C48_curve`: a B500 B in the three codes meets all hypotheses. -/
example (hl : PyLower lower) (cls : SteelClass) :
    ∃ b fy ft ey eu, newSteel lower cls (steelArgs 500 200000 540 0.05) = some (.ok b) ∧
      (steelArgs 500 200000 540 0.05).store.fyd cls = .ok fy ∧ (steelArgs 500 200000 540 0.05).store.ftd cls = .ok ft ∧
      (steelArgs 500 200000 540 0.05).store.epsyd cls = .ok ey ∧ (steelArgs 500 200000 540 0.05).store.epsud cls = .ok eu ∧
      2e-6 ≤ eu ∧ ey + tol eu < eu := by
  have hg : gammaS (steelArgs 500 200000 540 0.05) = 1.15 := rfl
  have g : 1 ≤ gammaS (steelArgs 500 200000 540 0.05) := by rw [hg]; norm_num
  have gs : strainFactorOk cls (steelArgs 500 200000 540 0.05) := by
    cases cls <;> simp [strainFactorOk, steelArgs, factorOf] <;> norm_num
  have hE : (steelArgs 500 200000 540 0.05).Es ≠ 0 := by norm_num [steelArgs]
  have hy : designYield (steelArgs 500 200000 540 0.05) = 500 / 1.15 / 200000 := by
    simp [designYield, steelArgs, gammaS, factorOf]
  have hu : 0.04 ≤ designUltimate cls (steelArgs 500 200000 540 0.05) ∧
      designUltimate cls (steelArgs 500 200000 540 0.05) ≤ 0.05 := by
    cases cls <;> simp only [designUltimate, steelArgs, gammaS, factorOf] <;> rw [abs_of_pos (by norm_num)] <;> norm_num
  obtain ⟨b, hb⟩ := (C48_accepts hl cls (steelArgs 500 200000 540 0.05) rfl rfl rfl).2 ⟨g, gs, hE, by
    rw [hy]; intro h; rw [h] at hu; norm_num at hu⟩
  refine ⟨b, _, _, _, _, hb, design_ok.2 ⟨g, rfl⟩, design_ok.2 ⟨g, rfl⟩, epsyd_ok.2 ⟨g, hE, rfl⟩,
    (epsud_ok g).2 ⟨gs, rfl⟩, by linarith [hu.1], ?_⟩
  rw [hy]; unfold tol
  have : (500 : ℝ) / 1.15 / 200000 ≤ 0.003 := by norm_num
  linarith [hu.1, hu.2]

/-- **C48 (perfectly plastic).** The law without hardening follows the modulus up to the design yield strain, stays at the
design yield strength until the design ultimate strain, and never exceeds it in magnitude, at any strain. -/
theorem C48_perfect (hl : PyLower lower) (cls : SteelClass) (a : SteelArgs) (b : Built Steel)
    (h : newSteel lower cls a = some (.ok b)) (hn : a.law = .name "elasticperfectlyplastic")
    (hi1 : a.initialStrain = none) (hi2 : a.initialStress = none)
    (fy ey eu : ℝ) (hfy : a.store.fyd cls = .ok fy)
    (hey : a.store.epsyd cls = .ok ey) (heu : a.store.epsud cls = .ok eu) (hu : 2e-6 ≤ eu) (hgap : ey ≤ eu) :
    (∀ e, |b.mat.law.stress e| ≤ fy) ∧ (∀ e, b.mat.law.stress (-e) = -b.mat.law.stress e) ∧
    ∀ e, 0 ≤ e → (e ≤ ey → e + tol eu < eu → b.mat.law.stress e = |a.Es| * e) ∧
      (ey ≤ e → e + tol eu < eu → b.mat.law.stress e = fy) ∧
      (eu + tol eu < e → b.mat.law.stress e = 0) := by
  obtain ⟨hE, law, hm, hx⟩ := C48_law hl cls a b _ h hn
  simp only [String.reduceEq, false_and, true_and, false_or, or_false] at hx
  obtain ⟨g, gs, hlaw⟩ := hx
  obtain ⟨-, rfl⟩ := design_ok.1 hfy
  obtain ⟨-, -, rfl⟩ := epsyd_ok.1 hey
  obtain ⟨-, rfl⟩ := (epsud_ok g).1 heu
  rw [hi1, hi2, C15_none] at hm
  simp only [Option.some.injEq, Except.ok.injEq] at hm
  have hml : b.mat.law = law := by rw [← hm]
  rw [hml, hlaw]
  have hok : EPOk ⟨|a.Es|, designStrength a a.fyk, 0, some (designUltimate cls a)⟩ (designUltimate cls a) :=
    ⟨abs_pos.2 hE, div_nonneg (abs_nonneg _) (by linarith), le_rfl, rfl, hu, hgap⟩
  have hy : designYield a = designStrength a a.fyk / |a.Es| := rfl
  rw [hy]
  have hu0 : 0 < designUltimate cls a := by linarith
  have hcl : ∀ e, 0 ≤ e → 1e-6 + 1e-5 * designUltimate cls a < |e - designUltimate cls a| →
      Clear e (designUltimate cls a) ∧ Clear e (-designUltimate cls a) := by
    intro e h0 hc
    constructor
    · unfold Clear; rw [abs_of_pos hu0]; exact hc
    · unfold Clear
      rw [abs_neg, abs_of_pos hu0, sub_neg_eq_add, abs_of_pos (by linarith)]
      linarith
  refine ⟨fun e => ?_, fun e => C11_odd hok e, fun e h0 => ⟨fun h1 h2 => ?_, fun h1 h2 => ?_, fun h1 => ?_⟩⟩
  · have := C11_bounded hok e
    simpa [ElasticPlastic.law] using this
  · unfold tol at h2
    obtain ⟨c1, c2⟩ := hcl e h0 (by rw [abs_sub_comm, abs_of_pos (by linarith)]; linarith)
    exact (C11_values hok c1 c2).1 h0 h1
  · unfold tol at h2
    obtain ⟨c1, c2⟩ := hcl e h0 (by rw [abs_sub_comm, abs_of_pos (by linarith)]; linarith)
    have := (C11_values hok c1 c2).2.1 h1 (by linarith)
    simpa [ElasticPlastic.law] using this
  · unfold tol at h1
    obtain ⟨c1, c2⟩ := hcl e h0 (by rw [abs_of_pos (by linarith)]; linarith)
    refine (C11_values hok c1 c2).2.2 ?_
    rw [abs_of_nonneg h0]; linarith

/-- **C48, violated (ultimate strain below yield).** A steel whose design ultimate strain lies below its design yield strain is
accepted; its law vanishes at the yield strain and never reaches the design strength. -/
theorem C48_brittle_violated (hl : PyLower lower) :
    ∃ b ey, newSteel lower .ec2_2004 (steelArgs 500 200000 540 0.001) = some (.ok b) ∧
      b.own.epsyd .ec2_2004 = .ok ey ∧ b.mat.law.stress ey = 0 := by
  have hg : gammaS (steelArgs 500 200000 540 0.001) = 1.15 := rfl
  have g : 1 ≤ gammaS (steelArgs 500 200000 540 0.001) := by rw [hg]; norm_num
  have gs : strainFactorOk .ec2_2004 (steelArgs 500 200000 540 0.001) := by
    simp [strainFactorOk, steelArgs, factorOf]; norm_num
  have hE : (steelArgs 500 200000 540 0.001).Es ≠ 0 := by norm_num [steelArgs]
  have hy : designYield (steelArgs 500 200000 540 0.001) = 500 / 1.15 / 200000 := by
    simp [designYield, steelArgs, gammaS, factorOf]
  have hu : designUltimate .ec2_2004 (steelArgs 500 200000 540 0.001) = 0.0009 := by
    simp only [designUltimate, steelArgs, factorOf]; rw [abs_of_pos (by norm_num)]; norm_num
  obtain ⟨b, hb⟩ := (C48_accepts hl .ec2_2004 (steelArgs 500 200000 540 0.001) rfl rfl rfl).2 ⟨g, gs, hE, by
    rw [hy, hu]; norm_num⟩
  obtain ⟨ho, -⟩ := newSteel_ok hb
  obtain ⟨-, law, hm, hx⟩ := C48_law hl _ _ b "elasticplastic" hb rfl
  simp only [String.reduceEq, false_and, true_and, false_or] at hx
  obtain ⟨-, -, -, hlaw⟩ := hx
  refine ⟨b, designYield (steelArgs 500 200000 540 0.001), hb, ?_, ?_⟩
  · rw [ho]; exact epsyd_ok.2 ⟨g, hE, rfl⟩
  · rw [show (steelArgs 500 200000 540 0.001).initialStrain = none from rfl,
      show (steelArgs 500 200000 540 0.001).initialStress = none from rfl, C15_none] at hm
    simp only [Option.some.injEq, Except.ok.injEq] at hm
    have hml : b.mat.law = law := by rw [← hm]
    rw [hml, hlaw, hu, hy]
    show ElasticPlastic.core _ (snap (-0.0009, 0.0009) _) = 0
    rw [snap_of_clear (by unfold Clear; norm_num) (by unfold Clear; norm_num)]
    unfold ElasticPlastic.core ElasticPlastic.beyond
    simp only
    rw [if_pos (by left; norm_num)]

/-- **C48, violated (setter).** Assigning `epsuk` changes the design ultimate strain the material reports, but the law built
by the constructor keeps the old one. -/
theorem C48_setter_violated (hl : PyLower lower) :
    ∃ b, newSteel lower .ec2_2004 (steelArgs 500 200000 540 0.05) = some (.ok b) ∧
      (b.setEpsuk 0.025).own.epsud .ec2_2004 = .ok (0.025 * 0.9) ∧
      (b.setEpsuk 0.025).mat.law.ult false = (-(0.05 * 0.9), 0.05 * 0.9) := by
  have hg : gammaS (steelArgs 500 200000 540 0.05) = 1.15 := rfl
  have g : 1 ≤ gammaS (steelArgs 500 200000 540 0.05) := by rw [hg]; norm_num
  have gs : strainFactorOk .ec2_2004 (steelArgs 500 200000 540 0.05) := by
    simp [strainFactorOk, steelArgs, factorOf]; norm_num
  have hE : (steelArgs 500 200000 540 0.05).Es ≠ 0 := by norm_num [steelArgs]
  have hy : designYield (steelArgs 500 200000 540 0.05) = 500 / 1.15 / 200000 := by
    simp [designYield, steelArgs, gammaS, factorOf]
  have hu : designUltimate .ec2_2004 (steelArgs 500 200000 540 0.05) = 0.05 * 0.9 := by
    simp only [designUltimate, steelArgs, factorOf]; rw [abs_of_pos (by norm_num)]
  obtain ⟨b, hb⟩ := (C48_accepts hl .ec2_2004 (steelArgs 500 200000 540 0.05) rfl rfl rfl).2 ⟨g, gs, hE, by
    rw [hy, hu]; norm_num⟩
  obtain ⟨ho, -⟩ := newSteel_ok hb
  obtain ⟨-, law, hm, hx⟩ := C48_law hl _ _ b "elasticplastic" hb rfl
  simp only [String.reduceEq, false_and, true_and, false_or] at hx
  obtain ⟨-, -, -, hlaw⟩ := hx
  refine ⟨b, hb, ?_, ?_⟩
  · have : (b.setEpsuk 0.025).own = (steelArgs 500 200000 540 0.025).store := by
      simp only [Built.setEpsuk, ho]; rfl
    rw [this]
    refine (epsud_ok (a := steelArgs 500 200000 540 0.025) ?_).2 ⟨?_, ?_⟩
    · exact g
    · exact gs
    · simp only [designUltimate, steelArgs, factorOf]; rw [abs_of_pos (by norm_num)]
  · rw [show (steelArgs 500 200000 540 0.05).initialStrain = none from rfl,
      show (steelArgs 500 200000 540 0.05).initialStress = none from rfl, C15_none] at hm
    simp only [Option.some.injEq, Except.ok.injEq] at hm
    have hml : b.mat.law = law := by rw [← hm]
    show b.mat.law.ult false = _
    rw [hml, hlaw, hu]
    simp [ElasticPlastic.law, ElasticPlastic.ult]

end SC
