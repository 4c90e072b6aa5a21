import Verif.Model.Materials
import Verif.Props.Material
import Verif.Props.Factories
import Verif.Props.MC2010_Materials

/-! # C47: concretes honour the values given by the user and reject inconsistent input -/

set_option autoImplicit false

namespace SC

/-! ### Specification -/

namespace Spec

/-- The magnitude of the value given by the user, or the derived value. -/
noncomputable def given (x : Option ℝ) (derived : ℝ) : ℝ :=
  match x with
  | some v => |v|
  | none => derived

/-- A partial factor: the value given unless it is missing or zero. -/
noncomputable def factor (x : Option ℝ) (default : ℝ) : ℝ :=
  match x with
  | some v => open Classical in if v = 0 then default else |v|
  | none => default

/-- The input is inconsistent: the mean strength does not exceed the characteristic strength, or the Sargin
coefficient or the exponent of the parabola is negative. -/
def Inconsistent (a : ConcArgs) : Prop :=
  (∃ v, a.fcm = some v ∧ |v| ≤ |a.fck|) ∨ (∃ v, a.k = some v ∧ v < 0) ∨ (∃ v, a.n = some v ∧ v < 0)

end Spec

open Spec

variable {lower : String → String}

/-! ### Construction -/

theorem raiseIfSome_ok {x : Option ℝ} {bad : ℝ → Prop} {u : Unit} :
    raiseIfSome x bad = .ok u ↔ ∀ v, x = some v → ¬ bad v := by
  cases x <;> simp [raiseIfSome, raiseIf_ok]

theorem raiseIfSome_error {x : Option ℝ} {bad : ℝ → Prop} {e : PyErr} :
    raiseIfSome x bad = .error e ↔ (∃ v, x = some v ∧ bad v) ∧ e = .valueError := by
  cases x <;> simp [raiseIfSome, raiseIf_error]

theorem check_ok {a : ConcArgs} {u : Unit} : Conc.check a.store = .ok u ↔ ¬ Inconsistent a := by
  simp only [Conc.check, except_bind_ok, raiseIfSome_ok, Inconsistent, ConcArgs.store, Option.map_eq_some_iff]
  constructor
  · rintro ⟨_, h1, _, h2, h3⟩ (⟨v, hv, h⟩ | ⟨v, hv, h⟩ | ⟨v, hv, h⟩)
    · exact h1 _ ⟨v, hv, rfl⟩ h
    · exact h2 v hv h
    · exact h3 v hv h
  · intro h
    push Not at h
    refine ⟨(), ?_, (), fun v hv => not_lt.2 (h.2.1 v hv), fun v hv => not_lt.2 (h.2.2 v hv)⟩
    rintro _ ⟨v, hv, rfl⟩
    exact not_le.2 (h.1 v hv)

theorem check_error {a : ConcArgs} (h : Inconsistent a) : Conc.check a.store = .error .valueError := by
  cases hc : Conc.check a.store with
  | ok u => exact absurd h (check_ok.1 hc)
  | error e =>
    simp only [Conc.check, except_bind_error, raiseIfSome_error] at hc
    grind

/-- The development class is one of the six known ones. -/
def DevOk (a : ConcArgs) : Prop :=
  pyLower (pyStrip a.dev) ∈ ["cs".toList, "cn".toList, "cr".toList, "slow".toList, "normal".toList, "rapid".toList]

theorem check2023_ok {a : ConcArgs} {u : Unit} :
    Conc.check2023 a.store = .ok u ↔ ¬ Inconsistent a ∧ DevOk a ∧ ∀ g, a.gamma_c = some g → 0 < g := by
  rw [← check_ok (u := u)]
  simp only [Conc.check2023, Conc.check, except_bind_ok, raiseIf_ok, raiseIfSome_ok, not_not, not_le, DevOk]
  constructor
  · rintro ⟨_, h1, _, h2, _, h3, _, h4, h5⟩
    exact ⟨⟨(), h3, (), h4, h5⟩, h1, h2⟩
  · rintro ⟨⟨_, h3, _, h4, h5⟩, h1, h2⟩
    exact ⟨(), h1, (), h2, (), h3, (), h4, h5⟩

theorem check2023_error {a : ConcArgs} {e : PyErr} (h : Conc.check2023 a.store = .error e) : e = .valueError := by
  simp only [Conc.check2023, except_bind_error, raiseIf_error, raiseIfSome_error] at h
  grind

/-- What a successful construction went through. -/
theorem newConcrete_ok {cls : ConcClass} {a : ConcArgs} {b : Built Conc}
    (h : newConcrete lower cls a = some (.ok b)) :
    b.own = a.store ∧ cls.check a.store = .ok () ∧
      ∃ law, selectLaw lower "concrete" a.law (cls.methods a.store) = .ok law ∧
        Material.create a.density a.initialStrain a.initialStress a.compat law = some (.ok b.mat) := by
  unfold newConcrete at h
  cases hx : (do
      raiseIf (a.initialStrain.isSome ∧ a.initialStress.isSome)
      cls.check a.store
      selectLaw lower "concrete" a.law (cls.methods a.store) : Except PyErr Law) with
  | error e => rw [hx] at h; simp at h
  | ok law =>
    rw [hx] at h
    simp only [except_bind_ok] at hx
    obtain ⟨_, -, ⟨⟩, h2, h3⟩ := hx
    simp only [Option.map_eq_some_iff] at h
    obtain ⟨r, h4, h5⟩ := h
    cases r with
    | error e => simp at h5
    | ok m =>
      simp only [Except.ok.injEq] at h5
      subst h5
      exact ⟨rfl, h2, law, h3, h4⟩

theorem newConcrete_consistent {cls : ConcClass} {a : ConcArgs} {b : Built Conc}
    (h : newConcrete lower cls a = some (.ok b)) : ¬ Inconsistent a := by
  obtain ⟨-, h2, -⟩ := newConcrete_ok h
  cases cls
  · exact check_ok.1 h2
  · exact check_ok.1 h2
  · exact (check2023_ok.1 h2).1

/-- **C47 (rejected input).** Inconsistent input raises `ValueError` in every concrete class, whatever the other
arguments; so do, for EC2 2023, a non-positive partial factor and an unknown strength development class; and giving both an
initial strain and an initial stress. -/
theorem C47_rejects (cls : ConcClass) (a : ConcArgs)
    (h : Inconsistent a ∨ (a.initialStrain.isSome ∧ a.initialStress.isSome) ∨
      (cls = .ec2_2023 ∧ ((∃ g, a.gamma_c = some g ∧ g ≤ 0) ∨ ¬ DevOk a))) :
    newConcrete lower cls a = some (.error .valueError) := by
  unfold newConcrete
  have key : (do
      raiseIf (a.initialStrain.isSome ∧ a.initialStress.isSome)
      cls.check a.store
      selectLaw lower "concrete" a.law (cls.methods a.store) : Except PyErr Law) = .error .valueError := by
    by_cases hi : a.initialStrain.isSome ∧ a.initialStress.isSome
    · rw [raiseIf_error.2 ⟨hi, rfl⟩]; rfl
    · rw [raiseIf_ok (u := ()) |>.2 hi]
      have hc : cls.check a.store = .error .valueError := by
        cases cls with
        | ec2_2004 => exact check_error (by simpa [hi] using h)
        | mc2010 => exact check_error (by simpa [hi] using h)
        | ec2_2023 =>
          simp only [ConcClass.check]
          cases hx : Conc.check2023 a.store with
          | error e => rw [check2023_error hx]
          | ok u =>
            obtain ⟨h1, h2, h3⟩ := check2023_ok.1 hx
            rcases h with h | h | ⟨-, ⟨g, hg, hg0⟩ | h⟩
            · exact absurd h h1
            · exact absurd h hi
            · exact absurd (h3 g hg) (not_lt.2 hg0)
            · exact absurd h2 h
      show (do
        cls.check a.store
        selectLaw lower "concrete" a.law (cls.methods a.store) : Except PyErr Law) = _
      rw [hc]; rfl
  rw [key]

/-! ### The properties -/

theorem orElse_map (x : Option ℝ) (d : ℝ) : orElse (x.map abs) (.ok d) = .ok (given x d) := by
  cases x <;> rfl

theorem orElse_some (x : Option ℝ) (d : Except PyErr ℝ) (v : ℝ) (h : x = some v) : orElse x d = .ok v := by
  subst h; rfl

theorem orDefault_abs (x : Option ℝ) {d : ℝ} (hd : 0 ≤ d) : |orDefault x d| = factor x d := by
  cases x with
  | none => simp [orDefault, factor, abs_of_nonneg hd]
  | some v => simp only [orDefault, factor]; split_ifs <;> simp [abs_of_nonneg hd]

theorem factor_pos (x : Option ℝ) {d : ℝ} (hd : 0 < d) : 0 < factor x d := by
  cases x with
  | none => exact hd
  | some v => simp only [factor]; split_ifs with h; exacts [hd, abs_pos.2 h]

/-- The mean strength of a constructed concrete exceeds its characteristic strength. -/
theorem fcm_pos {a : ConcArgs} (h : ¬ Inconsistent a) : |a.fck| < given a.fcm (|a.fck| + 8) := by
  cases hf : a.fcm with
  | none => simp [given]
  | some v =>
    simp only [given]
    by_contra hle
    exact h (.inl ⟨v, hf, not_lt.1 hle⟩)

/-- **C47 (values, EC2 2004).** Every property of a constructed `ConcreteEC2_2004` can be read, and it is the magnitude of
the value given by the user or, if none was given, the value of the code's formula, where derived values follow the
given ones (the modulus and `eps_c1` the mean strength, the fractiles the mean tensile strength, the Sargin coefficient all three).
The Sargin coefficient and the exponent are returned as given.  A missing or zero partial factor is 1.5, a missing or zero
`alpha_cc` is 1. -/
theorem C47_values_ec2_2004 (a : ConcArgs) (b : Built Conc) (h : newConcrete lower .ec2_2004 a = some (.ok b))
    (F T E e1 : ℝ) (hF : F = given a.fcm (|a.fck| + 8)) (hT : T = given a.fctm (EC2_2004.fctm |a.fck|))
    (hE : E = given a.E (22000 * (F / 10) ^ (0.3 : ℝ))) (he1 : e1 = given a.eps_c1 (min (0.7 * F ^ (0.31 : ℝ)) 2.8 / 1000)) :
    b.own.fck = |a.fck| ∧ |a.fck| < F ∧
    ConcreteEC2_2004.fcm b.own = .ok F ∧
    ConcreteEC2_2004.fctm b.own = .ok T ∧
    ConcreteEC2_2004.fctk_5 b.own = .ok (given a.f05 (0.7 * T)) ∧
    ConcreteEC2_2004.fctk_95 b.own = .ok (given a.f95 (1.3 * T)) ∧
    ConcreteEC2_2004.Ecm b.own = .ok E ∧
    ConcreteEC2_2004.fcd b.own = .ok (factor a.alpha_cc 1 * |a.fck| / factor a.gamma_c 1.5) ∧
    ConcreteEC2_2004.eps_c1 b.own = .ok e1 ∧
    ConcreteEC2_2004.eps_cu1 b.own = .ok (given a.eps_cu1 (EC2_2004.eps_cu1 |a.fck|)) ∧
    ConcreteEC2_2004.k_sargin b.own = .ok (a.k.getD (1.05 * E * e1 / F)) ∧
    ConcreteEC2_2004.eps_c2 b.own = .ok (given a.eps_c2 (EC2_2004.eps_c2 |a.fck|)) ∧
    ConcreteEC2_2004.eps_cu2 b.own = .ok (given a.eps_cu2 (EC2_2004.eps_cu2 |a.fck|)) ∧
    ConcreteEC2_2004.n_parabolic_rectangular b.own =
      .ok (a.n.getD (EC2_2004.n_parabolic_rectangular |a.fck|)) ∧
    ConcreteEC2_2004.eps_c3 b.own = .ok (given a.eps_c3 (EC2_2004.eps_c3 |a.fck|)) ∧
    ConcreteEC2_2004.eps_cu3 b.own = .ok (given a.eps_cu3 (EC2_2004.eps_cu3 |a.fck|)) := by
  obtain ⟨ho, -, -⟩ := newConcrete_ok h
  have hcons := newConcrete_consistent h
  have hlt := fcm_pos hcons
  rw [← hF] at hlt
  have hFpos : 0 < F := (abs_nonneg _).trans_lt hlt
  rw [ho]
  have f1 : ConcreteEC2_2004.fcm a.store = .ok F := by
    unfold ConcreteEC2_2004.fcm
    simp only [ConcArgs.store, orElse_map, EC2_2004.fcm, MC2010.fcm, hF, abs_abs]
    norm_num
  have hTnn : 0 ≤ T := by
    rw [hT]
    unfold given
    cases a.fctm with
    | some v => exact abs_nonneg v
    | none =>
      simp only [EC2_2004.fctm, MC2010.fctm]
      split_ifs
      · positivity
      · have : 0 ≤ MC2010.fcm |(|a.fck|)| := by unfold MC2010.fcm; positivity
        have := Real.log_nonneg (by linarith : (1 : ℝ) ≤ 1 + 0.1 * MC2010.fcm |(|a.fck|)|)
        positivity
  have f2 : ConcreteEC2_2004.fctm a.store = .ok T := by
    unfold ConcreteEC2_2004.fctm
    simp only [ConcArgs.store, orElse_map, hT]
  have f3 : ConcreteEC2_2004.Ecm a.store = .ok E := by
    unfold ConcreteEC2_2004.Ecm
    rw [f1]
    simp only [ConcArgs.store, Except.map, orElse_map, EC2_2004.Ecm, abs_of_pos hFpos, hE]
  have f4 : ConcreteEC2_2004.eps_c1 a.store = .ok e1 := by
    unfold ConcreteEC2_2004.eps_c1
    rw [f1]
    simp only [ConcArgs.store, Except.map, orElse_map, EC2_2004.eps_c1, abs_of_pos hFpos, he1]
  have he1nn : 0 ≤ e1 := by
    rw [he1]
    unfold given
    cases a.eps_c1 with
    | some v => exact abs_nonneg v
    | none => positivity
  refine ⟨rfl, hlt, f1, f2, ?_, ?_, f3, ?_, f4, ?_, ?_, ?_, ?_, ?_, ?_, ?_⟩
  · unfold ConcreteEC2_2004.fctk_5
    rw [f2]
    simp only [ConcArgs.store, Except.map, orElse_map, EC2_2004.fctk_5, MC2010.fctkmin, abs_of_nonneg hTnn]
  · unfold ConcreteEC2_2004.fctk_95
    rw [f2]
    simp only [ConcArgs.store, Except.map, orElse_map, EC2_2004.fctk_95, MC2010.fctkmax, abs_of_nonneg hTnn]
  · unfold ConcreteEC2_2004.fcd EC2_2004.fcd
    have hg : |Conc.gammaC a.store| = factor a.gamma_c 1.5 := orDefault_abs _ (by norm_num)
    have ha : |Conc.alphaCC a.store| = factor a.alpha_cc 1 := orDefault_abs _ (by norm_num)
    rw [hg, ha, pyDiv_ok (factor_pos _ (by norm_num)).ne']
    simp [ConcArgs.store]
  · unfold ConcreteEC2_2004.eps_cu1; simp only [ConcArgs.store, orElse_map]
  · unfold ConcreteEC2_2004.k_sargin
    rw [f1, f3, f4]
    simp only [bind, Except.bind, EC2_2004.k_sargin, pyDiv_ok hFpos.ne', abs_of_nonneg he1nn, ConcArgs.store]
    cases a.k <;> rfl
  · unfold ConcreteEC2_2004.eps_c2; simp only [ConcArgs.store, orElse_map]
  · unfold ConcreteEC2_2004.eps_cu2; simp only [ConcArgs.store, orElse_map]
  · unfold ConcreteEC2_2004.n_parabolic_rectangular
    simp only [ConcArgs.store]
    cases a.n <;> rfl
  · unfold ConcreteEC2_2004.eps_c3; simp only [ConcArgs.store, orElse_map]
  · unfold ConcreteEC2_2004.eps_cu3; simp only [ConcArgs.store, orElse_map]


theorem given_or (x : Option ℝ) (d : Except PyErr ℝ) :
    (∀ v, x = some v → orElse (x.map abs) d = .ok |v|) ∧ (x = none → orElse (x.map abs) d = d) := by
  cases x <;> simp [orElse]

/-- **C47 (values, MC2010).** As for EC2 2004; the strains and the Sargin coefficient of the tables depend on `fck` only
(a given mean strength does not change them) and are derived only for `fck` between 12 and 120. -/
theorem C47_values_mc2010 (a : ConcArgs) (b : Built Conc) (h : newConcrete lower .mc2010 a = some (.ok b))
    (F T : ℝ) (hF : F = given a.fcm (|a.fck| + 8)) (hT : T = given a.fctm (MC2010.fctm |a.fck|)) :
    b.own.fck = |a.fck| ∧ |a.fck| < F ∧
    ConcreteMC2010.fcm b.own = .ok F ∧
    ConcreteMC2010.fctm b.own = .ok T ∧
    ConcreteMC2010.fctkmin b.own = .ok (given a.f05 (0.7 * T)) ∧
    ConcreteMC2010.fctkmax b.own = .ok (given a.f95 (1.3 * T)) ∧
    ConcreteMC2010.Eci b.own = .ok (given a.E (21500 * (F / 10) ^ ((1 : ℝ) / 3))) ∧
    ConcreteMC2010.Gf b.own = .ok (given a.Gf (MC2010.Gf |a.fck|)) ∧
    ConcreteMC2010.fcd b.own = .ok (factor a.alpha_cc 1 * |a.fck| / factor a.gamma_c 1.5) ∧
    ((∀ v, a.eps_c1 = some v → ConcreteMC2010.eps_c1 b.own = .ok |v|) ∧
      (a.eps_c1 = none → ConcreteMC2010.eps_c1 b.own = MC2010.eps_c1 |a.fck|)) ∧
    ((∀ v, a.eps_cu1 = some v → ConcreteMC2010.eps_cu1 b.own = .ok |v|) ∧
      (a.eps_cu1 = none → ConcreteMC2010.eps_cu1 b.own = MC2010.eps_cu1 |a.fck|)) ∧
    ((∀ v, a.k = some v → ConcreteMC2010.k_sargin b.own = .ok v) ∧
      (a.k = none → ConcreteMC2010.k_sargin b.own = MC2010.k_sargin |a.fck|)) ∧
    ConcreteMC2010.eps_c2 b.own = .ok (given a.eps_c2 (MC2010.eps_c2 |a.fck|)) ∧
    ConcreteMC2010.eps_cu2 b.own = .ok (given a.eps_cu2 (MC2010.eps_cu2 |a.fck|)) ∧
    ConcreteMC2010.n_parabolic_rectangular b.own = .ok (a.n.getD (MC2010.n_parabolic_rectangular |a.fck|)) ∧
    ConcreteMC2010.eps_c3 b.own = .ok (given a.eps_c3 (MC2010.eps_c3 |a.fck|)) ∧
    ConcreteMC2010.eps_cu3 b.own = .ok (given a.eps_cu3 (MC2010.eps_cu3 |a.fck|)) := by
  obtain ⟨ho, -, -⟩ := newConcrete_ok h
  have hlt := fcm_pos (newConcrete_consistent h)
  rw [← hF] at hlt
  rw [ho]
  have f1 : ConcreteMC2010.fcm a.store = .ok F := by
    unfold ConcreteMC2010.fcm
    simp only [ConcArgs.store, orElse_map, MC2010.fcm, hF, abs_abs]
    norm_num
  have f2 : ConcreteMC2010.fctm a.store = .ok T := by
    unfold ConcreteMC2010.fctm
    simp only [ConcArgs.store, orElse_map, hT]
  refine ⟨rfl, hlt, f1, f2, ?_, ?_, ?_, ?_, ?_, given_or _ _, given_or _ _, ?_, ?_, ?_, ?_, ?_, ?_⟩
  · unfold ConcreteMC2010.fctkmin
    rw [f2]
    simp only [ConcArgs.store, Except.map, orElse_map, MC2010.fctkmin]
  · unfold ConcreteMC2010.fctkmax
    rw [f2]
    simp only [ConcArgs.store, Except.map, orElse_map, MC2010.fctkmax]
  · unfold ConcreteMC2010.Eci
    rw [f1]
    have : MC2010.Eci F ['q', 'u', 'a', 'r', 't', 'z', 'i', 't', 'e'] = .ok (21500 * (F / 10) ^ ((1 : ℝ) / 3)) := by
      have hl : pyLower ['q', 'u', 'a', 'r', 't', 'z', 'i', 't', 'e'] = ['q', 'u', 'a', 'r', 't', 'z', 'i', 't', 'e'] := by
        decide
      unfold MC2010.Eci
      rw [hl]
      simp [MC2010.alphaE]
    simp only [bind, Except.bind, this, ConcArgs.store, orElse_map]
  · unfold ConcreteMC2010.Gf; simp only [ConcArgs.store, orElse_map]
  · unfold ConcreteMC2010.fcd MC2010.fcd
    have hg : |Conc.gammaC a.store| = factor a.gamma_c 1.5 := orDefault_abs _ (by norm_num)
    have ha : |Conc.alphaCC a.store| = factor a.alpha_cc 1 := orDefault_abs _ (by norm_num)
    rw [hg, ha, pyDiv_ok (factor_pos _ (by norm_num)).ne']
    simp [ConcArgs.store]
  · constructor
    · intro v hk; simp [ConcreteMC2010.k_sargin, ConcArgs.store, orElse, hk]
    · intro hk; simp [ConcreteMC2010.k_sargin, ConcArgs.store, orElse, hk]
  · unfold ConcreteMC2010.eps_c2; simp only [ConcArgs.store, orElse_map]
  · unfold ConcreteMC2010.eps_cu2; simp only [ConcArgs.store, orElse_map]
  · unfold ConcreteMC2010.n_parabolic_rectangular
    simp only [ConcArgs.store]
    cases a.n <;> rfl
  · unfold ConcreteMC2010.eps_c3; simp only [ConcArgs.store, orElse_map]
  · unfold ConcreteMC2010.eps_cu3; simp only [ConcArgs.store, orElse_map]

/-- The design strength of an EC2 2023 concrete with default arguments of the method. -/
theorem fcd2023 {a : ConcArgs} (hchk : Conc.check2023 a.store = .ok ()) (h12 : 12 ≤ |a.fck|)
    (hg : ∀ g, a.gamma_c = some g → 1 ≤ g) :
    ConcreteEC2_2023.fcd a.store = .ok (min ((40 / |a.fck|) ^ ((1 : ℝ) / 3)) 1 * |a.fck| / a.gamma_c.getD 1.5) := by
  have hdev : EC2_2023.dev a.store.dev = .ok .slow ∨ EC2_2023.dev a.store.dev = .ok .normal ∨
      EC2_2023.dev a.store.dev = .ok .rapid := by
    have hd : DevOk a := (check2023_ok.1 hchk).2.1
    unfold DevOk at hd
    have : a.store.dev = pyLower (pyStrip a.dev) := rfl
    rw [this]
    generalize pyLower (pyStrip a.dev) = d at hd
    simp only [List.mem_cons, List.not_mem_nil, or_false] at hd
    rcases hd with rfl | rfl | rfl | rfl | rfl | rfl <;> decide
  have hgam : a.store.gammaC = a.gamma_c.getD 1.5 ∧ 1 ≤ a.store.gammaC := by
    unfold Conc.gammaC
    show orDefault a.gamma_c 1.5 = _ ∧ _
    cases hgc : a.gamma_c with
    | none => simp only [orDefault, ConcArgs.store, hgc]; norm_num
    | some g =>
      have := hg g hgc
      have h0 : g ≠ 0 := by linarith
      simp [orDefault, ConcArgs.store, hgc, h0, this]
  have hmin : 0 ≤ min ((40 / |a.fck|) ^ ((1 : ℝ) / 3)) 1 := le_min (by positivity) (by norm_num)
  have hk : EC2_2023.k_tc 28 91 a.store.dev = .ok 1 := by
    rcases hdev with hd | hd | hd <;>
      simp only [EC2_2023.k_tc, except_bind_ok, raiseIf_ok, except_pure_ok, hd] <;>
      refine ⟨(), by norm_num, (), by norm_num, _, rfl, ?_⟩ <;> norm_num [EC2_2023.refAge]
  have he : EC2_2023.eta_cc a.store.fck 40 = .ok (min ((40 / |a.fck|) ^ ((1 : ℝ) / 3)) 1) := by
    simp only [EC2_2023.eta_cc, except_bind_ok, raiseIf_ok, except_pure_ok]
    exact ⟨(), by simpa [ConcArgs.store] using h12, (), by norm_num, rfl⟩
  unfold ConcreteEC2_2023.fcd
  rw [he]
  simp only [except_bind_ok]
  refine ⟨_, rfl, 1, hk, ?_⟩
  simp only [EC2_2023.fcd, except_bind_ok, raiseIf_ok, except_pure_ok]
  refine ⟨(), by simpa [ConcArgs.store] using h12, (), ?_, (), not_lt.2 hgam.2, ?_⟩
  · push Not; exact ⟨hmin, min_le_right _ _⟩
  · rw [hgam.1]; simp [ConcArgs.store]

/-- **C47 (values, EC2 2023).** As for EC2 2004, with the formulas of the 2023 code; the modulus is derived only for
`5000 ≤ kE ≤ 13000`, the strains `eps_c1`, `eps_cu1` only for a mean strength of at least 20, and the design strength exists only
for `fck ≥ 12` and a partial factor of at least 1. -/
theorem C47_values_ec2_2023 (a : ConcArgs) (b : Built Conc) (h : newConcrete lower .ec2_2023 a = some (.ok b))
    (F T : ℝ) (hF : F = given a.fcm (|a.fck| + 8)) (hT : T = given a.fctm (EC2_2023.fctm |a.fck|)) :
    b.own.fck = |a.fck| ∧ |a.fck| < F ∧
    ConcreteEC2_2023.fcm b.own = .ok F ∧
    ConcreteEC2_2023.fctm b.own = .ok T ∧
    ConcreteEC2_2023.fctk_5 b.own = .ok (given a.f05 (T * 0.7)) ∧
    ConcreteEC2_2023.fctk_95 b.own = .ok (given a.f95 (T * 1.3)) ∧
    (∀ v, a.E = some v → ConcreteEC2_2023.Ecm b.own = .ok |v|) ∧
    (a.E = none → 5000 ≤ a.kE → a.kE ≤ 13000 →
      ConcreteEC2_2023.Ecm b.own = .ok (a.kE * F ^ ((1 : ℝ) / 3))) ∧
    (∀ v, a.eps_c1 = some v → ConcreteEC2_2023.eps_c1 b.own = .ok |v|) ∧
    (a.eps_c1 = none → 20 ≤ F →
      ConcreteEC2_2023.eps_c1 b.own = .ok (min (0.7 * F ^ ((1 : ℝ) / 3)) 2.8 / 1000)) ∧
    (∀ v, a.eps_cu1 = some v → ConcreteEC2_2023.eps_cu1 b.own = .ok |v|) ∧
    (a.eps_cu1 = none → 20 ≤ F →
      ConcreteEC2_2023.eps_cu1 b.own = .ok (min (2.8 + 14 * (1 - F / 108) ^ 4) 3.5 / 1000)) ∧
    (∀ v, a.k = some v → ConcreteEC2_2023.k_sargin b.own = .ok v) ∧
    (a.k = none → 20 ≤ F → ∀ E e1, ConcreteEC2_2023.Ecm b.own = .ok E → ConcreteEC2_2023.eps_c1 b.own = .ok e1 →
      0 < E → 0 < e1 → ConcreteEC2_2023.k_sargin b.own = .ok (1.05 * E * e1 / F)) ∧
    ConcreteEC2_2023.eps_c2 b.own = .ok (given a.eps_c2 0.002) ∧
    ConcreteEC2_2023.eps_cu2 b.own = .ok (given a.eps_cu2 0.0035) ∧
    ConcreteEC2_2023.n_parabolic_rectangular b.own = .ok (a.n.getD 2) ∧
    (12 ≤ |a.fck| → (∀ g, a.gamma_c = some g → 1 ≤ g) →
      ConcreteEC2_2023.fcd b.own =
        .ok (min ((40 / |a.fck|) ^ ((1 : ℝ) / 3)) 1 * |a.fck| / a.gamma_c.getD 1.5)) := by
  obtain ⟨ho, hchk, -⟩ := newConcrete_ok h
  have hlt := fcm_pos (newConcrete_consistent h)
  rw [← hF] at hlt
  have hFpos : 0 < F := (abs_nonneg _).trans_lt hlt
  rw [ho]
  have f1 : ConcreteEC2_2023.fcm a.store = .ok F := by
    unfold ConcreteEC2_2023.fcm
    simp only [ConcArgs.store, orElse_map, EC2_2023.fcm, MC2010.fcm, hF, abs_abs]
    norm_num
  have f2 : ConcreteEC2_2023.fctm a.store = .ok T := by
    unfold ConcreteEC2_2023.fctm
    simp only [ConcArgs.store, orElse_map, hT]
  have hTnn : 0 ≤ T := by
    rw [hT]
    unfold given
    cases a.fctm with
    | some v => exact abs_nonneg v
    | none => simp only [EC2_2023.fctm]; split_ifs <;> positivity
  refine ⟨rfl, hlt, f1, f2, ?_, ?_, ?_, ?_, ?_, ?_, ?_, ?_, ?_, ?_, ?_, ?_, ?_, ?_⟩
  · unfold ConcreteEC2_2023.fctk_5
    rw [f2]
    simp only [ConcArgs.store, Except.map, orElse_map, EC2_2023.fctk_5, abs_of_nonneg hTnn]
  · unfold ConcreteEC2_2023.fctk_95
    rw [f2]
    simp only [ConcArgs.store, Except.map, orElse_map, EC2_2023.fctk_95, abs_of_nonneg hTnn]
  · intro v hv; simp [ConcreteEC2_2023.Ecm, ConcArgs.store, orElse, hv]
  · intro hE h1 h2
    have : ConcreteEC2_2023.Ecm a.store = EC2_2023.Ecm F a.kE := by
      unfold ConcreteEC2_2023.Ecm
      rw [f1]
      simp [ConcArgs.store, orElse, hE, bind, Except.bind]
    rw [this]
    simp only [EC2_2023.Ecm, except_bind_ok, raiseIf_ok, except_pure_ok]
    exact ⟨(), not_lt.2 hFpos.le, (), not_lt.2 h1, (), not_lt.2 h2, trivial⟩
  · intro v hv; simp [ConcreteEC2_2023.eps_c1, ConcArgs.store, orElse, hv]
  · intro hE h1
    have : ConcreteEC2_2023.eps_c1 a.store = EC2_2023.eps_c1 F := by
      unfold ConcreteEC2_2023.eps_c1
      rw [f1]
      simp [ConcArgs.store, orElse, hE, bind, Except.bind]
    rw [this]
    simp only [EC2_2023.eps_c1, except_bind_ok, raiseIf_ok, except_pure_ok]
    exact ⟨(), not_lt.2 h1, trivial⟩
  · intro v hv; simp [ConcreteEC2_2023.eps_cu1, ConcArgs.store, orElse, hv]
  · intro hE h1
    have : ConcreteEC2_2023.eps_cu1 a.store = EC2_2023.eps_cu1 F := by
      unfold ConcreteEC2_2023.eps_cu1
      rw [f1]
      simp [ConcArgs.store, orElse, hE, bind, Except.bind]
    rw [this]
    simp only [EC2_2023.eps_cu1, except_bind_ok, raiseIf_ok, except_pure_ok]
    exact ⟨(), not_lt.2 h1, trivial⟩
  · intro v hv; simp [ConcreteEC2_2023.k_sargin, ConcArgs.store, orElse, hv]
  · intro hk h1 E e1 h2 h3 h4 h5
    have : ConcreteEC2_2023.k_sargin a.store = EC2_2023.k_sargin E F e1 := by
      unfold ConcreteEC2_2023.k_sargin
      rw [f1, h2, h3]
      simp [ConcArgs.store, orElse, hk, bind, Except.bind]
    rw [this]
    simp only [EC2_2023.k_sargin, except_bind_ok, raiseIf_ok, except_pure_ok]
    exact ⟨(), not_le.2 h4, (), not_lt.2 h1, (), not_le.2 h5, trivial⟩
  · unfold ConcreteEC2_2023.eps_c2 EC2_2023.eps_c2
    simp only [ConcArgs.store, orElse_map]
    norm_num
  · unfold ConcreteEC2_2023.eps_cu2 EC2_2023.eps_cu2
    simp only [ConcArgs.store, orElse_map]
  · unfold ConcreteEC2_2023.n_parabolic_rectangular EC2_2023.n_parabolic_rectangular
    simp only [ConcArgs.store]
    cases a.n <;> rfl
  · exact fun h12 hg => fcd2023 hchk h12 hg

/-! ### The law -/

theorem dunder_inj {s t : String} (h : "__" ++ s ++ "__" = "__" ++ t ++ "__") : s = t := by
  have := congrArg String.toList h
  simp only [String.toList_append, List.append_assoc] at this
  exact String.toList_inj.1 (List.append_cancel_right (List.append_cancel_left this))

theorem except_map_ok {α β : Type} {x : Except PyErr α} {f : α → β} {r : β} :
    x.map f = .ok r ↔ ∃ y, x = .ok y ∧ f y = r := by
  cases x <;> simp [Except.map]

/-- What a successful selection by name went through. -/
theorem selectLaw_name {kind name : String} {methods : String → Option (Except PyErr LawKw)} {law : Law}
    (h : selectLaw lower kind (.name name) methods = .ok law) :
    ∃ c kw l, constitutiveLaws.lookup (lower name) = some c ∧ methods ("__" ++ name ++ "__") = some (.ok kw) ∧
      mkLaw c kw = .ok l ∧ kind ∈ l.materials ∧ law = l.law := by
  unfold selectLaw at h
  cases hc : createLaw lower mkLaw name methods with
  | error e => simp [hc] at h
  | ok l =>
    simp only [hc] at h
    split_ifs at h with hk
    unfold createLaw at hc
    cases h1 : constitutiveLaws.lookup (lower name) with
    | none => simp [h1] at hc
    | some c =>
      simp only [h1] at hc
      cases h2 : methods ("__" ++ name ++ "__") with
      | none => simp [h2] at hc
      | some r =>
        cases r with
        | error e => simp [h2] at hc
        | ok kw =>
          simp only [h2] at hc
          exact ⟨c, kw, l, rfl, rfl, hc, hk, (Except.ok.inj h).symm⟩

/-- The converse. -/
theorem selectLaw_name_mk {kind name : String} {methods : String → Option (Except PyErr LawKw)} {c : LawClass}
    {kw : LawKw} {l : AnyLaw} (h1 : constitutiveLaws.lookup (lower name) = some c)
    (h2 : methods ("__" ++ name ++ "__") = some (.ok kw)) (h3 : mkLaw c kw = .ok l) (h4 : kind ∈ l.materials) :
    selectLaw lower kind (.name name) methods = .ok l.law := by
  simp [selectLaw, createLaw, h1, h2, h3, h4]

/-- **C47 (law, EC2 2004).** A concrete constructed with a law name carries the law of that name, built from the values its
own properties return (and shifted by the initial strain as in C15); only the names listed are accepted, in lower case. -/
theorem C47_law_ec2_2004 (hl : PyLower lower) (a : ConcArgs) (b : Built Conc) (name : String)
    (h : newConcrete lower .ec2_2004 a = some (.ok b)) (hn : a.law = .name name) :
    ∃ law, Material.create a.density a.initialStrain a.initialStress a.compat law = some (.ok b.mat) ∧
      ((name = "elastic" ∧ ∃ E l, ConcreteEC2_2004.Ecm b.own = .ok E ∧ Elastic.mk? E none = .ok l ∧ law = l.law) ∨
       (name = "bilinearcompression" ∧ ∃ fc e u l, ConcreteEC2_2004.fcd b.own = .ok fc ∧ ConcreteEC2_2004.eps_c3 b.own = .ok e ∧
          ConcreteEC2_2004.eps_cu3 b.own = .ok u ∧ Bilinear.new? fc e (some u) = .ok l ∧ law = l.law) ∨
       (name = "parabolarectangle" ∧ ∃ fc e u n, ConcreteEC2_2004.fcd b.own = .ok fc ∧ ConcreteEC2_2004.eps_c2 b.own = .ok e ∧
          ConcreteEC2_2004.eps_cu2 b.own = .ok u ∧ ConcreteEC2_2004.n_parabolic_rectangular b.own = .ok n ∧
          law = (ParabolaRectangle.new fc e u n).law) ∨
       (name = "sargin" ∧ ∃ fc e u k, ConcreteEC2_2004.fcm b.own = .ok fc ∧ ConcreteEC2_2004.eps_c1 b.own = .ok e ∧
          ConcreteEC2_2004.eps_cu1 b.own = .ok u ∧ ConcreteEC2_2004.k_sargin b.own = .ok k ∧ law = (Sargin.new fc e u k).law) ∨
       (name = "popovics" ∧ ∃ fc e u E l, ConcreteEC2_2004.fcd b.own = .ok fc ∧ ConcreteEC2_2004.eps_c1 b.own = .ok e ∧
          ConcreteEC2_2004.eps_cu1 b.own = .ok u ∧ ConcreteEC2_2004.Ecm b.own = .ok E ∧ Popovics.new? fc e u (some E) = .ok l ∧
          law = l.law)) := by
  obtain ⟨ho, -, law, hs, hm⟩ := newConcrete_ok h
  refine ⟨law, hm, ?_⟩
  rw [hn] at hs
  obtain ⟨c, kw, l, h1, h2, h3, -, h5⟩ := selectLaw_name hs
  rw [ho]
  have hfix : ∀ s : String, s ∈ lawNames → lower s = s := fun s hs => hl.fixed _ (by
    simp only [lawNames, List.mem_cons, List.not_mem_nil, or_false] at hs
    simp only [List.mem_cons, List.not_mem_nil, or_false]
    tauto)
  simp only [ConcClass.methods, ConcreteEC2_2004.methods] at h2
  split_ifs at h2 with g1 g2 g3 g4 g5
  · have hname : name = "elastic" := dunder_inj g1
    subst hname
    rw [hfix _ (by simp [lawNames])] at h1
    simp only [constitutiveLaws, List.lookup, String.reduceBEq, Option.some.injEq] at h1
    simp only [Option.some.injEq, except_bind_ok, except_pure_ok] at h2
    subst h1
    obtain ⟨E, hE, rfl⟩ := h2
    simp only [mkLaw, except_map_ok] at h3
    obtain ⟨l', h3, rfl⟩ := h3
    left
    exact ⟨rfl, E, l', hE, h3, h5⟩
  · have hname : name = "bilinearcompression" := dunder_inj g2
    subst hname
    rw [hfix _ (by simp [lawNames])] at h1
    simp only [constitutiveLaws, List.lookup, String.reduceBEq, Option.some.injEq] at h1
    simp only [Option.some.injEq, except_bind_ok, except_pure_ok] at h2
    subst h1
    obtain ⟨f, hf, e, he, u, hu, rfl⟩ := h2
    simp only [mkLaw, except_map_ok] at h3
    obtain ⟨l', h3, rfl⟩ := h3
    right; left
    exact ⟨rfl, f, e, u, l', hf, he, hu, h3, h5⟩
  · have hname : name = "parabolarectangle" := dunder_inj g3
    subst hname
    rw [hfix _ (by simp [lawNames])] at h1
    simp only [constitutiveLaws, List.lookup, String.reduceBEq, Option.some.injEq] at h1
    simp only [Option.some.injEq, except_bind_ok, except_pure_ok] at h2
    subst h1
    obtain ⟨f, hf, e, he, u, hu, n, hn, rfl⟩ := h2
    simp only [mkLaw, Except.ok.injEq] at h3
    subst h3
    right; right; left
    exact ⟨rfl, f, e, u, n, hf, he, hu, hn, h5⟩
  · have hname : name = "sargin" := dunder_inj g4
    subst hname
    rw [hfix _ (by simp [lawNames])] at h1
    simp only [constitutiveLaws, List.lookup, String.reduceBEq, Option.some.injEq] at h1
    simp only [Option.some.injEq, except_bind_ok, except_pure_ok] at h2
    subst h1
    obtain ⟨f, hf, e, he, u, hu, n, hn, rfl⟩ := h2
    simp only [mkLaw, Except.ok.injEq] at h3
    subst h3
    right; right; right; left
    exact ⟨rfl, f, e, u, n, hf, he, hu, hn, h5⟩
  · have hname : name = "popovics" := dunder_inj g5
    subst hname
    rw [hfix _ (by simp [lawNames])] at h1
    simp only [constitutiveLaws, List.lookup, String.reduceBEq, Option.some.injEq] at h1
    simp only [Option.some.injEq, except_bind_ok, except_pure_ok] at h2
    subst h1
    obtain ⟨f, hf, e, he, u, hu, E, hE, rfl⟩ := h2
    simp only [mkLaw, except_map_ok] at h3
    obtain ⟨l', h3, rfl⟩ := h3
    right; right; right; right
    exact ⟨rfl, f, e, u, E, l', hf, he, hu, hE, h3, h5⟩

/-- **C47 (law, MC2010).** A concrete constructed with a law name carries the law of that name, built from the values its
own properties return (and shifted by the initial strain as in C15); only the names listed are accepted, in lower case. -/
theorem C47_law_mc2010 (hl : PyLower lower) (a : ConcArgs) (b : Built Conc) (name : String)
    (h : newConcrete lower .mc2010 a = some (.ok b)) (hn : a.law = .name name) :
    ∃ law, Material.create a.density a.initialStrain a.initialStress a.compat law = some (.ok b.mat) ∧
      ((name = "elastic" ∧ ∃ E l, ConcreteMC2010.Eci b.own = .ok E ∧ Elastic.mk? E none = .ok l ∧ law = l.law) ∨
       (name = "bilinearcompression" ∧ ∃ fc e u l, ConcreteMC2010.fcd b.own = .ok fc ∧ ConcreteMC2010.eps_c3 b.own = .ok e ∧
          ConcreteMC2010.eps_cu3 b.own = .ok u ∧ Bilinear.new? fc e (some u) = .ok l ∧ law = l.law) ∨
       (name = "parabolarectangle" ∧ ∃ fc e u n, ConcreteMC2010.fcd b.own = .ok fc ∧ ConcreteMC2010.eps_c2 b.own = .ok e ∧
          ConcreteMC2010.eps_cu2 b.own = .ok u ∧ ConcreteMC2010.n_parabolic_rectangular b.own = .ok n ∧
          law = (ParabolaRectangle.new fc e u n).law) ∨
       (name = "sargin" ∧ ∃ fc e u k, ConcreteMC2010.fcm b.own = .ok fc ∧ ConcreteMC2010.eps_c1 b.own = .ok e ∧
          ConcreteMC2010.eps_cu1 b.own = .ok u ∧ ConcreteMC2010.k_sargin b.own = .ok k ∧ law = (Sargin.new fc e u k).law) ∨
       (name = "popovics" ∧ ∃ fc e u E l, ConcreteMC2010.fcd b.own = .ok fc ∧ ConcreteMC2010.eps_c1 b.own = .ok e ∧
          ConcreteMC2010.eps_cu1 b.own = .ok u ∧ ConcreteMC2010.Eci b.own = .ok E ∧ Popovics.new? fc e u (some E) = .ok l ∧
          law = l.law)) := by
  obtain ⟨ho, -, law, hs, hm⟩ := newConcrete_ok h
  refine ⟨law, hm, ?_⟩
  rw [hn] at hs
  obtain ⟨c, kw, l, h1, h2, h3, -, h5⟩ := selectLaw_name hs
  rw [ho]
  have hfix : ∀ s : String, s ∈ lawNames → lower s = s := fun s hs => hl.fixed _ (by
    simp only [lawNames, List.mem_cons, List.not_mem_nil, or_false] at hs
    simp only [List.mem_cons, List.not_mem_nil, or_false]
    tauto)
  simp only [ConcClass.methods, ConcreteMC2010.methods] at h2
  split_ifs at h2 with g1 g2 g3 g4 g5
  · have hname : name = "elastic" := dunder_inj g1
    subst hname
    rw [hfix _ (by simp [lawNames])] at h1
    simp only [constitutiveLaws, List.lookup, String.reduceBEq, Option.some.injEq] at h1
    simp only [Option.some.injEq, except_bind_ok, except_pure_ok] at h2
    subst h1
    obtain ⟨E, hE, rfl⟩ := h2
    simp only [mkLaw, except_map_ok] at h3
    obtain ⟨l', h3, rfl⟩ := h3
    left
    exact ⟨rfl, E, l', hE, h3, h5⟩
  · have hname : name = "bilinearcompression" := dunder_inj g2
    subst hname
    rw [hfix _ (by simp [lawNames])] at h1
    simp only [constitutiveLaws, List.lookup, String.reduceBEq, Option.some.injEq] at h1
    simp only [Option.some.injEq, except_bind_ok, except_pure_ok] at h2
    subst h1
    obtain ⟨f, hf, e, he, u, hu, rfl⟩ := h2
    simp only [mkLaw, except_map_ok] at h3
    obtain ⟨l', h3, rfl⟩ := h3
    right; left
    exact ⟨rfl, f, e, u, l', hf, he, hu, h3, h5⟩
  · have hname : name = "parabolarectangle" := dunder_inj g3
    subst hname
    rw [hfix _ (by simp [lawNames])] at h1
    simp only [constitutiveLaws, List.lookup, String.reduceBEq, Option.some.injEq] at h1
    simp only [Option.some.injEq, except_bind_ok, except_pure_ok] at h2
    subst h1
    obtain ⟨f, hf, e, he, u, hu, n, hn, rfl⟩ := h2
    simp only [mkLaw, Except.ok.injEq] at h3
    subst h3
    right; right; left
    exact ⟨rfl, f, e, u, n, hf, he, hu, hn, h5⟩
  · have hname : name = "sargin" := dunder_inj g4
    subst hname
    rw [hfix _ (by simp [lawNames])] at h1
    simp only [constitutiveLaws, List.lookup, String.reduceBEq, Option.some.injEq] at h1
    simp only [Option.some.injEq, except_bind_ok, except_pure_ok] at h2
    subst h1
    obtain ⟨f, hf, e, he, u, hu, n, hn, rfl⟩ := h2
    simp only [mkLaw, Except.ok.injEq] at h3
    subst h3
    right; right; right; left
    exact ⟨rfl, f, e, u, n, hf, he, hu, hn, h5⟩
  · have hname : name = "popovics" := dunder_inj g5
    subst hname
    rw [hfix _ (by simp [lawNames])] at h1
    simp only [constitutiveLaws, List.lookup, String.reduceBEq, Option.some.injEq] at h1
    simp only [Option.some.injEq, except_bind_ok, except_pure_ok] at h2
    subst h1
    obtain ⟨f, hf, e, he, u, hu, E, hE, rfl⟩ := h2
    simp only [mkLaw, except_map_ok] at h3
    obtain ⟨l', h3, rfl⟩ := h3
    right; right; right; right
    exact ⟨rfl, f, e, u, E, l', hf, he, hu, hE, h3, h5⟩

/-- **C47 (law, EC2 2023).** A concrete constructed with a law name carries the law of that name, built from the values its
own properties return (and shifted by the initial strain as in C15); only the names listed are accepted, in lower case. -/
theorem C47_law_ec2_2023 (hl : PyLower lower) (a : ConcArgs) (b : Built Conc) (name : String)
    (h : newConcrete lower .ec2_2023 a = some (.ok b)) (hn : a.law = .name name) :
    ∃ law, Material.create a.density a.initialStrain a.initialStress a.compat law = some (.ok b.mat) ∧
      ((name = "elastic" ∧ ∃ E l, ConcreteEC2_2023.Ecm b.own = .ok E ∧ Elastic.mk? E none = .ok l ∧ law = l.law) ∨
       (name = "parabolarectangle" ∧ ∃ fc e u n, ConcreteEC2_2023.fcd b.own = .ok fc ∧ ConcreteEC2_2023.eps_c2 b.own = .ok e ∧
          ConcreteEC2_2023.eps_cu2 b.own = .ok u ∧ ConcreteEC2_2023.n_parabolic_rectangular b.own = .ok n ∧
          law = (ParabolaRectangle.new fc e u n).law) ∨
       (name = "sargin" ∧ ∃ fc e u k, ConcreteEC2_2023.fcm b.own = .ok fc ∧ ConcreteEC2_2023.eps_c1 b.own = .ok e ∧
          ConcreteEC2_2023.eps_cu1 b.own = .ok u ∧ ConcreteEC2_2023.k_sargin b.own = .ok k ∧ law = (Sargin.new fc e u k).law) ∨
       (name = "popovics" ∧ ∃ fc e u E l, ConcreteEC2_2023.fcd b.own = .ok fc ∧ ConcreteEC2_2023.eps_c1 b.own = .ok e ∧
          ConcreteEC2_2023.eps_cu1 b.own = .ok u ∧ ConcreteEC2_2023.Ecm b.own = .ok E ∧ Popovics.new? fc e u (some E) = .ok l ∧
          law = l.law)) := by
  obtain ⟨ho, -, law, hs, hm⟩ := newConcrete_ok h
  refine ⟨law, hm, ?_⟩
  rw [hn] at hs
  obtain ⟨c, kw, l, h1, h2, h3, -, h5⟩ := selectLaw_name hs
  rw [ho]
  have hfix : ∀ s : String, s ∈ lawNames → lower s = s := fun s hs => hl.fixed _ (by
    simp only [lawNames, List.mem_cons, List.not_mem_nil, or_false] at hs
    simp only [List.mem_cons, List.not_mem_nil, or_false]
    tauto)
  simp only [ConcClass.methods, ConcreteEC2_2023.methods] at h2
  split_ifs at h2 with g1 g2 g3 g4
  · have hname : name = "elastic" := dunder_inj g1
    subst hname
    rw [hfix _ (by simp [lawNames])] at h1
    simp only [constitutiveLaws, List.lookup, String.reduceBEq, Option.some.injEq] at h1
    simp only [Option.some.injEq, except_bind_ok, except_pure_ok] at h2
    subst h1
    obtain ⟨E, hE, rfl⟩ := h2
    simp only [mkLaw, except_map_ok] at h3
    obtain ⟨l', h3, rfl⟩ := h3
    left
    exact ⟨rfl, E, l', hE, h3, h5⟩
  · have hname : name = "parabolarectangle" := dunder_inj g2
    subst hname
    rw [hfix _ (by simp [lawNames])] at h1
    simp only [constitutiveLaws, List.lookup, String.reduceBEq, Option.some.injEq] at h1
    simp only [Option.some.injEq, except_bind_ok, except_pure_ok] at h2
    subst h1
    obtain ⟨f, hf, e, he, u, hu, n, hn, rfl⟩ := h2
    simp only [mkLaw, Except.ok.injEq] at h3
    subst h3
    right; left
    exact ⟨rfl, f, e, u, n, hf, he, hu, hn, h5⟩
  · have hname : name = "sargin" := dunder_inj g3
    subst hname
    rw [hfix _ (by simp [lawNames])] at h1
    simp only [constitutiveLaws, List.lookup, String.reduceBEq, Option.some.injEq] at h1
    simp only [Option.some.injEq, except_bind_ok, except_pure_ok] at h2
    subst h1
    obtain ⟨f, hf, e, he, u, hu, n, hn, rfl⟩ := h2
    simp only [mkLaw, Except.ok.injEq] at h3
    subst h3
    right; right; left
    exact ⟨rfl, f, e, u, n, hf, he, hu, hn, h5⟩
  · have hname : name = "popovics" := dunder_inj g4
    subst hname
    rw [hfix _ (by simp [lawNames])] at h1
    simp only [constitutiveLaws, List.lookup, String.reduceBEq, Option.some.injEq] at h1
    simp only [Option.some.injEq, except_bind_ok, except_pure_ok] at h2
    subst h1
    obtain ⟨f, hf, e, he, u, hu, E, hE, rfl⟩ := h2
    simp only [mkLaw, except_map_ok] at h3
    obtain ⟨l', h3, rfl⟩ := h3
    right; right; right
    exact ⟨rfl, f, e, u, E, l', hf, he, hu, hE, h3, h5⟩

/-! ### Accepted input -/

theorem newConcrete_mk {cls : ConcClass} {a : ConcArgs} {law : Law} (h1 : a.initialStrain = none)
    (h2 : a.initialStress = none) (h3 : cls.check a.store = .ok ())
    (h4 : selectLaw lower "concrete" a.law (cls.methods a.store) = .ok law) :
    newConcrete lower cls a = some (.ok ⟨a.store, ⟨|a.density|, none, none, a.compat, law⟩⟩) := by
  have : (do
      raiseIf (a.initialStrain.isSome ∧ a.initialStress.isSome)
      cls.check a.store
      selectLaw lower "concrete" a.law (cls.methods a.store) : Except PyErr Law) = .ok law := by
    simp only [except_bind_ok, raiseIf_ok]
    exact ⟨(), by simp [h1], (), h3, h4⟩
  unfold newConcrete
  rw [this, h1, h2]
  rfl

/-- **C47 (accepted input).** With the default law and without initial strain or stress, the two older concretes accept
every input that is not inconsistent: together with `C47_rejects` the acceptance is decided. -/
theorem C47_accepts (hl : PyLower lower) (cls : ConcClass) (hcls : cls ≠ .ec2_2023) (a : ConcArgs)
    (hlaw : a.law = .name "parabolarectangle") (h1 : a.initialStrain = none) (h2 : a.initialStress = none) :
    (∃ b, newConcrete lower cls a = some (.ok b)) ↔ ¬ Inconsistent a := by
  refine ⟨fun ⟨b, hb⟩ => newConcrete_consistent hb, fun hc => ?_⟩
  have hlook : constitutiveLaws.lookup (lower "parabolarectangle") = some .parabolaRectangle := by
    rw [hl.fixed _ (by simp)]; simp [constitutiveLaws, List.lookup]
  have hg : |Conc.gammaC a.store| ≠ 0 := by
    rw [show |Conc.gammaC a.store| = factor a.gamma_c 1.5 from orDefault_abs _ (by norm_num)]
    exact (factor_pos _ (by norm_num)).ne'
  cases cls with
  | ec2_2023 => exact absurd rfl hcls
  | ec2_2004 =>
    have hf : ∃ v, ConcreteEC2_2004.fcd a.store = .ok v := by
      unfold ConcreteEC2_2004.fcd EC2_2004.fcd
      rw [pyDiv_ok hg]; exact ⟨_, rfl⟩
    obtain ⟨f, hf⟩ := hf
    have hkw : ConcreteEC2_2004.methods a.store ("__" ++ "parabolarectangle" ++ "__") =
        some (.ok (.parabola f (given a.eps_c2 (EC2_2004.eps_c2 |a.fck|)) (given a.eps_cu2 (EC2_2004.eps_cu2 |a.fck|))
          (a.n.getD (EC2_2004.n_parabolic_rectangular |a.fck|)))) := by
      rw [show "__" ++ "parabolarectangle" ++ "__" = "__parabolarectangle__" by decide]
      have e1 : ConcreteEC2_2004.eps_c2 a.store = .ok (given a.eps_c2 (EC2_2004.eps_c2 |a.fck|)) := orElse_map _ _
      have e2 : ConcreteEC2_2004.eps_cu2 a.store = .ok (given a.eps_cu2 (EC2_2004.eps_cu2 |a.fck|)) := orElse_map _ _
      have e3 : ConcreteEC2_2004.n_parabolic_rectangular a.store = .ok (a.n.getD (EC2_2004.n_parabolic_rectangular |a.fck|)) := by
        unfold ConcreteEC2_2004.n_parabolic_rectangular
        simp only [ConcArgs.store]
        cases a.n <;> rfl
      simp only [ConcreteEC2_2004.methods, String.reduceEq, if_true, if_false, hf, e1, e2, e3]
      rfl
    have hs : ∃ l, selectLaw lower "concrete" a.law (ConcClass.methods .ec2_2004 a.store) = .ok l := by
      rw [hlaw]
      exact ⟨_, selectLaw_name_mk hlook hkw rfl (by simp [AnyLaw.materials])⟩
    obtain ⟨l, hs⟩ := hs
    exact ⟨_, newConcrete_mk h1 h2 (check_ok.2 hc) hs⟩
  | mc2010 =>
    have hf : ∃ v, ConcreteMC2010.fcd a.store = .ok v := by
      unfold ConcreteMC2010.fcd MC2010.fcd
      rw [pyDiv_ok hg]; exact ⟨_, rfl⟩
    obtain ⟨f, hf⟩ := hf
    have hkw : ConcreteMC2010.methods a.store ("__" ++ "parabolarectangle" ++ "__") =
        some (.ok (.parabola f (given a.eps_c2 (MC2010.eps_c2 |a.fck|)) (given a.eps_cu2 (MC2010.eps_cu2 |a.fck|))
          (a.n.getD (MC2010.n_parabolic_rectangular |a.fck|)))) := by
      rw [show "__" ++ "parabolarectangle" ++ "__" = "__parabolarectangle__" by decide]
      have e1 : ConcreteMC2010.eps_c2 a.store = .ok (given a.eps_c2 (MC2010.eps_c2 |a.fck|)) := orElse_map _ _
      have e2 : ConcreteMC2010.eps_cu2 a.store = .ok (given a.eps_cu2 (MC2010.eps_cu2 |a.fck|)) := orElse_map _ _
      have e3 : ConcreteMC2010.n_parabolic_rectangular a.store = .ok (a.n.getD (MC2010.n_parabolic_rectangular |a.fck|)) := by
        unfold ConcreteMC2010.n_parabolic_rectangular
        simp only [ConcArgs.store]
        cases a.n <;> rfl
      simp only [ConcreteMC2010.methods, String.reduceEq, if_true, if_false, hf, e1, e2, e3]
      rfl
    have hs : ∃ l, selectLaw lower "concrete" a.law (ConcClass.methods .mc2010 a.store) = .ok l := by
      rw [hlaw]
      exact ⟨_, selectLaw_name_mk hlook hkw rfl (by simp [AnyLaw.materials])⟩
    obtain ⟨l, hs⟩ := hs
    exact ⟨_, newConcrete_mk h1 h2 (check_ok.2 hc) hs⟩

/-- The default arguments of the constructors. -/
noncomputable def defaultArgs (fck : ℝ) : ConcArgs where
  fck := fck
  density := 2400
  gamma_c := none
  existing := false
  alpha_cc := none
  law := .name "parabolarectangle"
  initialStrain := none
  initialStress := none
  compat := none
  fcm := none
  fctm := none
  f05 := none
  f95 := none
  E := none
  Gf := none
  eps_c1 := none
  eps_cu1 := none
  k := none
  eps_c2 := none
  eps_cu2 := none
  n := none
  eps_c3 := none
  eps_cu3 := none
  kE := 9500
  dev := ['C', 'N']

theorem defaultArgs_consistent (fck : ℝ) : ¬ Inconsistent (defaultArgs fck) := by
  simp [Inconsistent, defaultArgs]

/-- Non-vacuity: a C30 with every other argument at its default, and one with given mean strength and strain. -/
example (hl : PyLower lower) : ∃ b, newConcrete lower .ec2_2004 (defaultArgs 30) = some (.ok b) :=
  (C47_accepts hl .ec2_2004 (by decide) _ rfl rfl rfl).2 (defaultArgs_consistent 30)

example (hl : PyLower lower) :
    ∃ b, newConcrete lower .mc2010 { defaultArgs (-30) with fcm := some (-40), eps_c2 := some (-0.0021) } = some (.ok b) :=
  (C47_accepts hl .mc2010 (by decide) _ rfl rfl rfl).2 (by
    rintro (⟨v, hv, h⟩ | ⟨v, hv, -⟩ | ⟨v, hv, -⟩)
    · simp only [Option.some.injEq] at hv; subst hv; norm_num [defaultArgs] at h
    · simp [defaultArgs] at hv
    · simp [defaultArgs] at hv)

/-- **C47 (accepted input, EC2 2023).** With the default law and without initial strain or stress, `ConcreteEC2_2023`
accepts exactly the input that is not inconsistent, has a known strength development class, a strength of at least 12 and no
partial factor below 1. -/
theorem C47_accepts_2023 (hl : PyLower lower) (a : ConcArgs)
    (hlaw : a.law = .name "parabolarectangle") (h1 : a.initialStrain = none) (h2 : a.initialStress = none) :
    (∃ b, newConcrete lower .ec2_2023 a = some (.ok b)) ↔
      ¬ Inconsistent a ∧ DevOk a ∧ 12 ≤ |a.fck| ∧ ∀ g, a.gamma_c = some g → 1 ≤ g := by
  constructor
  · rintro ⟨b, hb⟩
    obtain ⟨ho, hchk, -⟩ := newConcrete_ok hb
    obtain ⟨c1, c2, c3⟩ := check2023_ok.1 hchk
    obtain ⟨law, -, hx⟩ := C47_law_ec2_2023 hl a b _ hb hlaw
    simp only [String.reduceEq, false_and, true_and, false_or, or_false] at hx
    obtain ⟨fc, e, u, n, hf, -⟩ := hx
    rw [ho] at hf
    simp only [ConcreteEC2_2023.fcd, EC2_2023.fcd, except_bind_ok, raiseIf_ok] at hf
    obtain ⟨_, -, _, -, _, hf1, _, -, _, hf3, -⟩ := hf
    refine ⟨c1, c2, by simpa [ConcArgs.store] using hf1, fun g hg => ?_⟩
    have h0 : g ≠ 0 := (c3 g hg).ne'
    simpa [Conc.gammaC, ConcArgs.store, hg, orDefault, h0] using hf3
  · rintro ⟨c1, c2, c3, c4⟩
    have hlook : constitutiveLaws.lookup (lower "parabolarectangle") = some .parabolaRectangle := by
      rw [hl.fixed _ (by simp)]; simp [constitutiveLaws, List.lookup]
    have hchk : Conc.check2023 a.store = .ok () :=
      check2023_ok.2 ⟨c1, c2, fun g hg => by linarith [c4 g hg]⟩
    have hf := fcd2023 hchk c3 c4
    have hkw : ∃ kw, ConcreteEC2_2023.methods a.store ("__" ++ "parabolarectangle" ++ "__") = some (.ok kw) ∧
        ∃ l, mkLaw .parabolaRectangle kw = .ok l ∧ "concrete" ∈ l.materials := by
      refine ⟨.parabola (min ((40 / |a.fck|) ^ ((1 : ℝ) / 3)) 1 * |a.fck| / a.gamma_c.getD 1.5)
        (given a.eps_c2 EC2_2023.eps_c2) (given a.eps_cu2 EC2_2023.eps_cu2)
        (a.n.getD EC2_2023.n_parabolic_rectangular), ?_, _, rfl, by simp [AnyLaw.materials]⟩
      rw [show "__" ++ "parabolarectangle" ++ "__" = "__parabolarectangle__" by decide]
      have e1 : ConcreteEC2_2023.eps_c2 a.store = .ok (given a.eps_c2 (EC2_2023.eps_c2)) := orElse_map _ _
      have e2 : ConcreteEC2_2023.eps_cu2 a.store = .ok (given a.eps_cu2 (EC2_2023.eps_cu2)) := orElse_map _ _
      have e3 : ConcreteEC2_2023.n_parabolic_rectangular a.store = .ok (a.n.getD (EC2_2023.n_parabolic_rectangular)) := by
        unfold ConcreteEC2_2023.n_parabolic_rectangular
        simp only [ConcArgs.store]
        cases a.n <;> rfl
      simp only [ConcreteEC2_2023.methods, String.reduceEq, if_true, if_false, hf, e1, e2, e3]
      rfl
    obtain ⟨kw, hkw, l, hl1, hl2⟩ := hkw
    have hs : selectLaw lower "concrete" a.law (ConcClass.methods .ec2_2023 a.store) = .ok l.law := by
      rw [hlaw]
      exact selectLaw_name_mk hlook hkw hl1 hl2
    exact ⟨_, newConcrete_mk h1 h2 hchk hs⟩

/-- Non-vacuity: the default C30. -/
example (hl : PyLower lower) : ∃ b, newConcrete lower .ec2_2023 (defaultArgs 30) = some (.ok b) :=
  (C47_accepts_2023 hl _ rfl rfl rfl).2 ⟨defaultArgs_consistent 30, by unfold DevOk; decide,
    by norm_num [defaultArgs], by simp [defaultArgs]⟩

/-- **C47, violated (existing structures).** The factory's documentation says that for an existing structure `fck` is
the mean strength, and the base class answers `existing=True` with `NotImplementedError`; in fact every
concrete class drops the flag: the object is built as for a new structure, with mean strength `fck + 8`. -/
theorem C47_existing_violated (hl : PyLower lower) :
    ∃ b, newConcrete lower .ec2_2004 { defaultArgs 30 with existing := true } = some (.ok b) ∧
      ConcreteEC2_2004.fcm b.own = .ok 38 := by
  obtain ⟨b, hb⟩ := (C47_accepts hl .ec2_2004 (by decide) { defaultArgs 30 with existing := true } rfl rfl rfl).2
    (by simp [Inconsistent, defaultArgs])
  obtain ⟨-, -, h, -⟩ := C47_values_ec2_2004 _ b hb _ _ _ _ rfl rfl rfl rfl
  refine ⟨b, hb, ?_⟩
  rw [h]
  norm_num [given, defaultArgs]

/-- **C47, violated (round trip, MC2010).** For every strength of the tables, the strain `eps_c1` read from a default
concrete is negative, and a concrete constructed with the very value read returns the opposite. -/
theorem C47_roundtrip_violated (hl : PyLower lower) (f : ℝ) (h1 : 12 ≤ f) (h2 : f ≤ 120) :
    ∃ b b' e, newConcrete lower .mc2010 (defaultArgs f) = some (.ok b) ∧
      ConcreteMC2010.eps_c1 b.own = .ok e ∧ e < 0 ∧
      newConcrete lower .mc2010 { defaultArgs f with eps_c1 := some e } = some (.ok b') ∧
      ConcreteMC2010.eps_c1 b'.own = .ok (-e) := by
  obtain ⟨e, el, k, he, hel, hk, -⟩ := (MC2010.C45_table_range f).2 h1 h2
  have hneg : e < 0 := by
    have := (MC2010.C45_table_order f e el k he hel hk).2.2.2.2.1
    linarith
  obtain ⟨b, hb⟩ := (C47_accepts hl .mc2010 (by decide) (defaultArgs f) rfl rfl rfl).2 (defaultArgs_consistent _)
  obtain ⟨b', hb'⟩ := (C47_accepts hl .mc2010 (by decide) { defaultArgs f with eps_c1 := some e } rfl rfl rfl).2
    (by simp [Inconsistent, defaultArgs])
  obtain ⟨-, -, -, -, -, -, -, -, -, ⟨-, h⟩, -⟩ := C47_values_mc2010 _ b hb _ _ rfl rfl
  obtain ⟨-, -, -, -, -, -, -, -, -, ⟨h', -⟩, -⟩ := C47_values_mc2010 _ b' hb' _ _ rfl rfl
  refine ⟨b, b', e, hb, ?_, hneg, hb', ?_⟩
  · rw [h rfl]
    show MC2010.eps_c1 |f| = _
    rw [abs_of_nonneg (by linarith), he]
  · rw [h' _ rfl, abs_of_neg hneg]

end SC
