import Verif.Props.Materials
import Verif.Props.Steels

/-! # C47, C48: law objects, tensile design strength, characteristic yield strain -/

set_option autoImplicit false

namespace SC

open Spec

variable {lower : String → String}

/-- Every error of the concrete constructors before the initial strain is applied is a `ValueError` when the law is an
object. -/
theorem concCheck_error {cls : ConcClass} {a : ConcArgs} {e : PyErr} (h : cls.check a.store = .error e) :
    e = .valueError := by
  cases cls with
  | ec2_2004 | mc2010 =>
    by_cases hi : Inconsistent a
    · simpa [ConcClass.check, check_error hi] using h.symm
    · exact absurd (h.symm.trans (check_ok (u := ()).2 hi)) (by simp)
  | ec2_2023 => exact check2023_error h

/-- **C47 (law object).** A law object is taken as it is: the material then has exactly this law (no initial strain given),
whatever the class; an object that is not meant for concrete is rejected with `ValueError`. -/
theorem C47_law_object (cls : ConcClass) (a : ConcArgs) (l : Law) (ms : List String) (hlaw : a.law = .obj l ms) :
    ("concrete" ∉ ms → newConcrete lower cls a = some (.error .valueError)) ∧
    (∀ b, newConcrete lower cls a = some (.ok b) → "concrete" ∈ ms) ∧
    (∀ b, a.initialStrain = none → a.initialStress = none → newConcrete lower cls a = some (.ok b) →
      b.mat.law = l) ∧
    ("concrete" ∈ ms → a.initialStrain = none → a.initialStress = none → cls.check a.store = .ok () →
      ∃ b, newConcrete lower cls a = some (.ok b)) := by
  have hno : "concrete" ∉ ms → newConcrete lower cls a = some (.error .valueError) := by
    intro hn
    unfold newConcrete
    rw [show (do
      raiseIf (a.initialStrain.isSome ∧ a.initialStress.isSome)
      cls.check a.store
      selectLaw lower "concrete" a.law (cls.methods a.store) : Except PyErr Law) = .error .valueError from ?_]
    by_cases hi : a.initialStrain.isSome ∧ a.initialStress.isSome
    · rw [raiseIf_error.2 ⟨hi, rfl⟩]; rfl
    · rw [raiseIf_ok (u := ()) |>.2 hi]
      cases hc : cls.check a.store with
      | error e => rw [concCheck_error hc]; rfl
      | ok u =>
        simp only [bind, Except.bind, hlaw, selectLaw, if_neg hn]
  refine ⟨hno, ?_, ?_, ?_⟩
  · intro b hb
    by_contra hn
    rw [hno hn] at hb
    simp at hb
  · intro b h1 h2 hb
    obtain ⟨-, -, law, h3, h4⟩ := newConcrete_ok hb
    rw [hlaw] at h3
    simp only [selectLaw] at h3
    split_ifs at h3
    simp only [Except.ok.injEq] at h3
    subst h3
    rw [h1, h2, C15_none] at h4
    simp only [Option.some.injEq, Except.ok.injEq] at h4
    rw [← h4]
  · intro hm h1 h2 hc
    refine ⟨_, newConcrete_mk h1 h2 hc (law := l) ?_⟩
    rw [hlaw]
    exact if_pos hm

/-- **C48 (law object).** The same for the reinforcements. -/
theorem C48_law_object (cls : SteelClass) (a : SteelArgs) (l : Law) (ms : List String) (hlaw : a.law = .obj l ms) :
    ("steel" ∉ ms → newSteel lower cls a = some (.error .valueError)) ∧
    ("steel" ∈ ms → a.initialStrain = none → a.initialStress = none →
      ∃ b, newSteel lower cls a = some (.ok b) ∧ b.mat.law = l) := by
  constructor
  · intro hn
    unfold newSteel
    rw [show (do
      raiseIf (a.initialStrain.isSome ∧ a.initialStress.isSome)
      selectLaw lower "steel" a.law (a.store.methods cls) : Except PyErr Law) = .error .valueError from ?_]
    by_cases hi : a.initialStrain.isSome ∧ a.initialStress.isSome
    · rw [raiseIf_error.2 ⟨hi, rfl⟩]; rfl
    · rw [raiseIf_ok (u := ()) |>.2 hi]
      simp only [bind, Except.bind, hlaw, selectLaw, if_neg hn]
  · intro hm h1 h2
    exact ⟨_, newSteel_mk h1 h2 (law := l) (by rw [hlaw]; exact if_pos hm), rfl⟩

/-- **C48 (characteristic yield strain).** The characteristic yield strain is the strength over the modulus. -/
theorem C48_epsyk (a : SteelArgs) : (a.Es ≠ 0 → a.store.epsyk = .ok (|a.fyk| / |a.Es|)) ∧
    (a.Es = 0 → a.store.epsyk = .error .zeroDivision) := by
  unfold Steel.epsyk
  constructor
  · intro h
    exact pyDiv_ok (abs_ne_zero.2 h)
  · intro h
    simp [SteelArgs.store, h, pyDiv]

/-- **C47 (tensile design strength, EC2 2023).** For every accepted concrete and every reference age: 0.8 times (a
reference age of at most 28 days, or 56 for slow development) or 0.7 times the 5 % fractile, divided by the partial factor. -/
theorem C47_fctd_ec2_2023 (a : ConcArgs) (b : Built Conc) (h : newConcrete lower .ec2_2023 a = some (.ok b))
    (hg : ∀ g, a.gamma_c = some g → 1 ≤ g) (t_ref : ℝ) (ht : 0 ≤ t_ref) :
    ∃ k, ConcreteEC2_2023.fctd b.own t_ref =
        .ok (k * given a.f05 (given a.fctm (EC2_2023.fctm |a.fck|) * 0.7) / a.gamma_c.getD 1.5) ∧
      (t_ref ≤ 28 → k = 0.8) ∧ (56 < t_ref → k = 0.7) ∧
      (28 < t_ref → t_ref ≤ 56 →
        k = if pyLower (pyStrip a.dev) = "cs".toList ∨ pyLower (pyStrip a.dev) = "slow".toList then 0.8 else 0.7) := by
  obtain ⟨ho, hchk, -⟩ := newConcrete_ok h
  obtain ⟨-, -, -, -, hf, -⟩ := C47_values_ec2_2023 a b h _ _ rfl rfl
  set f := given a.f05 (given a.fctm (EC2_2023.fctm |a.fck|) * 0.7) with hfd
  have hTnn : 0 ≤ given a.fctm (EC2_2023.fctm |a.fck|) := by
    unfold given
    cases a.fctm with
    | some v => exact abs_nonneg v
    | none => simp only [EC2_2023.fctm]; split_ifs <;> positivity
  have hf0 : 0 ≤ f := by
    rw [hfd]
    cases a.f05 with
    | some v => exact abs_nonneg v
    | none => exact mul_nonneg hTnn (by norm_num)
  have hgam : a.store.gammaC = a.gamma_c.getD 1.5 ∧ 1 ≤ a.store.gammaC := by
    unfold Conc.gammaC
    show orDefault a.gamma_c 1.5 = _ ∧ _
    cases hgc : a.gamma_c with
    | none => simp only [orDefault, ConcArgs.store, hgc]; norm_num
    | some g =>
      have := hg g hgc
      have h0 : g ≠ 0 := by linarith
      simp [orDefault, ConcArgs.store, hgc, h0, this]
  have hfin : ∀ k, EC2_2023.k_tt t_ref b.own.dev = .ok k →
      ConcreteEC2_2023.fctd b.own t_ref = .ok (k * f / a.gamma_c.getD 1.5) := by
    intro k hk
    unfold ConcreteEC2_2023.fctd
    rw [hk, hf, ho]
    simp only [bind, Except.bind, EC2_2023.fctd]
    rw [raiseIf_ok (u := ()) |>.2 (not_lt.2 hf0), raiseIf_ok (u := ()) |>.2 (not_lt.2 hgam.2), hgam.1]
    rfl
  have hd : DevOk a := (check2023_ok.1 hchk).2.1
  have hdev : b.own.dev = pyLower (pyStrip a.dev) := by rw [ho]; rfl
  have ht' : raiseIf (t_ref < 0) = .ok () := raiseIf_ok.2 (not_lt.2 ht)
  unfold DevOk at hd
  rw [← hdev] at hd ⊢
  generalize b.own.dev = d at hd hfin
  simp only [List.mem_cons, List.not_mem_nil, or_false] at hd
  have key : ∀ v, EC2_2023.dev d = .ok v → ∃ k, EC2_2023.k_tt t_ref d = .ok k ∧
      (t_ref ≤ EC2_2023.refAge v → k = 0.8) ∧ (EC2_2023.refAge v < t_ref → k = 0.7) := by
    intro v hv
    have hu : EC2_2023.k_tt t_ref d = .ok (open Classical in if t_ref ≤ EC2_2023.refAge v then 0.8 else 0.7) := by
      simp only [EC2_2023.k_tt, ht', hv, bind, Except.bind, pure, Except.pure]
    exact ⟨_, hu, fun h => if_pos h, fun h => if_neg (not_le.2 h)⟩
  have slow : EC2_2023.dev d = .ok .slow → (d = "cs".toList ∨ d = "slow".toList) → ∃ k,
      ConcreteEC2_2023.fctd b.own t_ref = .ok (k * f / a.gamma_c.getD 1.5) ∧
      (t_ref ≤ 28 → k = 0.8) ∧ (56 < t_ref → k = 0.7) ∧ (28 < t_ref → t_ref ≤ 56 →
        k = if d = "cs".toList ∨ d = "slow".toList then 0.8 else 0.7) := by
    intro h1 h2
    obtain ⟨k, hk, k1, k2⟩ := key _ h1
    refine ⟨k, hfin k hk, fun h => k1 ?_, fun h => k2 ?_, fun h h' => ?_⟩
    · simp only [EC2_2023.refAge]; linarith
    · simp only [EC2_2023.refAge]; linarith
    · rw [if_pos h2]; exact k1 h'
  have fast : ∀ v, EC2_2023.dev d = .ok v → EC2_2023.refAge v = 28 → ¬ (d = "cs".toList ∨ d = "slow".toList) → ∃ k,
      ConcreteEC2_2023.fctd b.own t_ref = .ok (k * f / a.gamma_c.getD 1.5) ∧
      (t_ref ≤ 28 → k = 0.8) ∧ (56 < t_ref → k = 0.7) ∧ (28 < t_ref → t_ref ≤ 56 →
        k = if d = "cs".toList ∨ d = "slow".toList then 0.8 else 0.7) := by
    intro v h1 hv h2
    obtain ⟨k, hk, k1, k2⟩ := key _ h1
    rw [hv] at k1 k2
    refine ⟨k, hfin k hk, k1, fun h => k2 (by linarith), fun h h' => ?_⟩
    rw [if_neg h2]; exact k2 h
  rcases hd with rfl | rfl | rfl | rfl | rfl | rfl
  · exact slow (by decide) (by decide)
  · exact fast .normal (by decide) rfl (by decide)
  · exact fast .rapid (by decide) rfl (by decide)
  · exact slow (by decide) (by decide)
  · exact fast .normal (by decide) rfl (by decide)
  · exact fast .rapid (by decide) rfl (by decide)

/-- Non-vacuity: the default C30. -/
example (hl : PyLower lower) : ∃ b v, newConcrete lower .ec2_2023 (defaultArgs 30) = some (.ok b) ∧
    ConcreteEC2_2023.fctd b.own = .ok v := by
  obtain ⟨b, hb⟩ := (C47_accepts_2023 hl (defaultArgs 30) rfl rfl rfl).2 ⟨defaultArgs_consistent 30,
    by unfold DevOk; decide, by norm_num [defaultArgs], by simp [defaultArgs]⟩
  obtain ⟨k, hk, -⟩ := C47_fctd_ec2_2023 _ b hb (by simp [defaultArgs]) 28 (by norm_num)
  exact ⟨b, _, hb, hk⟩

/-- Non-vacuity: an elastic law object for a C30, and one meant for steel only. -/
example (l : Law) : (∃ b, newConcrete lower .ec2_2004 { defaultArgs 30 with law := .obj l ["concrete", "steel"] } =
      some (.ok b)) ∧
    newConcrete lower .mc2010 { defaultArgs 30 with law := .obj l ["steel"] } = some (.error .valueError) := by
  constructor
  · exact (C47_law_object .ec2_2004 { defaultArgs 30 with law := .obj l ["concrete", "steel"] } l _ rfl).2.2.2
      (by simp) rfl rfl (check_ok.2 (defaultArgs_consistent 30))
  · exact (C47_law_object .mc2010 { defaultArgs 30 with law := .obj l ["steel"] } l _ rfl).1 (by simp)

end SC
