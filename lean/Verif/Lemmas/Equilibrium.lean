import Verif.Model.Equilibrium
import Verif.Lemmas.Loop

set_option autoImplicit false

namespace SC

/-- Dyadic fractions of the unit interval. -/
def DyadicUnit (t : ℝ) : Prop := ∃ p k : ℕ, p ≤ 2 ^ k ∧ t = p / 2 ^ k

theorem DyadicUnit.zero : DyadicUnit 0 := ⟨0, 0, by simp, by simp⟩
theorem DyadicUnit.one : DyadicUnit 1 := ⟨1, 0, by simp, by simp⟩

theorem DyadicUnit.mid {s t : ℝ} (hs : DyadicUnit s) (ht : DyadicUnit t) :
    DyadicUnit ((s + t) / 2) := by
  obtain ⟨p, k, hp, rfl⟩ := hs
  obtain ⟨q, l, hq, rfl⟩ := ht
  refine ⟨p * 2 ^ l + q * 2 ^ k, k + l + 1, ?_, ?_⟩
  · have h1 : p * 2 ^ l ≤ 2 ^ k * 2 ^ l := Nat.mul_le_mul_right _ hp
    have h2 : q * 2 ^ k ≤ 2 ^ l * 2 ^ k := Nat.mul_le_mul_right _ hq
    calc p * 2 ^ l + q * 2 ^ k ≤ 2 ^ k * 2 ^ l + 2 ^ l * 2 ^ k := by omega
      _ = 2 ^ (k + l + 1) := by ring
  · push_cast
    field_simp
    ring

theorem DyadicUnit.mem_Icc {t : ℝ} (h : DyadicUnit t) : 0 ≤ t ∧ t ≤ 1 := by
  obtain ⟨p, k, hp, rfl⟩ := h
  refine ⟨by positivity, ?_⟩
  rw [div_le_one (by positivity)]
  exact_mod_cast hp

/-- Loop invariant of the bisection started on `[a0, b0]`. -/
structure BisInv (f : ℝ → ℝ) (a0 b0 : ℝ) (s : BisState) : Prop where
  ha : ∃ t, DyadicUnit t ∧ s.a = a0 + t * (b0 - a0)
  hb : ∃ t, DyadicUnit t ∧ s.b = a0 + t * (b0 - a0)
  hda : s.da = f s.a
  hdb : s.db = f s.b
  hwidth : s.b - s.a = (b0 - a0) / 2 ^ s.it
  hit : s.it ≤ 100
  hc : (s.c = none ∧ s.it = 0 ∧ s.a = a0 ∧ s.b = b0) ∨
    ((s.c = some s.a ∨ s.c = some s.b) ∧ 0 < s.it)
  hsign : s.da * s.db < 0 ∨ 0 ≤ f a0 * f b0 ∨
    ∃ t, DyadicUnit t ∧ f (a0 + t * (b0 - a0)) = 0

theorem bisInv_start (f : ℝ → ℝ) (a0 b0 : ℝ) : BisInv f a0 b0 ⟨a0, f a0, b0, f b0, none, 0⟩ where
  ha := ⟨0, .zero, by ring⟩
  hb := ⟨1, .one, by ring⟩
  hda := rfl
  hdb := rfl
  hwidth := by simp
  hit := by simp
  hc := Or.inl ⟨rfl, rfl, rfl, rfl⟩
  hsign := by
    by_cases h : f a0 * f b0 < 0
    · exact Or.inl h
    · exact Or.inr (Or.inl (not_lt.1 h))

theorem bisInv_step (f : ℝ → ℝ) (a0 b0 : ℝ) (s s' : BisState) (h : BisInv f a0 b0 s)
    (hc : bisCond s) (hb : bisBody f s = .ok s') : BisInv f a0 b0 s' ∧ s'.it = s.it + 1 := by
  obtain ⟨ta, hta, hae⟩ := h.ha
  obtain ⟨tb, htb, hbe⟩ := h.hb
  have hce : (s.a + s.b) / 2 = a0 + (ta + tb) / 2 * (b0 - a0) := by rw [hae, hbe]; ring
  have hlt := hc.2
  have hw := h.hwidth
  simp only [bisBody] at hb
  split_ifs at hb with hneg
  · simp only [Except.ok.injEq] at hb
    subst hb
    refine ⟨⟨h.ha, ⟨_, hta.mid htb, hce⟩, h.hda, rfl, ?_, by simpa using hlt, ?_, ?_⟩, rfl⟩
    · simp only [pow_succ]
      have : (s.a + s.b) / 2 - s.a = (s.b - s.a) / 2 := by ring
      rw [this, hw]
      field_simp
    · exact Or.inr ⟨Or.inr rfl, by simp⟩
    · exact Or.inl (by rw [mul_comm]; exact hneg)
  · simp only [Except.ok.injEq] at hb
    subst hb
    refine ⟨⟨⟨_, hta.mid htb, hce⟩, h.hb, rfl, h.hdb, ?_, by simpa using hlt, ?_, ?_⟩, rfl⟩
    · simp only [pow_succ]
      have : s.b - (s.a + s.b) / 2 = (s.b - s.a) / 2 := by ring
      rw [this, hw]
      field_simp
    · exact Or.inr ⟨Or.inl rfl, by simp⟩
    · rcases h.hsign with hs | hs | hs
      · by_cases h0 : f ((s.a + s.b) / 2) = 0
        · exact Or.inr (Or.inr ⟨_, hta.mid htb, by rw [← hce]; exact h0⟩)
        · left
          push Not at hneg
          have hda0 : s.da ≠ 0 := by rintro h'; simp [h'] at hs
          have hpos : 0 < f ((s.a + s.b) / 2) * s.da :=
            lt_of_le_of_ne hneg (Ne.symm (mul_ne_zero h0 hda0))
          by_contra hcon
          push Not at hcon
          simp only at hcon
          rcases mul_pos_iff.1 hpos with ⟨h1, h2⟩ | ⟨h1, h2⟩
          · have : s.db < 0 := by
              by_contra h3; push Not at h3
              nlinarith
            nlinarith
          · have : 0 < s.db := by
              by_contra h3; push Not at h3
              nlinarith
            nlinarith
      · exact Or.inr (Or.inl hs)
      · exact Or.inr (Or.inr hs)

/-- The bisection always stops, after at most 100 integrations. -/
theorem bisection_terminates (f : ℝ → ℝ) (a b da db : ℝ) :
    ∃ r k, bisection f a da b db = some (r, k) ∧ k ≤ 100 := by
  obtain ⟨r, k, hr, hk⟩ := pyWhile_terminates (cond := bisCond) (body := bisBody f)
    (fun _ => True) (fun s => 100 - s.it)
    (by
      intro s s' _ hc hb
      have : s'.it = s.it + 1 := by
        simp only [bisBody] at hb
        split_ifs at hb <;> · simp only [Except.ok.injEq] at hb; subst hb; rfl
      have := hc.2
      exact ⟨trivial, by omega⟩)
    (by intro s _ hc; have := hc.2; omega)
    (s := ⟨a, da, b, db, none, 0⟩) trivial
  exact ⟨_, _, by rw [bisection, hr]; rfl, hk⟩

/-- What a result of the bisection means. -/
theorem bisection_spec (f : ℝ → ℝ) (a b : ℝ) {r : Except PyErr ℝ} {k : ℕ}
    (h : bisection f a (f a) b (f b) = some (r, k)) :
    (∀ c, r = .ok c → (∃ t, DyadicUnit t ∧ c = a + t * (b - a)) ∧
      (f a * f b < 0 → (∀ t, DyadicUnit t → f (a + t * (b - a)) ≠ 0) → |f c| < 1e-2)) ∧
    (∀ e, r = .error e → e = .valueError ∨ (e = .unboundLocal ∧ |f a - f b| ≤ 1e-2)) := by
  unfold bisection at h
  rw [Option.map_eq_some_iff] at h
  obtain ⟨⟨w, k'⟩, hw, hr⟩ := h
  simp only [Prod.mk.injEq] at hr
  obtain ⟨hr, rfl⟩ := hr
  rcases pyWhile_inv (BisInv f a b) (fun s s' hI hc hb => (bisInv_step f a b s s' hI hc hb).1)
    (bisInv_start f a b) hw with ⟨s, rfl, hI, hn⟩ | ⟨s, e, -, -, -, hb⟩
  · simp only at hr
    split_ifs at hr with h100
    · subst hr
      exact ⟨by simp, by simp⟩
    · have hgap : |s.da - s.db| ≤ 1e-2 := by
        by_contra hcon
        exact hn ⟨not_le.1 hcon, by omega⟩
      rcases hI.hc with ⟨hc, -, hea, heb⟩ | ⟨hc, -⟩
      · rw [hc] at hr
        simp only at hr
        subst hr
        refine ⟨by simp, ?_⟩
        intro e he
        simp only [Except.error.injEq] at he
        refine Or.inr ⟨he.symm, ?_⟩
        rw [hI.hda, hI.hdb, hea, heb] at hgap
        exact hgap
      · have key : ∀ c, s.c = some c → (∃ t, DyadicUnit t ∧ c = a + t * (b - a)) ∧
            (f a * f b < 0 → (∀ t, DyadicUnit t → f (a + t * (b - a)) ≠ 0) → |f c| < 1e-2) := by
          intro c hcc
          constructor
          · rcases hc with hc | hc <;> rw [hc] at hcc <;> simp only [Option.some.injEq] at hcc
            · rw [← hcc]; exact hI.ha
            · rw [← hcc]; exact hI.hb
          · intro hbr hz
            rcases hI.hsign with hs | hs | ⟨t, ht, h0⟩
            · have hab : f c = s.da ∨ f c = s.db := by
                rcases hc with hc | hc <;> rw [hc] at hcc <;> simp only [Option.some.injEq] at hcc
                · rw [← hcc]; exact Or.inl hI.hda.symm
                · rw [← hcc]; exact Or.inr hI.hdb.symm
              rcases mul_neg_iff.1 hs with ⟨h1, h2⟩ | ⟨h1, h2⟩
              · rw [abs_le] at hgap
                rw [abs_lt]
                rcases hab with h | h <;> rw [h] <;> constructor <;> linarith [hgap.1, hgap.2]
              · rw [abs_le] at hgap
                rw [abs_lt]
                rcases hab with h | h <;> rw [h] <;> constructor <;> linarith [hgap.1, hgap.2]
            · linarith
            · exact absurd h0 (hz t ht)
        rcases hc with hc | hc
        · rw [hc] at hr
          simp only at hr
          subst hr
          refine ⟨?_, by simp⟩
          intro c he
          simp only [Except.ok.injEq] at he
          subst he
          exact key _ hc
        · rw [hc] at hr
          simp only at hr
          subst hr
          refine ⟨?_, by simp⟩
          intro c he
          simp only [Except.ok.injEq] at he
          subst he
          exact key _ hc
  · simp only [bisBody] at hb
    split_ifs at hb

/-- With a Lipschitz residual the bisection does not run out of iterations. -/
theorem bisection_lipschitz (f : ℝ → ℝ) (a b L : ℝ)
    (hL : ∀ t u, DyadicUnit t → DyadicUnit u →
      |f (a + t * (b - a)) - f (a + u * (b - a))| ≤ L * |t - u| * |b - a|)
    (hsmall : L * |b - a| ≤ 2 ^ 99 * 1e-2) (hne : 1e-2 < |f a - f b|) :
    ∃ c k, bisection f a (f a) b (f b) = some (.ok c, k) := by
  obtain ⟨r, k, hr, -⟩ := bisection_terminates f a b (f a) (f b)
  cases r with
  | ok c => exact ⟨c, k, hr⟩
  | error e =>
    exfalso
    have hspec := (bisection_spec f a b hr).2 e rfl
    rcases hspec with rfl | ⟨-, hle⟩
    · unfold bisection at hr
      rw [Option.map_eq_some_iff] at hr
      obtain ⟨⟨w, k'⟩, hw, hr⟩ := hr
      simp only [Prod.mk.injEq] at hr
      obtain ⟨hr, rfl⟩ := hr
      rcases pyWhile_inv (fun s => BisInv f a b s ∧ (∀ m, s.it = m + 1 → 1e-2 < L * |b - a| / 2 ^ m))
        (by
          intro s s' ⟨hI, _⟩ hc hb
          obtain ⟨hI', hit⟩ := bisInv_step f a b s s' hI hc hb
          refine ⟨hI', ?_⟩
          intro m hm
          have hm' : s.it = m := by omega
          obtain ⟨t, ht, hat⟩ := hI.ha
          obtain ⟨u, hu, hbu⟩ := hI.hb
          have h1 := hc.1
          rw [hI.hda, hI.hdb, hat, hbu] at h1
          have h2 := hL t u ht hu
          have h3 : |t - u| * |b - a| = |b - a| / 2 ^ m := by
            have := hI.hwidth
            rw [hat, hbu, hm'] at this
            rw [abs_sub_comm t u, ← abs_mul]
            have h4 : (u - t) * (b - a) = (b - a) / 2 ^ m := by linarith
            rw [h4, abs_div, abs_of_pos (by positivity : (0:ℝ) < 2 ^ m)]
          have h5 : L * |t - u| * |b - a| = L * |b - a| / 2 ^ m := by
            rw [mul_assoc, h3]; ring
          linarith)
        (⟨bisInv_start f a b, by intro m hm; simp at hm⟩) hw with
        ⟨s, rfl, ⟨hI, hJ⟩, hn⟩ | ⟨s, e, -, -, -, hb⟩
      · simp only at hr
        split_ifs at hr with h100
        · have h100' : s.it = 99 + 1 := by have := hI.hit; omega
          have := hJ 99 h100'
          rw [lt_div_iff₀ (by positivity)] at this
          linarith
        · rcases hI.hc with ⟨hc, -⟩ | ⟨hc | hc, -⟩ <;> rw [hc] at hr <;> simp at hr
      · simp only [bisBody] at hb
        split_ifs at hb
    · linarith


theorem preSign_pos {d : ℝ} (h : 0 < d) : preSign d = -1 := if_pos h
theorem preSign_neg {d : ℝ} (h : d < 0) : preSign d = 1 := if_neg (not_lt.2 h.le)

/-- Strains tried by the bracketing search. -/
def TrialAt (epsA dnA x : ℝ) : Prop :=
  ∃ i j : ℕ, i < 20 ∧ j < 20 ∧ x = epsA + preSign dnA * 1e-3 * 2 ^ i / 2 ^ j

/-- Loop invariant of the bracketing search. -/
structure PreInv (f : ℝ → ℝ) (epsA dnA : ℝ) (s : PreState) : Prop where
  hit : s.it ≤ 20
  hrest : s.restarts ≤ 20
  hdelta : s.delta = 1e-3 / 2 ^ s.restarts
  hb : s.it = 0 ∨ (s.b.2 = f s.b.1 ∧ TrialAt epsA dnA s.b.1)
  hfound : s.found = true → dnA * s.b.2 < 0
  hnot : s.restarts = 20 → s.found = true ∨ (0 ≤ dnA * s.b.2 ∧ |s.b.2| > |dnA|)

theorem preInv_start (f : ℝ → ℝ) (epsA dnA : ℝ) : PreInv f epsA dnA preStart where
  hit := by simp [preStart]
  hrest := by simp [preStart]
  hdelta := by simp [preStart]
  hb := Or.inl rfl
  hfound := by simp [preStart]
  hnot := by simp [preStart]

theorem preInv_step (f : ℝ → ℝ) (epsA dnA : ℝ) (s s' : PreState) (h : PreInv f epsA dnA s)
    (hc : preCond s) (hb : preBody f epsA dnA s = .ok s') : PreInv f epsA dnA s' := by
  obtain ⟨hc1, hc2, hc3⟩ := hc
  have htrial : TrialAt epsA dnA (epsA + preSign dnA * s.delta * 2 ^ s.it) :=
    ⟨s.it, s.restarts, hc2, hc3, by rw [h.hdelta]; ring⟩
  simp only [preBody] at hb
  split_ifs at hb with h1 h2 h3 <;> simp only [Except.ok.injEq] at hb <;> subst hb
  · exact ⟨by simpa using hc2, h.hrest, h.hdelta, Or.inr ⟨rfl, htrial⟩, fun _ => h1, fun _ => Or.inl rfl⟩
  · exact ⟨by simp, by simpa using hc3, by simp only [h.hdelta, pow_succ]; ring,
      Or.inr ⟨rfl, htrial⟩, by simp, fun _ => Or.inr ⟨not_lt.1 h1, h2⟩⟩
  · exact ⟨by simpa using hc2, h.hrest, h.hdelta, Or.inr ⟨rfl, htrial⟩, by simp,
      fun h' => absurd h' (by simp; omega)⟩
  · exact ⟨by simpa using hc2, h.hrest, h.hdelta, Or.inr ⟨rfl, htrial⟩, by simp,
      fun h' => absurd h' (by simp; omega)⟩

/-- The bracketing search always stops, after at most 381 trial planes. -/
theorem prefind_terminates (f : ℝ → ℝ) (epsA dnA : ℝ) :
    ∃ r k, prefind f epsA dnA = some (r, k) ∧ k ≤ 381 := by
  obtain ⟨r, k, hr, hk⟩ := pyWhile_terminates (cond := preCond) (body := preBody f epsA dnA)
    (fun s => s.it ≤ 20)
    (fun s => if s.found = true ∨ 20 ≤ s.restarts then 0 else (19 - s.restarts) * 19 + (20 - s.it))
    (by
      intro s s' _ hc hb
      obtain ⟨hc1, hc2, hc3⟩ := hc
      have hM : (if s.found = true ∨ 20 ≤ s.restarts then 0 else (19 - s.restarts) * 19 + (20 - s.it))
          = (19 - s.restarts) * 19 + (20 - s.it) := by
        rw [if_neg]; simp [hc1, hc3]
      simp only [hM]
      simp only [preBody] at hb
      split_ifs at hb with h1 h2 h3 <;> simp only [Except.ok.injEq] at hb <;> subst hb
      · refine ⟨by simp only; omega, by simp only [true_or, if_true]; omega⟩
      · refine ⟨by simp, ?_⟩
        by_cases hr : 20 ≤ s.restarts + 1
        · rw [if_pos (Or.inr hr)]; omega
        · rw [if_neg (by simp; omega)]; simp only; omega
      · refine ⟨by simp only; omega, ?_⟩
        rw [if_neg (by simp; omega)]; simp only; omega
      · refine ⟨by simp only; omega, ?_⟩
        rw [if_neg (by simp; omega)]; simp only; omega)
    (by
      intro s _ hc
      obtain ⟨hc1, hc2, hc3⟩ := hc
      rw [if_neg (by simp [hc1, hc3])]; omega)
    (s := preStart) (by simp [preStart])
  refine ⟨_, _, by rw [prefind, hr]; rfl, hk.trans (by simp [preStart])⟩

/-- What a result of the bracketing search means. -/
theorem prefind_spec (f : ℝ → ℝ) (epsA dnA : ℝ) {r : Except PyErr (ℝ × ℝ)} {k : ℕ}
    (h : prefind f epsA dnA = some (r, k)) :
    (∀ eb db, r = .ok (eb, db) → db = f eb ∧ TrialAt epsA dnA eb ∧
      (dnA * db < 0 ∨ (0 ≤ dnA * db ∧ |db| > |dnA|))) ∧
    (∀ e, r = .error e → e = .valueError) := by
  unfold prefind at h
  rw [Option.map_eq_some_iff] at h
  obtain ⟨⟨w, k'⟩, hw, hr⟩ := h
  simp only [Prod.mk.injEq] at hr
  obtain ⟨hr, rfl⟩ := hr
  rcases pyWhile_inv (fun s => PreInv f epsA dnA s ∧ (s.it = 0 → s = preStart))
    (fun s s' hI hc hb => ⟨preInv_step f epsA dnA s s' hI.1 hc hb, by
      simp only [preBody] at hb
      split_ifs at hb <;> simp only [Except.ok.injEq] at hb <;> subst hb <;> simp⟩)
    ⟨preInv_start f epsA dnA, fun _ => rfl⟩ hw with ⟨s, rfl, ⟨hI, h0⟩, hn⟩ | ⟨s, e, -, -, -, hb⟩
  · simp only at hr
    split_ifs at hr with hexit
    · subst hr
      exact ⟨by simp, by simp⟩
    · subst hr
      refine ⟨?_, by simp⟩
      intro eb db he
      simp only [Except.ok.injEq] at he
      have h1 : eb = s.b.1 := by rw [he]
      have h2 : db = s.b.2 := by rw [he]
      subst h1 h2
      have hit0 : s.it ≠ 0 := by
        intro h'
        rw [h0 h'] at hn
        exact hn (by simp [preCond, preStart])
      rcases hI.hb with h' | ⟨hf, htr⟩
      · exact absurd h' hit0
      refine ⟨hf, htr, ?_⟩
      cases hfo : s.found with
      | true => exact Or.inl (hI.hfound hfo)
      | false =>
        have hlt : s.it < 20 := by
          by_contra h'; exact hexit ⟨by omega, hfo⟩
        have : s.restarts = 20 := by
          by_contra h'
          exact hn ⟨hfo, hlt, by have := hI.hrest; omega⟩
        rcases hI.hnot this with h' | h'
        · rw [hfo] at h'; cases h'
        · exact Or.inr h'
  · simp only [preBody] at hb
    split_ifs at hb

/-- A non-decreasing residual that changes sign within reach is always bracketed. -/
theorem prefind_monotone (f : ℝ → ℝ) (epsA : ℝ) (hf : Monotone f) (h0 : f epsA ≠ 0)
    (hreach : f (epsA - 1e-3 * 2 ^ 19) < 0 ∧ 0 < f (epsA + 1e-3 * 2 ^ 19)) :
    ∃ eb k, prefind f epsA (f epsA) = some (.ok (eb, f eb), k) ∧ f epsA * f eb < 0 ∧
      |eb - epsA| ≤ 1e-3 * 2 ^ 19 := by
  obtain ⟨r, k, hr, -⟩ := prefind_terminates f epsA (f epsA)
  have hspec := prefind_spec f epsA (f epsA) hr
  have hr' := hr
  unfold prefind at hr'
  rw [Option.map_eq_some_iff] at hr'
  obtain ⟨⟨w, k'⟩, hw, hr'⟩ := hr'
  simp only [Prod.mk.injEq] at hr'
  obtain ⟨hr', rfl⟩ := hr'
  have hnd : ∀ d : ℝ, 0 ≤ d → ¬ (¬ f epsA * f (epsA + preSign (f epsA) * d) < 0 ∧
      |f (epsA + preSign (f epsA) * d)| > |f epsA|) := by
    rintro d hd ⟨h1, h2⟩
    rcases lt_or_gt_of_ne h0 with hneg | hpos
    · rw [preSign_neg hneg] at h1 h2
      have hm : f epsA ≤ f (epsA + 1 * d) := hf (by linarith)
      have : f (epsA + 1 * d) ≤ 0 := by
        by_contra h'; push Not at h'
        exact h1 (mul_neg_of_neg_of_pos hneg h')
      rw [abs_of_nonpos this, abs_of_neg hneg] at h2
      linarith
    · rw [preSign_pos hpos] at h1 h2
      have hm : f (epsA + -1 * d) ≤ f epsA := hf (by linarith)
      have : 0 ≤ f (epsA + -1 * d) := by
        by_contra h'; push Not at h'
        exact h1 (mul_neg_of_pos_of_neg hpos h')
      rw [abs_of_nonneg this, abs_of_pos hpos] at h2
      linarith
  have hlast : f epsA * f (epsA + preSign (f epsA) * (1e-3 * 2 ^ 19)) < 0 := by
    rcases lt_or_gt_of_ne h0 with hneg | hpos
    · rw [preSign_neg hneg, one_mul]
      exact mul_neg_of_neg_of_pos hneg hreach.2
    · rw [preSign_pos hpos, neg_one_mul, ← sub_eq_add_neg]
      exact mul_neg_of_pos_of_neg hpos hreach.1
  rcases pyWhile_inv (fun s => PreInv f epsA (f epsA) s ∧ s.restarts = 0 ∧
      (s.it = 20 → s.found = true))
    (fun s s' hI hc hb => ⟨preInv_step f epsA (f epsA) s s' hI.1 hc hb, by
      obtain ⟨hI, hre, -⟩ := hI
      obtain ⟨hc1, hc2, hc3⟩ := hc
      have hdl : s.delta = 1e-3 := by rw [hI.hdelta, hre]; norm_num
      have := hnd (s.delta * 2 ^ s.it) (by rw [hdl]; positivity)
      rw [← mul_assoc] at this
      simp only [preBody] at hb
      split_ifs at hb with h1 h2 h3
      · simp only [Except.ok.injEq] at hb; subst hb; simp [hre]
      · exact absurd ⟨h1, h2⟩ this
      · exact absurd ⟨h1, h2⟩ this
      · simp only [Except.ok.injEq] at hb
        subst hb
        refine ⟨hre, ?_⟩
        intro h20
        have h19 : s.it = 19 := by simpa using h20
        rw [hdl, h19, mul_assoc] at h1
        exact absurd hlast h1⟩)
    ⟨preInv_start f epsA (f epsA), rfl, by simp [preStart]⟩ hw with
    ⟨s, rfl, ⟨hI, hre, h20⟩, hn⟩ | ⟨s, e, -, -, -, hb⟩
  · have hfo : s.found = true := by
      by_contra hcon
      have hfo : s.found = false := by simpa using hcon
      have : ¬ s.it < 20 := fun h' => hn ⟨hfo, h', by omega⟩
      have := hI.hit
      exact hcon (h20 (by omega))
    simp only at hr'
    rw [if_neg (by simp [hfo])] at hr'
    subst hr'
    have hbr := hI.hfound hfo
    obtain ⟨e1, ⟨i, j, hi, hj, he⟩, -⟩ := hspec.1 s.b.1 s.b.2 rfl
    refine ⟨s.b.1, k', by rw [hr, ← e1], by rw [← e1]; exact hbr, ?_⟩
    rw [he]
    have hs : |(preSign (f epsA))| = 1 := by unfold preSign; split_ifs <;> simp
    have : epsA + preSign (f epsA) * 1e-3 * 2 ^ i / 2 ^ j - epsA =
      preSign (f epsA) * (1e-3 * 2 ^ i / 2 ^ j) := by ring
    rw [this, abs_mul, hs, one_mul, abs_of_nonneg (by positivity), div_le_iff₀ (by positivity)]
    have h1 : (2:ℝ) ^ i ≤ 2 ^ 19 := pow_le_pow_right₀ (by norm_num) (by omega)
    have h2 : (1:ℝ) ≤ 2 ^ j := one_le_pow₀ (by norm_num)
    nlinarith [mul_le_mul h1 h2 (by norm_num) (by positivity)]
  · simp only [preBody] at hb
    split_ifs at hb

end SC
