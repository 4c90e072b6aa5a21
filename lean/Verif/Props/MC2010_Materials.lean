import Verif.Props.EC2_2004_Creep
import Verif.Props.EC2_2004_Materials
import Verif.Lemmas.InterpMono

/-! # C45: MC2010 concrete and steel properties, creep and shrinkage -/

set_option autoImplicit false

open Filter Topology

namespace SC.MC2010

/-! ### Strengths -/

theorem fctm_eq (f : ℝ) : fctm f = EC2_2004.fctm f := by
  simp [EC2_2004.fctm, fctm, fcm]

theorem fctm_pos (f : ℝ) (hf : f ≠ 0) : 0 < fctm f := by rw [fctm_eq]; exact EC2_2004.fctm_pos f hf

/-- **C45 (strengths).** For every strength other than 0 (of either sign) and every margin other than 0, the
mean strength exceeds the characteristic one; the tensile strengths are positive and ordered; and the
fracture energy is positive. -/
theorem C45_strengths (f d : ℝ) (hf : f ≠ 0) (hd : d ≠ 0) :
    |f| < fcm f d ∧ 0 < fctkmin (fctm f) ∧ fctkmin (fctm f) < fctm f ∧ fctm f < fctkmax (fctm f) ∧ 0 < Gf f := by
  have h := fctm_pos f hf
  have h1 := abs_pos.2 hf
  have h2 := abs_pos.2 hd
  refine ⟨by unfold fcm; linarith, by unfold fctkmin; linarith, by unfold fctkmin; linarith,
    by unfold fctkmax; linarith, ?_⟩
  unfold Gf
  have : 0 < fcm f := by unfold fcm; positivity
  have := Real.rpow_pos_of_pos this 0.18
  positivity

example : (30 : ℝ) ≠ 0 ∧ (8 : ℝ) ≠ 0 := by norm_num

/-- **C45 (sign).** The sign of the strength is irrelevant, except for the functions with a table
(`C45_table_sign`). -/
theorem C45_sign (f : ℝ) : fcm (-f) = fcm f ∧ fctm (-f) = fctm f ∧ Gf (-f) = Gf f ∧ eps_c2 (-f) = eps_c2 f ∧
    eps_cu2 (-f) = eps_cu2 f ∧ n_parabolic_rectangular (-f) = n_parabolic_rectangular f ∧ eps_c3 (-f) = eps_c3 f ∧
    eps_cu3 (-f) = eps_cu3 f ∧ ∀ a g, fcd (-f) a g = fcd f a g := by
  simp [fcm, fctm, Gf, eps_c2, eps_cu2, n_parabolic_rectangular, eps_c3, eps_cu3, fcd]

/-- **C45 (tensile strength), partial.** `fctm` never decreases within each of the two ranges
`|fck| ≤ 50` and `|fck| > 50`.  Missing: across 50, where it drops (`C45_fctm_violated`). -/
theorem C45_fctm_partial (a b : ℝ) (h0 : 0 ≤ a) (hab : a ≤ b) (h : b ≤ 50 ∨ 50 < a) : fctm a ≤ fctm b := by
  rw [fctm_eq, fctm_eq]; exact EC2_2004.C40_fctm_partial a b h0 hab h

/-- **C45 (tensile strength), violated.** Just above 50 MPa `fctm` is lower than at 50 MPa. -/
theorem C45_fctm_violated : fctm 50.1 < fctm 50 := by
  rw [fctm_eq, fctm_eq]; exact EC2_2004.C40_fctm_violated

/-- **C45 (design strength).** -/
theorem C45_fcd (f a g : ℝ) : fcd f a 0 = .error .zeroDivision ∧
    (g ≠ 0 → fcd f a g = .ok (|a| * |f| / |g|)) ∧
    (|a| ≤ 1 → 1 ≤ |g| → ∃ r, fcd f a g = .ok r ∧ 0 ≤ r ∧ r ≤ |f|) := by
  refine ⟨by simp [fcd, pyDiv], fun h => by simp [fcd, pyDiv, h], fun ha hg => ?_⟩
  refine ⟨_, pyDiv_ok (by linarith), by positivity, ?_⟩
  rw [div_le_iff₀ (by linarith)]
  have := abs_nonneg f
  nlinarith

/-! ### Modulus -/

theorem alphaE_cases (c : List Char) (a : ℝ) (h : alphaE c = some a) : 0.7 ≤ a ∧ a ≤ 1.2 := by
  unfold alphaE at h
  split at h <;> simp at h <;> subst h <;> norm_num

/-- **C45 (modulus).** Whenever the modulus is returned it is positive and between 0.7 and 1.2 times the
quartzite one; at `fcm = 10` quartzite gives `EC0`; it never decreases with the strength; the only failure is a
`KeyError`, exactly for aggregates that are not (up to case) one of the four known ones. -/
theorem C45_Eci (m E0 : ℝ) (hm : 0 < m) (hE : 0 < E0) (agg : List Char) :
    (∀ E, Eci m agg E0 = .ok E → 0 < E ∧
      0.7 * (E0 * (m / 10) ^ ((1 : ℝ) / 3)) ≤ E ∧ E ≤ 1.2 * (E0 * (m / 10) ^ ((1 : ℝ) / 3)) ∧
      ∀ m', m ≤ m' → ∃ E', Eci m' agg E0 = .ok E' ∧ E ≤ E') ∧
    (∀ e, Eci m agg E0 = .error e → e = .keyError) ∧
    ((∃ E, Eci m agg E0 = .ok E) ↔ pyLower agg ∈ ["basalt".toList, "quartzite".toList, "limestone".toList,
      "sandstone".toList]) ∧
    Eci 10 "Quartzite".toList E0 = .ok E0 := by
  have hp : 0 < (m / 10) ^ ((1 : ℝ) / 3) := Real.rpow_pos_of_pos (by positivity) _
  refine ⟨fun E h => ?_, fun e h => ?_, ⟨?_, fun h => ?_⟩, ?_⟩
  · unfold Eci at h
    cases ha : alphaE (pyLower agg) with
    | none => rw [ha] at h; simp at h
    | some a =>
      rw [ha] at h
      obtain ⟨h1, h2⟩ := alphaE_cases _ _ ha
      have hE' : E0 * a * (m / 10) ^ ((1 : ℝ) / 3) = E := by simpa using h
      have hb : 0 < E0 * (m / 10) ^ ((1 : ℝ) / 3) := by positivity
      have e : E = a * (E0 * (m / 10) ^ ((1 : ℝ) / 3)) := by rw [← hE']; ring
      refine ⟨by rw [e]; apply mul_pos _ hb; linarith, by rw [e]; nlinarith, by rw [e]; nlinarith, fun m' hm' => ?_⟩
      refine ⟨_, by unfold Eci; rw [ha], ?_⟩
      rw [← hE']
      have : (m / 10) ^ ((1 : ℝ) / 3) ≤ (m' / 10) ^ ((1 : ℝ) / 3) :=
        Real.rpow_le_rpow (by positivity) (by linarith) (by norm_num)
      apply mul_le_mul_of_nonneg_left this
      apply mul_nonneg hE.le; linarith
  · unfold Eci at h
    cases ha : alphaE (pyLower agg) with
    | none => rw [ha] at h; simpa using h.symm
    | some a => rw [ha] at h; simp at h
  · rintro ⟨E, h⟩
    unfold Eci at h
    by_contra hc
    have : alphaE (pyLower agg) = none := by
      unfold alphaE
      split
      · rename_i e; rw [e] at hc; exact absurd (by decide) hc
      · rename_i e; rw [e] at hc; exact absurd (by decide) hc
      · rename_i e; rw [e] at hc; exact absurd (by decide) hc
      · rename_i e; rw [e] at hc; exact absurd (by decide) hc
      · rfl
    rw [this] at h; simp at h
  · simp only [List.mem_cons, List.not_mem_nil, or_false] at h
    rcases h with h | h | h | h <;> unfold Eci <;> rw [h] <;> exact ⟨_, rfl⟩
  · have : pyLower "Quartzite".toList = ['q', 'u', 'a', 'r', 't', 'z', 'i', 't', 'e'] := by decide
    unfold Eci; rw [this]; simp [alphaE]

/-! ### Development in time -/

theorem sCem_cases (c : List Char) (s : ℝ) (h : sCem c = some s) : 0.2 ≤ s ∧ s ≤ 0.38 := by
  unfold sCem at h
  split at h <;> simp at h <;> subst h <;> norm_num

theorem beta_cc_eq (t m : ℝ) (cem : List Char) (b : ℝ) (h : beta_cc t m cem = .ok b) :
    ∃ s, 0.2 ≤ s ∧ s ≤ 0.38 ∧ (∀ u, beta_cc u m cem = .ok (EC2_2004.beta_cc u s)) ∧ b = EC2_2004.beta_cc t s := by
  unfold beta_cc at h
  split_ifs at h with hm
  · refine ⟨0.2, by norm_num, by norm_num, fun u => by simp [beta_cc, hm, EC2_2004.beta_cc], ?_⟩
    simpa [EC2_2004.beta_cc] using h.symm
  · cases hs : sCem (pyUpper cem) with
    | none => rw [hs] at h; simp at h
    | some s =>
      rw [hs] at h
      obtain ⟨h1, h2⟩ := sCem_cases _ _ hs
      refine ⟨s, h1, h2, fun u => by simp [beta_cc, hm, hs, EC2_2004.beta_cc], ?_⟩
      simpa [EC2_2004.beta_cc] using h.symm

/-- **C45 (strength and stiffness in time).** Whenever the factor of an age `t > 0` is returned, it is
positive, it is 1 at 28 days, it never decreases with the age and stays below `exp 0.38`; so is its square root
(the stiffness factor). -/
theorem C45_beta_cc (t m : ℝ) (ht : 0 < t) (cem : List Char) (b : ℝ) (h : beta_cc t m cem = .ok b) :
    0 < b ∧ b ≤ Real.exp 0.38 ∧ 0 < beta_e b ∧ beta_e b ^ 2 = b ∧ beta_cc 28 m cem = .ok 1 ∧ beta_e 1 = 1 ∧
    ∀ u, t ≤ u → ∃ b', beta_cc u m cem = .ok b' ∧ b ≤ b' ∧ beta_e b ≤ beta_e b' := by
  obtain ⟨s, h1, h2, hall, rfl⟩ := beta_cc_eq t m cem b h
  obtain ⟨p1, p2, p3⟩ := EC2_2004.C40_beta_cc s (by linarith)
  have hb := (p3 t ht).1
  refine ⟨hb, (p3 t ht).2.trans (Real.exp_le_exp.2 h2), Real.sqrt_pos.2 hb, Real.sq_sqrt hb.le, by rw [hall, p1],
    by simp [beta_e], fun u hu => ⟨_, hall u, p2 t u ht hu, Real.sqrt_le_sqrt (p2 t u ht hu)⟩⟩

/-- **C45 (cement class).** Up to 60 MPa exactly the six cement classes (up to case) are accepted and any other
string is a `KeyError`; above 60 MPa every string is accepted and ignored. -/
theorem C45_beta_cc_class (t m : ℝ) (cem : List Char) :
    (60 < m → beta_cc t m cem = .ok (Real.exp (0.2 * (1 - Real.sqrt (28 / t))))) ∧
    (m ≤ 60 → ((∃ b, beta_cc t m cem = .ok b) ↔ pyUpper cem ∈ ["32.5 N".toList, "32.5 R".toList, "42.5 N".toList,
      "42.5 R".toList, "52.5 N".toList, "52.5 R".toList])) ∧
    (∀ e, beta_cc t m cem = .error e → e = .keyError) := by
  refine ⟨fun h => by simp [beta_cc, h], fun h => ⟨?_, fun hc => ?_⟩, fun e h => ?_⟩
  · rintro ⟨b, hb⟩
    simp only [beta_cc, gt_iff_lt, not_lt.2 h, if_false] at hb
    by_contra hc
    have : sCem (pyUpper cem) = none := by
      unfold sCem
      split <;> first | rfl | (rename_i e; rw [e] at hc; exact absurd (by decide) hc)
    rw [this] at hb; simp at hb
  · simp only [beta_cc, gt_iff_lt, not_lt.2 h, if_false]
    simp only [List.mem_cons, List.not_mem_nil, or_false] at hc
    rcases hc with h | h | h | h | h | h <;> rw [h] <;> exact ⟨_, rfl⟩
  · unfold beta_cc at h
    split_ifs at h
    cases hs : sCem (pyUpper cem) with
    | none => rw [hs] at h; simpa using h.symm
    | some s => rw [hs] at h; simp at h

/-! ### Strains of the parabola-rectangle and bilinear laws -/

theorem eps_c2_eq (f : ℝ) : eps_c2 f = EC2_2004.eps_c2 f := by
  simp only [eps_c2, EC2_2004.eps_c2]
theorem eps_cu2_eq (f : ℝ) : eps_cu2 f = EC2_2004.eps_cu2 f := by
  simp only [eps_cu2, EC2_2004.eps_cu2]
theorem eps_c3_eq (f : ℝ) : eps_c3 f = EC2_2004.eps_c3 f := by
  simp only [eps_c3, EC2_2004.eps_c3]
theorem n_eq (f : ℝ) : n_parabolic_rectangular f = EC2_2004.n_parabolic_rectangular f := by
  simp only [n_parabolic_rectangular, EC2_2004.n_parabolic_rectangular]

/-- **C45 (order of strains), partial.** `0 < eps_c2 < eps_cu2` up to 89 MPa and `0 < eps_c3 < eps_cu3` up to
90 MPa, and the exponent is in `[1.4, 2]`.  Missing: `eps_c2 < eps_cu2` up to 90 MPa, false at C90
(`C45_C90_violated`). -/
theorem C45_strains_partial (f : ℝ) (hf : |f| ≤ 90) :
    (|f| ≤ 89 → 0 < eps_c2 f ∧ eps_c2 f < eps_cu2 f) ∧ 0 < eps_c3 f ∧ eps_c3 f < eps_cu3 f ∧
    1.4 ≤ n_parabolic_rectangular f ∧ n_parabolic_rectangular f ≤ 2 := by
  refine ⟨fun h => ?_, ?_⟩
  · rw [eps_c2_eq, eps_cu2_eq]; exact EC2_2004.C40_eps_c2_le_eps_cu2_partial f h
  · have := EC2_2004.C40_eps_c3_le_eps_cu3 f hf
    rw [eps_c3_eq]
    unfold eps_cu3
    rw [eps_cu2_eq]
    refine ⟨this.1, this.2, ?_⟩
    unfold n_parabolic_rectangular
    split_ifs with h
    · constructor <;> norm_num
    · have h1 : 0 ≤ (90 - |f|) / 100 := by linarith
      have h2 : (90 - |f|) / 100 ≤ 0.4 := by linarith
      have h3 := pow_le_pow_left₀ h1 h2 4
      have h4 : 0 ≤ ((90 - |f|) / 100) ^ 4 := by positivity
      constructor
      · linarith
      · norm_num at h3 ⊢; linarith

theorem C45_C90_violated : eps_cu2 90 < eps_c2 90 := by
  rw [eps_c2_eq, eps_cu2_eq]; exact EC2_2004.C40_C90_violated

example : |(70 : ℝ)| ≤ 90 := by norm_num

/-- **C45 (trend of strains).** Between 0 and 90 MPa `eps_c2`, `eps_c3` never decrease and `eps_cu2`, the exponent
never increase with the strength. -/
theorem C45_strains_monotone (a b : ℝ) (h0 : 0 ≤ a) (hab : a ≤ b) (hb : b ≤ 90) :
    eps_c2 a ≤ eps_c2 b ∧ eps_c3 a ≤ eps_c3 b ∧ eps_cu2 b ≤ eps_cu2 a ∧
    n_parabolic_rectangular b ≤ n_parabolic_rectangular a := by
  have hb0 := h0.trans hab
  simp only [eps_c2, eps_c3, eps_cu2, n_parabolic_rectangular, abs_of_nonneg h0, abs_of_nonneg hb0]
  have p4 : ∀ x : ℝ, 50 < x → x ≤ 90 → 0 ≤ ((90 - x) / 100) ^ 4 ∧ ((90 - x) / 100) ^ 4 ≤ 0.0256 := by
    intro x h1 h2
    refine ⟨by positivity, ?_⟩
    have := pow_le_pow_left₀ (by linarith : 0 ≤ (90 - x) / 100) (by linarith : (90 - x) / 100 ≤ 0.4) 4
    norm_num at this ⊢; linarith
  by_cases ha : a ≤ 50 <;> by_cases hb' : b ≤ 50
  · simp [ha, hb']
  · simp only [ha, hb', if_true, if_false]
    obtain ⟨q1, q2⟩ := p4 b (not_le.1 hb') hb
    have : 0 ≤ (b - 50) ^ (0.53 : ℝ) := Real.rpow_nonneg (by linarith) _
    have hb2 := not_le.1 hb'
    exact ⟨by linarith, by linarith, by linarith, by linarith⟩
  · exact absurd (hab.trans hb') ha
  · simp only [ha, hb', if_false]
    have ha2 := not_le.1 ha
    have h1 : (a - 50) ^ (0.53 : ℝ) ≤ (b - 50) ^ (0.53 : ℝ) := Real.rpow_le_rpow (by linarith) (by linarith) (by norm_num)
    have h2 : ((90 - b) / 100) ^ 4 ≤ ((90 - a) / 100) ^ 4 := pow_le_pow_left₀ (by linarith) (by linarith) 4
    exact ⟨by linarith, by linarith, by linarith, by linarith⟩

/-! ### Tables -/

/-- **C45 (range of the tables).** `eps_c1`, `eps_clim`, `k_sargin` raise a `ValueError` exactly outside
`[12, 120]` MPa. -/
theorem C45_table_range (f : ℝ) :
    (f < 12 ∨ 120 < f → eps_c1 f = .error .valueError ∧ eps_clim f = .error .valueError ∧
      k_sargin f = .error .valueError ∧ eps_cu1 f = .error .valueError) ∧
    (12 ≤ f → f ≤ 120 → ∃ a b c, eps_c1 f = .ok a ∧ eps_clim f = .ok b ∧ k_sargin f = .ok c ∧ eps_cu1 f = .ok b) := by
  constructor
  · intro h
    have : f < 12 ∨ f > 120 := h
    simp [eps_c1, eps_clim, k_sargin, eps_cu1, tableLookup, this, Except.map]
  · intro h1 h2
    have : ¬ (f < 12 ∨ f > 120) := by push Not; exact ⟨h1, h2⟩
    simp [eps_c1, eps_clim, k_sargin, eps_cu1, tableLookup, this, Except.map]

/-- **C45, table sign.** Unlike the others, these functions do not accept a negative strength. -/
theorem C45_table_sign (f : ℝ) (h : 0 < f) : eps_c1 (-f) = .error .valueError ∧ k_sargin (-f) = .error .valueError := by
  have := (C45_table_range (-f)).1 (.inl (by linarith))
  exact ⟨this.1, this.2.2.1⟩

theorem lookup_ok {table : List (ℝ × ℝ)} {f v : ℝ} (h : tableLookup table f = .ok v) : 12 ≤ f ∧ f ≤ 120 ∧
    v = interp f table (table.head?.map Prod.snd |>.getD 0) (table.getLast?.map Prod.snd |>.getD 0) := by
  unfold tableLookup at h
  split_ifs at h with hf
  push Not at hf
  exact ⟨hf.1, hf.2, by simpa using h.symm⟩

/-- Two tables with the same abscissae, the ordinates of the first not above those of the second. -/
def Below : List (ℝ × ℝ) → List (ℝ × ℝ) → Prop
  | [], [] => True
  | (a, b) :: r, (c, d) :: s => a = c ∧ b ≤ d ∧ Below r s
  | _, _ => False

theorem interpGo_below {x r r' : ℝ} (hr : r ≤ r') : ∀ (p q : List (ℝ × ℝ)), Below p q →
    (∀ a b rest, p = (a, b) :: rest → a ≤ x) → interpGo x r p ≤ interpGo x r' q
  | [], [], _, _ => hr
  | [(a, b)], [(c, d)], h, _ => by
    obtain ⟨rfl, h2, -⟩ := h
    simp only [interpGo]; split_ifs <;> assumption
  | (a, b) :: (c, d) :: rest, (a', b') :: (c', d') :: rest', h, hx => by
    obtain ⟨rfl, h2, h3⟩ := h
    obtain ⟨rfl, h4, h5⟩ := id h3
    have hax := hx a b _ rfl
    simp only [interpGo]
    split_ifs with hc
    · have h1 : 0 < c - a := by linarith
      have e : ∀ b d : ℝ, (d - b) / (c - a) * (x - a) + b = b * ((c - x) / (c - a)) + d * ((x - a) / (c - a)) := by
        intro b d; field_simp; ring
      rw [e, e]
      have i1 : 0 ≤ (c - x) / (c - a) := div_nonneg (by linarith) h1.le
      have i2 : 0 ≤ (x - a) / (c - a) := div_nonneg (by linarith) h1.le
      nlinarith
    · exact interpGo_below hr _ _ h3 (fun a b rest e => by
        simp only [List.cons.injEq, Prod.mk.injEq] at e
        rw [← e.1.1]; exact not_lt.1 hc)
  | [], _ :: _, h, _ => by simp [Below] at h
  | _ :: _, [], h, _ => by simp [Below] at h
  | [_], _ :: _ :: _, h, _ => by simp [Below] at h
  | _ :: _ :: _, [_], h, _ => by simp [Below] at h

theorem interp_below {x l r l' r' : ℝ} (hl : l ≤ l') (hr : r ≤ r') (p q : List (ℝ × ℝ)) (h : Below p q) :
    interp x p l r ≤ interp x q l' r' := by
  match p, q, h with
  | [], [], _ => exact hr
  | (a, b) :: rest, (c, d) :: rest', h =>
    have h' := h
    obtain ⟨rfl, h2, h3⟩ := h'
    simp only [interp]
    split_ifs with hx
    · exact hl
    · exact interpGo_below hr _ _ h (fun a b rest e => by
        simp only [List.cons.injEq, Prod.mk.injEq] at e
        rw [← e.1.1]; exact not_lt.1 hx)

/-- **C45 (order in the tables).** Whenever they are returned: `eps_clim ≤ eps_c1 < 0` (so the peak strain is
reached before the ultimate one), `-3.5‰ ≤ eps_clim ≤ -3‰`, `-3‰ ≤ eps_c1 ≤ -1.9‰`, `1.18 ≤ k ≤ 2.44`. -/
theorem C45_table_order (f e1 el k : ℝ) (h1 : eps_c1 f = .ok e1) (h2 : eps_clim f = .ok el) (h3 : k_sargin f = .ok k) :
    el ≤ e1 ∧ -3.5 / 1000 ≤ el ∧ el ≤ -3 / 1000 ∧ -3 / 1000 ≤ e1 ∧ e1 ≤ -1.9 / 1000 ∧ 1.18 ≤ k ∧ k ≤ 2.44 := by
  unfold eps_c1 at h1
  unfold eps_clim at h2
  unfold k_sargin at h3
  cases g1 : tableLookup epsC1Table f with
  | error e => rw [g1] at h1; simp [Except.map] at h1
  | ok v1 =>
  cases g2 : tableLookup epsClimTable f with
  | error e => rw [g2] at h2; simp [Except.map] at h2
  | ok v2 =>
  rw [g1] at h1; rw [g2] at h2
  simp only [Except.map, Except.ok.injEq] at h1 h2
  obtain ⟨hf1, hf2, rfl⟩ := lookup_ok g1
  obtain ⟨-, -, rfl⟩ := lookup_ok g2
  obtain ⟨-, -, rfl⟩ := lookup_ok h3
  have F1 : Falling (-3.0) epsC1Table := by simp only [epsC1Table, Falling]; norm_num
  have F2 : Rising (-3.0) epsClimTable := by simp only [epsClimTable, Rising]; norm_num
  have F3 : Falling 1.18 kSarginTable := by simp only [kSarginTable, Falling]; norm_num
  have F4 : Below epsClimTable epsC1Table := by simp only [epsClimTable, epsC1Table, Below]; norm_num
  have b1 := interp_fall_bounds (l := -1.9) (x := f) _ _ _ F1 le_rfl
  have b2 := interp_rise_bounds (l := -3.5) (x := f) _ _ _ F2 le_rfl
  have b3 := interp_fall_bounds (l := 2.44) (x := f) _ _ _ F3 le_rfl
  have b4 := interp_below (x := f) (l := -3.5) (r := -3.0) (l' := -1.9) (r' := -3.0) (by norm_num) le_rfl _ _ F4
  simp only [epsC1Table, epsClimTable, kSarginTable, List.head?_cons, Option.map_some, Option.getD_some,
    List.getLast?_cons_cons, List.getLast?_singleton] at h1 h2 b1 b2 b3 b4 ⊢
  rw [← h1, ← h2]
  obtain ⟨b11, b12⟩ := b1
  obtain ⟨b21, b22⟩ := b2
  refine ⟨by linarith, by linarith, by linarith, by linarith, by linarith, b3.1, b3.2⟩

/-- **C45 (trend in the tables).** On `[12, 120]`, with growing strength the peak strain never shrinks in
magnitude, the ultimate strain never grows in magnitude, and `k` never grows. -/
theorem C45_table_monotone (f g : ℝ) (h1 : 12 ≤ f) (hfg : f ≤ g) (h2 : g ≤ 120) :
    (∃ a b, eps_c1 f = .ok a ∧ eps_c1 g = .ok b ∧ b ≤ a) ∧ (∃ a b, eps_clim f = .ok a ∧ eps_clim g = .ok b ∧ a ≤ b) ∧
    (∃ a b, k_sargin f = .ok a ∧ k_sargin g = .ok b ∧ b ≤ a) := by
  have nf : ¬ (f < 12 ∨ f > 120) := by push Not; exact ⟨h1, hfg.trans h2⟩
  have ng : ¬ (g < 12 ∨ g > 120) := by push Not; exact ⟨h1.trans hfg, h2⟩
  have F1 : Falling (-3.0) epsC1Table := by simp only [epsC1Table, Falling]; norm_num
  have F2 : Rising (-3.0) epsClimTable := by simp only [epsClimTable, Rising]; norm_num
  have F3 : Falling 1.18 kSarginTable := by simp only [kSarginTable, Falling]; norm_num
  have b1 := interp_anti (l := -1.9) _ _ _ F1 le_rfl hfg
  have b2 := interp_mono (l := -3.5) _ _ _ F2 le_rfl hfg
  have b3 := interp_anti (l := 2.44) _ _ _ F3 le_rfl hfg
  simp only [eps_c1, eps_clim, k_sargin, tableLookup, nf, ng, if_false, Except.map, Except.ok.injEq]
  refine ⟨⟨_, _, rfl, rfl, ?_⟩, ⟨_, _, rfl, rfl, ?_⟩, ⟨_, _, rfl, rfl, ?_⟩⟩
  · exact div_le_div_of_nonneg_right b1 (by norm_num)
  · exact div_le_div_of_nonneg_right b2 (by norm_num)
  · exact b3

/-- **C45 (nodes).** At the strength classes the tables give the printed values. -/
theorem C45_table_nodes : eps_c1 12 = .ok (-1.9 / 1000) ∧ eps_c1 50 = .ok (-2.6 / 1000) ∧ eps_c1 120 = .ok (-3 / 1000) ∧
    eps_clim 12 = .ok (-3.5 / 1000) ∧ eps_clim 50 = .ok (-3.4 / 1000) ∧ eps_clim 120 = .ok (-3 / 1000) ∧
    k_sargin 12 = .ok 2.44 ∧ k_sargin 50 = .ok 1.66 ∧ k_sargin 120 = .ok 1.18 := by
  norm_num [eps_c1, eps_clim, k_sargin, tableLookup, epsC1Table, epsClimTable, kSarginTable, interp, interpGo, Except.map]

/-! ### Reinforcement -/

/-- **C45 (steel).** -/
theorem C45_steel (fyk gs euk ge : ℝ) :
    (fyk < 0 ∨ gs < 1 → fyd fyk gs = .error .valueError) ∧
    (0 ≤ fyk → 1 ≤ gs → ∃ r, fyd fyk gs = .ok r ∧ r * gs = fyk ∧ 0 ≤ r ∧ r ≤ fyk) ∧
    (euk < 0 ∨ 1 < ge → epsud euk ge = .error .valueError) ∧
    (0 ≤ euk → ge ≤ 1 → ∃ r, epsud euk ge = .ok r ∧ r = euk * ge ∧ r ≤ euk) := by
  refine ⟨fun h => ?_, fun h1 h2 => ?_, fun h => ?_, fun h1 h2 => ?_⟩
  · unfold fyd; by_cases h1 : fyk < 0
    · simp [h1]
    · simp [h1, h.resolve_left h1]
  · refine ⟨fyk / gs, by simp [fyd, not_lt.2 h1, not_lt.2 h2], by field_simp, by positivity, ?_⟩
    exact div_le_self h1 h2
  · unfold epsud; by_cases h1 : euk < 0
    · simp [h1]
    · simp [h1, h.resolve_left h1]
  · exact ⟨euk * ge, by simp [epsud, not_lt.2 h1, not_lt.2 h2], rfl, by nlinarith⟩

/-- **C45 (ductility classes).** Exactly `A`, `B`, `C`, `D` up to case are accepted; the tensile strength is at
least 1.05 times the yield strength and the ultimate strain at least 2.5 per cent. -/
theorem C45_ductility (fyk : ℝ) (h0 : 0 ≤ fyk) (c : List Char) :
    ((∃ r, reinforcement_duct_props fyk c = .ok r) ↔ pyUpper c ∈ [['A'], ['B'], ['C'], ['D']]) ∧
    (∀ e ft, reinforcement_duct_props fyk c = .ok (e, ft) → 2.5e-2 ≤ e ∧ e ≤ 8e-2 ∧ 1.05 * fyk ≤ ft ∧ ft ≤ 1.25 * fyk) ∧
    (∀ e, reinforcement_duct_props fyk c = .error e → e = .valueError) := by
  unfold reinforcement_duct_props
  have hcase : pyUpper c ∈ [['A'], ['B'], ['C'], ['D']] ∨ ductilityClass (pyUpper c) = none := by
    by_cases hc : pyUpper c ∈ [['A'], ['B'], ['C'], ['D']]
    · exact .inl hc
    · right
      unfold ductilityClass
      split <;> first | rfl | (rename_i e; rw [e] at hc; exact absurd (by decide) hc)
  rcases hcase with hc | hc
  · refine ⟨⟨fun _ => hc, fun _ => ?_⟩, ?_, ?_⟩
    all_goals
      simp only [List.mem_cons, List.not_mem_nil, or_false] at hc
      rcases hc with h | h | h | h <;> rw [h] <;> simp only [ductilityClass]
    all_goals first
      | exact ⟨_, rfl⟩
      | (rintro e ft hh
         simp only [Except.ok.injEq, Prod.mk.injEq] at hh
         obtain ⟨rfl, rfl⟩ := hh
         refine ⟨?_, ?_, ?_, ?_⟩ <;> first | linarith | (norm_num; done))
      | (intro e hh; simp at hh)
  · rw [hc]
    refine ⟨⟨by rintro ⟨r, h⟩; simp at h, fun h => ?_⟩, by intro e ft h; simp at h, fun e h => by simpa using h.symm⟩
    exfalso
    simp only [List.mem_cons, List.not_mem_nil, or_false] at h
    rcases h with h | h | h | h <;> rw [h] at hc <;> simp [ductilityClass] at hc

example : pyUpper ['b'] ∈ [['A'], ['B'], ['C'], ['D']] := by decide

/-! ### Creep and shrinkage -/

theorem cemRow_cases (c : List Char) (a b d1 d2 : ℝ) (h : cemRow c = some (a, b, d1, d2)) :
    -1 ≤ a ∧ a ≤ 1 ∧ 600 ≤ b ∧ b ≤ 800 ∧ 3 ≤ d1 ∧ d1 ≤ 6 ∧ 0.012 ≤ d2 ∧ d2 ≤ 0.013 := by
  unfold cemRow at h
  split at h <;> simp at h <;> obtain ⟨rfl, rfl, rfl, rfl⟩ := h <;> norm_num

/-- **C45 (adjusted age).** The adjusted age at loading is never below half a day, and every failure is a
`KeyError`. -/
theorem C45_t0_adj (t : ℝ) (c : List Char) : (∀ r, t0_adj t c = .ok r → 0.5 ≤ r) ∧
    (∀ e, t0_adj t c = .error e → e = .keyError) ∧ (t0_adj t "42.5 N".toList = .ok (max t 0.5)) := by
  refine ⟨fun r h => ?_, fun e h => ?_, ?_⟩
  · unfold t0_adj at h
    cases hc : cemRow c with
    | none => rw [hc] at h; simp at h
    | some q => rw [hc] at h; simp only [Except.ok.injEq] at h; rw [← h]; exact le_max_right _ _
  · unfold t0_adj at h
    cases hc : cemRow c with
    | none => rw [hc] at h; simpa using h.symm
    | some q => rw [hc] at h; simp at h
  · have : cemRow "42.5 N".toList = some (0, 700, 4, 0.012) := rfl
    unfold t0_adj; rw [this]; simp

/-- **C45 (class R loads earlier than N).** For a positive age the adjusted age of rapid hardening
cements is not below, and that of slow cements not above, the one of normal cements. -/
theorem C45_t0_adj_order (t : ℝ) (ht : 0 < t) : ∃ r n s, t0_adj t "52.5 R".toList = .ok r ∧
    t0_adj t "42.5 N".toList = .ok n ∧ t0_adj t "32.5 N".toList = .ok s ∧ s ≤ n ∧ n ≤ r := by
  have h1 : cemRow "52.5 R".toList = some (1, 600, 6, 0.012) := rfl
  have h2 : cemRow "42.5 N".toList = some (0, 700, 4, 0.012) := rfl
  have h3 : cemRow "32.5 N".toList = some (-1, 800, 3, 0.013) := rfl
  have hb : 1 ≤ 9 / (2 + t ^ (1.2 : ℝ)) + 1 := by
    have : 0 < t ^ (1.2 : ℝ) := Real.rpow_pos_of_pos ht _
    have : 0 ≤ 9 / (2 + t ^ (1.2 : ℝ)) := by positivity
    linarith
  refine ⟨_, _, _, by unfold t0_adj; rw [h1], by unfold t0_adj; rw [h2], by unfold t0_adj; rw [h3], ?_, ?_⟩
  · apply max_le_max _ le_rfl
    apply mul_le_mul_of_nonneg_left _ ht.le
    exact Real.rpow_le_rpow_of_exponent_le hb (by norm_num)
  · apply max_le_max _ le_rfl
    apply mul_le_mul_of_nonneg_left _ ht.le
    exact Real.rpow_le_rpow_of_exponent_le hb (by norm_num)

/-- **C45 (temperature adjusted age).** For temperatures above absolute zero the adjusted duration has the sign of
the duration and never decreases with the temperature; arrays of equal length give the sum of the scalar results
(so one period split in two at the same temperature changes nothing), others raise. -/
theorem C45_t_T (T dt : ℝ) (hT : -273 < T) (hd : 0 ≤ dt) : 0 ≤ t_T T dt ∧ (∀ T', T ≤ T' → t_T T dt ≤ t_T T' dt) ∧
    (∀ d', t_T T (dt + d') = t_T T dt + t_T T d') ∧
    (∀ Ts ds : List ℝ, Ts.length = ds.length → t_T_arr Ts ds = .ok (List.zipWith t_T Ts ds).sum) ∧
    (∀ Ts ds : List ℝ, Ts.length ≠ ds.length → t_T_arr Ts ds = .error .valueError) := by
  refine ⟨mul_nonneg (Real.exp_pos _).le hd, fun T' h => ?_, fun d' => ?_, fun Ts ds h => ?_, fun Ts ds h => ?_⟩
  · unfold t_T
    apply mul_le_mul_of_nonneg_right _ hd
    apply Real.exp_le_exp.2
    have : 4000 / (273 + T') ≤ 4000 / (273 + T) := div_le_div_of_nonneg_left (by norm_num) (by linarith) (by linarith)
    linarith
  · unfold t_T; ring
  · simp only [t_T_arr, h, ne_eq, not_true, if_false, Except.ok.injEq]
    congr 1
    rw [List.zip, List.map_zipWith]; rfl
  · simp [t_T_arr, h]

/-- **C45 (drying development).** In `[0, 1)`, 0 up to the start of drying, never decreasing with time, never
increasing with the size, tending to 1; arrays agree with scalars. -/
theorem C45_beta_ds (ts h : ℝ) (hh : 0 < h) :
    (∀ t, 0 ≤ beta_ds t ts h ∧ beta_ds t ts h < 1) ∧ (∀ t, t ≤ ts → beta_ds t ts h = 0) ∧
    (∀ t, ts < t → 0 < beta_ds t ts h) ∧
    (∀ t u, t ≤ u → beta_ds t ts h ≤ beta_ds u ts h) ∧ (∀ t h', h ≤ h' → beta_ds t ts h' ≤ beta_ds t ts h) ∧
    Tendsto (fun t => beta_ds t ts h) atTop (𝓝 1) ∧
    (∀ (ι : Type) (t : ι → ℝ) (i : ι), beta_ds_arr t ts h i = beta_ds (t i) ts h) := by
  have hc : 0 < 0.035 * h ^ 2 := by positivity
  have e : ∀ t, beta_ds t ts h = Real.sqrt (max (t - ts) 0 / (max (t - ts) 0 + 0.035 * h ^ 2)) := by
    intro t; unfold beta_ds; rw [add_comm]
  refine ⟨fun t => ⟨Real.sqrt_nonneg _, ?_⟩, fun t ht => ?_, fun t ht => ?_, fun t u htu => ?_, fun t h' hh' => ?_, ?_,
    fun ι t i => ?_⟩
  · rw [e, Real.sqrt_lt' one_pos, one_pow]; exact (EC2_2004.ratio_bounds (le_max_right _ _) hc).2
  · rw [e, max_eq_right (by linarith)]; simp
  · rw [e]
    have : 0 < max (t - ts) 0 := lt_max_of_lt_left (by linarith)
    exact Real.sqrt_pos.2 (by positivity)
  · rw [e, e]; exact Real.sqrt_le_sqrt (EC2_2004.ratio_mono (le_max_right _ _) (max_le_max (by linarith) le_rfl) hc)
  · unfold beta_ds
    apply Real.sqrt_le_sqrt
    have h0 : 0 ≤ max (t - ts) 0 := le_max_right _ _
    have : h ^ 2 ≤ h' ^ 2 := pow_le_pow_left₀ hh.le hh' 2
    exact div_le_div_of_nonneg_left h0 (by linarith) (by linarith)
  · have h1 := (EC2_2004.ratio_tendsto (c := 0.035 * h ^ 2)).comp (EC2_2004.age_tendsto ts)
    have h2 := (Real.continuous_sqrt.tendsto 1).comp h1
    rw [Real.sqrt_one] at h2
    exact h2.congr (fun t => (e t).symm)
  · simp only [beta_ds_arr, beta_ds, maskSet]
    by_cases ht : t i - ts < 0
    · simp only [ht, if_true]; rw [max_eq_right ht.le]
    · simp only [ht, if_false]; rw [max_eq_left (not_lt.1 ht)]

/-- **C45 (humidity).** For a humidity in one of the two accepted ranges (fraction or per cent) and a strength factor
`0 < beta_s1 ≤ 1`, `beta_RH` returns: shrinkage (`-1.55..0`) below the threshold, the swelling value 0.25 from it on;
a fraction and the same humidity in per cent give the same result; outside the two ranges a `ValueError`. -/
theorem C45_beta_RH (rh b : ℝ) (hb1 : b ≤ 1) :
    (¬ ((0.4 ≤ rh ∧ rh ≤ 1) ∨ (40 ≤ rh ∧ rh ≤ 100)) → beta_RH rh b = .error .valueError) ∧
    (0.4 ≤ rh → rh ≤ 1 →
      (0.99 * b ≤ rh → beta_RH rh b = .ok 0.25) ∧
      (rh < 0.99 * b → ∃ v, beta_RH rh b = .ok v ∧ -1.55 < v ∧ v < 0) ∧
      beta_RH (100 * rh) b = beta_RH rh b) := by
  constructor
  · intro h
    have : (rh < 0.4 ∨ rh > 1) ∧ (rh < 40 ∨ rh > 100) := by
      push Not at h
      constructor
      · by_contra hc; push Not at hc; exact absurd (h.1 hc.1) (not_lt.2 hc.2)
      · by_contra hc; push Not at hc; exact absurd (h.2 hc.1) (not_lt.2 hc.2)
    simp only [beta_RH, checkRH, this, and_self, if_true]
  · intro h1 h2
    have hc1 : ¬ ((rh < 0.4 ∨ rh > 1) ∧ (rh < 40 ∨ rh > 100)) := by
      rintro ⟨h | h, -⟩ <;> linarith
    have hc2 : ¬ ((100 * rh < 0.4 ∨ 100 * rh > 1) ∧ (100 * rh < 40 ∨ 100 * rh > 100)) := by
      rintro ⟨-, h | h⟩ <;> linarith
    have f1 : rhFraction rh = rh := by unfold rhFraction; rw [if_neg (not_lt.2 h2)]
    have f2 : rhFraction (100 * rh) = rh := by
      unfold rhFraction; rw [if_pos (by linarith)]; ring
    refine ⟨fun h => ?_, fun h => ?_, ?_⟩
    · simp only [beta_RH, checkRH, hc1, if_false, f1, ge_iff_le, h, if_true]
    · have h3 : ¬ (0.99 * b ≤ rh) := not_le.2 h
      have h4 : 0.4 * b ≤ rh ∧ rh < 0.99 * b := ⟨by linarith, h⟩
      refine ⟨-1.55 * (1 - rh ^ 3), by simp only [beta_RH, checkRH, hc1, if_false, f1, ge_iff_le, h3, h4, and_self, if_true], ?_, ?_⟩
      · have : 0 < rh ^ 3 := by have : 0 < rh := by linarith
                                positivity
        linarith
      · have : rh ^ 3 < 1 := pow_lt_one₀ (by linarith) (by linarith) (by norm_num)
        linarith
    · simp only [beta_RH, checkRH, hc1, hc2, if_false, f1, f2]

example : (0.4 : ℝ) ≤ 0.7 ∧ (0.7 : ℝ) ≤ 1 := by norm_num

theorem C45_beta_s1 (m : ℝ) (hm : 0 < m) : 0 < beta_s1 m ∧ beta_s1 m ≤ 1 ∧ (m ≤ 35 → beta_s1 m = 1) ∧
    (∀ m', m ≤ m' → beta_s1 m' ≤ beta_s1 m) := by
  unfold beta_s1
  have h0 : 0 < (35 / m) ^ (0.1 : ℝ) := Real.rpow_pos_of_pos (by positivity) _
  refine ⟨lt_min h0 one_pos, min_le_right _ _, fun h => ?_, fun m' h => ?_⟩
  · apply min_eq_right
    exact Real.one_le_rpow ((one_le_div hm).2 h) (by norm_num)
  · apply min_le_min _ le_rfl
    apply Real.rpow_le_rpow (by have : 0 < m' := by linarith
                                positivity) _ (by norm_num)
    exact div_le_div_of_nonneg_left (by norm_num) hm h

/-- **C45 (shrinkage).** For every accepted cement, strength `> 0`, humidity fraction in range and size `> 0`:
drying shrinkage is a shortening (`≤ 0`) of growing magnitude with time when the humidity is below the threshold and a
swelling (`≥ 0`) otherwise; autogenous shrinkage is a shortening of growing magnitude with time; the magnitudes are
bounded by the notional values. -/
theorem C45_shrinkage (m ts h rh : ℝ) (hm : 0 < m) (hh : 0 < h) (c : List Char) (e0 b : ℝ) (r1 : 0.4 ≤ rh) (r2 : rh ≤ 1)
    (he : eps_cds0 m c = .ok e0) (hb : beta_RH rh (beta_s1 m) = .ok b) :
    0 < e0 ∧
    (rh < 0.99 * beta_s1 m → ∀ t u, t ≤ u → eps_cds e0 (beta_ds u ts h) b ≤ eps_cds e0 (beta_ds t ts h) b ∧
      eps_cds e0 (beta_ds t ts h) b ≤ 0 ∧ |eps_cds e0 (beta_ds t ts h) b| ≤ 1.55 * e0) ∧
    (0.99 * beta_s1 m ≤ rh → ∀ t u, t ≤ u → eps_cds e0 (beta_ds t ts h) b ≤ eps_cds e0 (beta_ds u ts h) b ∧
      0 ≤ eps_cds e0 (beta_ds t ts h) b ∧ eps_cds e0 (beta_ds t ts h) b ≤ 0.25 * e0) := by
  have hs := C45_beta_s1 m hm
  have hd := C45_beta_ds ts h hh
  have hr := (C45_beta_RH rh (beta_s1 m) hs.2.1).2 r1 r2
  have he0 : 0 < e0 := by
    unfold eps_cds0 at he
    cases hc : cemRow c with
    | none => rw [hc] at he; simp at he
    | some q =>
      obtain ⟨a, b, d1, d2⟩ := q
      rw [hc] at he
      have hd1 := (cemRow_cases c a b d1 d2 hc).2.2.2.2.1
      simp only [Except.ok.injEq] at he
      rw [← he]
      have := Real.exp_pos (-d2 * m)
      have : 0 < 220 + 110 * d1 := by linarith
      positivity
  refine ⟨he0, fun hlt t u htu => ?_, fun hge t u htu => ?_⟩
  · obtain ⟨v, hv, hv1, hv2⟩ := hr.2.1 hlt
    rw [hb] at hv
    obtain rfl : b = v := by simpa using hv
    have h1 := hd.2.2.2.1 t u htu
    have h2 := hd.1 t
    have h3 : e0 * b < 0 := by nlinarith
    have h4 : -(1.55 * e0) < e0 * b := by nlinarith
    unfold eps_cds
    refine ⟨by nlinarith, by nlinarith, abs_le.2 ⟨by nlinarith, by nlinarith⟩⟩
  · rw [hr.1 hge] at hb
    obtain rfl : 0.25 = b := by simpa using hb
    have h1 := hd.2.2.2.1 t u htu
    have h2 := hd.1 t
    unfold eps_cds
    refine ⟨by nlinarith, by nlinarith, by nlinarith⟩

/-- **C45 (autogenous shrinkage).** -/
theorem C45_autogenous (m : ℝ) (hm : 0 < m) (c : List Char) (e0 : ℝ) (he : eps_cbs0 m c = .ok e0) :
    e0 < 0 ∧ -800e-6 < e0 ∧ eps_cbs e0 (beta_bs 0) = 0 ∧
    (∀ t u, 0 ≤ t → t ≤ u → eps_cbs e0 (beta_bs u) ≤ eps_cbs e0 (beta_bs t) ∧ e0 < eps_cbs e0 (beta_bs u)) ∧
    Tendsto (fun t => eps_cbs e0 (beta_bs t)) atTop (𝓝 e0) := by
  have he0 : e0 < 0 ∧ -800e-6 < e0 := by
    unfold eps_cbs0 at he
    cases hc : cemRow c with
    | none => rw [hc] at he; simp at he
    | some q =>
      obtain ⟨a, b, d1, d2⟩ := q
      rw [hc] at he
      obtain ⟨-, -, b1, b2, -⟩ := cemRow_cases c a b d1 d2 hc
      simp only [Except.ok.injEq] at he
      have hq0 : 0 < 0.1 * m / (6 + 0.1 * m) := by positivity
      have hq1 : 0.1 * m / (6 + 0.1 * m) < 1 := (div_lt_one (by positivity)).2 (by linarith)
      have p0 := Real.rpow_pos_of_pos hq0 2.5
      have p1 := Real.rpow_lt_one hq0.le hq1 (by norm_num : (0 : ℝ) < 2.5)
      rw [← he]
      generalize (0.1 * m / (6 + 0.1 * m)) ^ (2.5 : ℝ) = p at *
      constructor
      · have : 0 < b * p := by nlinarith
        nlinarith
      · have : b * p < 800 := by nlinarith
        norm_num; nlinarith
  refine ⟨he0.1, he0.2, by simp [eps_cbs, beta_bs], fun t u ht htu => ?_, ?_⟩
  · have h1 : beta_bs t ≤ beta_bs u := by
      unfold beta_bs
      have : Real.exp (-0.2 * Real.sqrt u) ≤ Real.exp (-0.2 * Real.sqrt t) := by
        apply Real.exp_le_exp.2
        have := Real.sqrt_le_sqrt htu
        linarith
      linarith
    have h2 : beta_bs u < 1 := by unfold beta_bs; have := Real.exp_pos (-0.2 * Real.sqrt u); linarith
    unfold eps_cbs
    constructor <;> nlinarith [he0.1]
  · have h1 : Tendsto (fun t : ℝ => -0.2 * Real.sqrt t) atTop atBot :=
      Tendsto.const_mul_atTop_of_neg (by norm_num) Real.tendsto_sqrt_atTop
    have h2 := Real.tendsto_exp_atBot.comp h1
    have h3 : Tendsto (fun t => e0 * (1 - Real.exp (-0.2 * Real.sqrt t))) atTop (𝓝 (e0 * (1 - 0))) :=
      Tendsto.const_mul _ (Tendsto.sub tendsto_const_nhds h2)
    simpa [eps_cbs, beta_bs] using h3

/-- **C45 (basic creep).** From the age of loading on, the basic creep coefficient is 0 at loading, non-negative
and never decreases with time; it never increases with the strength or with the adjusted age; it is unbounded. -/
theorem C45_basic_creep (m t0 ta : ℝ) (hm : 0 < m) (hta : 0 < ta) :
    phi_bc (beta_bc_fcm m) (beta_bc_t t0 t0 ta) = 0 ∧
    (∀ t u, t0 ≤ t → t ≤ u → 0 ≤ phi_bc (beta_bc_fcm m) (beta_bc_t t t0 ta) ∧
      phi_bc (beta_bc_fcm m) (beta_bc_t t t0 ta) ≤ phi_bc (beta_bc_fcm m) (beta_bc_t u t0 ta)) ∧
    (∀ t m', t0 ≤ t → m ≤ m' → phi_bc (beta_bc_fcm m') (beta_bc_t t t0 ta) ≤ phi_bc (beta_bc_fcm m) (beta_bc_t t t0 ta)) ∧
    (∀ t ta', t0 ≤ t → ta ≤ ta' → phi_bc (beta_bc_fcm m) (beta_bc_t t t0 ta') ≤ phi_bc (beta_bc_fcm m) (beta_bc_t t t0 ta)) ∧
    Tendsto (fun t => phi_bc (beta_bc_fcm m) (beta_bc_t t t0 ta)) atTop atTop := by
  have hk : 0 < (30 / ta + 0.035) ^ 2 := by positivity
  have hf : 0 < beta_bc_fcm m := by unfold beta_bc_fcm; have := Real.rpow_pos_of_pos hm 0.7; positivity
  have hl : ∀ t, t0 ≤ t → 0 ≤ beta_bc_t t t0 ta := fun t ht => by
    unfold beta_bc_t
    apply Real.log_nonneg
    have : 0 ≤ (30 / ta + 0.035) ^ 2 * (t - t0) := mul_nonneg hk.le (by linarith)
    linarith
  unfold phi_bc
  refine ⟨by simp [beta_bc_t], fun t u ht htu => ⟨mul_nonneg hf.le (hl t ht), mul_le_mul_of_nonneg_left ?_ hf.le⟩,
    fun t m' ht hm' => mul_le_mul_of_nonneg_right ?_ (hl t ht), fun t ta' ht hta' => mul_le_mul_of_nonneg_left ?_ hf.le, ?_⟩
  · unfold beta_bc_t
    apply Real.log_le_log
    · have : 0 ≤ (30 / ta + 0.035) ^ 2 * (t - t0) := mul_nonneg hk.le (by linarith)
      linarith
    · nlinarith
  · unfold beta_bc_fcm
    exact div_le_div_of_nonneg_left (by norm_num) (Real.rpow_pos_of_pos hm _) (Real.rpow_le_rpow hm.le hm' (by norm_num))
  · unfold beta_bc_t
    have h1 : 30 / ta' ≤ 30 / ta := div_le_div_of_nonneg_left (by norm_num) hta hta'
    have h0 : 0 ≤ 30 / ta' := by have : 0 < ta' := by linarith
                                 positivity
    have h2 : (30 / ta' + 0.035) ^ 2 ≤ (30 / ta + 0.035) ^ 2 := pow_le_pow_left₀ (by linarith) (by linarith) 2
    have h3 : 0 ≤ t - t0 := by linarith
    apply Real.log_le_log
    · have : 0 ≤ (30 / ta' + 0.035) ^ 2 * (t - t0) := by positivity
      linarith
    · nlinarith
  · apply Tendsto.const_mul_atTop hf
    apply Real.tendsto_log_atTop.comp
    apply tendsto_atTop_add_const_right
    apply Tendsto.const_mul_atTop hk
    exact tendsto_atTop_add_const_right _ (-t0) tendsto_id

/-- **C45 (drying creep).** The development factor is in `[0, 1)`, 0 at loading, never decreasing, tending to 1;
the factor of humidity is non-negative, 0 at 100 per cent, and equal for a fraction and its per cent. -/
theorem C45_drying_creep (t0 h m ta rh : ℝ) (hh : 0 < h) (hm : 0 < m) (hta : 0 < ta) (r1 : 0.4 ≤ rh) (r2 : rh ≤ 1) :
    0 < beta_h h (alpha_fcm m) ∧ 0 < gamma_t0 ta ∧ gamma_t0 ta < 1 / 2.3 ∧
    beta_dc_t t0 t0 (beta_h h (alpha_fcm m)) (gamma_t0 ta) = 0 ∧
    (∀ t u, t0 ≤ t → t ≤ u → 0 ≤ beta_dc_t t t0 (beta_h h (alpha_fcm m)) (gamma_t0 ta) ∧
      beta_dc_t t t0 (beta_h h (alpha_fcm m)) (gamma_t0 ta) ≤ beta_dc_t u t0 (beta_h h (alpha_fcm m)) (gamma_t0 ta) ∧
      beta_dc_t u t0 (beta_h h (alpha_fcm m)) (gamma_t0 ta) < 1) ∧
    Tendsto (fun t => beta_dc_t t t0 (beta_h h (alpha_fcm m)) (gamma_t0 ta)) atTop (𝓝 1) ∧
    (∃ v, beta_dc_RH rh h = .ok v ∧ 0 ≤ v ∧ beta_dc_RH (100 * rh) h = .ok v ∧ (rh = 1 → v = 0) ∧
      ∀ h', h ≤ h' → ∃ v', beta_dc_RH rh h' = .ok v' ∧ v' ≤ v) := by
  have ha : 0 < alpha_fcm m := Real.sqrt_pos.2 (by positivity)
  have hbh : 0 < beta_h h (alpha_fcm m) := lt_min (by positivity) (by positivity)
  have hg : 0 < gamma_t0 ta := by unfold gamma_t0; have := Real.sqrt_pos.2 hta; positivity
  generalize beta_h h (alpha_fcm m) = B at *
  generalize hG : gamma_t0 ta = G at *
  have e : ∀ t, beta_dc_t t t0 B G = ((t - t0) / ((t - t0) + B)) ^ G := fun t => by unfold beta_dc_t; rw [add_comm]
  refine ⟨hbh, hg, ?_, ?_, fun t u ht htu => ⟨?_, ?_, ?_⟩, ?_, ?_⟩
  · rw [← hG]; unfold gamma_t0
    have := Real.sqrt_pos.2 hta
    apply div_lt_div_of_pos_left one_pos (by norm_num)
    have : 0 < 3.5 / Real.sqrt ta := by positivity
    linarith
  · rw [e]; simp [Real.zero_rpow hg.ne']
  · rw [e]; exact Real.rpow_nonneg (EC2_2004.ratio_bounds (by linarith) hbh).1 _
  · rw [e, e]; exact Real.rpow_le_rpow (EC2_2004.ratio_bounds (by linarith) hbh).1
      (EC2_2004.ratio_mono (by linarith) (by linarith) hbh) hg.le
  · rw [e]; have := EC2_2004.ratio_bounds (x := u - t0) (by linarith) hbh
    exact Real.rpow_lt_one this.1 this.2 hg
  · have h1 := (EC2_2004.ratio_tendsto (c := B)).comp (tendsto_atTop_add_const_right atTop (-t0) tendsto_id)
    have h2 := h1.rpow_const (p := G) (.inl one_ne_zero)
    rw [Real.one_rpow] at h2
    exact h2.congr (fun t => (e t).symm)
  · have hc1 : ¬ ((rh < 0.4 ∨ rh > 1) ∧ (rh < 40 ∨ rh > 100)) := by
      rintro ⟨h | h, -⟩ <;> linarith
    have hc2 : ¬ ((100 * rh < 0.4 ∨ 100 * rh > 1) ∧ (100 * rh < 40 ∨ 100 * rh > 100)) := by
      rintro ⟨-, h | h⟩ <;> linarith
    have f1 : rhFraction rh = rh := by unfold rhFraction; rw [if_neg (not_lt.2 r2)]
    have f2 : rhFraction (100 * rh) = rh := by
      unfold rhFraction; rw [if_pos (by linarith)]; ring
    have hp : 0 < (0.1 * h / 100) ^ ((1 : ℝ) / 3) := Real.rpow_pos_of_pos (by positivity) _
    refine ⟨_, by simp only [beta_dc_RH, checkRH, hc1, if_false, f1]; rfl, div_nonneg (by linarith) hp.le,
      by simp only [beta_dc_RH, checkRH, hc2, if_false, f2], fun h1 => by simp [h1], fun h' hh' => ?_⟩
    refine ⟨_, by simp only [beta_dc_RH, checkRH, hc1, if_false, f1]; rfl, ?_⟩
    apply div_le_div_of_nonneg_left (by linarith) hp
    exact Real.rpow_le_rpow (by positivity) (by linarith) (by norm_num)

/-- **C45 (creep under high stress).** For a positive strength: a stress above `0.6 fcm` in magnitude raises;
otherwise the creep coefficient is the linear one up to `0.4 fcm`, and is amplified above it by at most
`exp 0.3`; the result depends on the magnitude of the stress only, never decreases with it, and there is no jump at
`0.4 fcm` (`phi` at the limit is the linear coefficient, and the factor at `k` close to 0.4 is close to 1). -/
theorem C45_phi (bc dc m : ℝ) (hm : 0 < m) (h0 : 0 ≤ bc + dc) :
    (∀ σ, 0.6 * m < |σ| → phi bc dc σ m = .error .valueError) ∧
    (∀ σ, |σ| ≤ 0.4 * m → phi bc dc σ m = .ok (bc + dc)) ∧
    (∀ σ, |σ| ≤ 0.6 * m → ∃ r, phi bc dc σ m = .ok r ∧ r = Real.exp (1.5 * max (|σ| / m - 0.4) 0) * (bc + dc) ∧
      bc + dc ≤ r ∧ r ≤ Real.exp 0.3 * (bc + dc) ∧ phi bc dc (-σ) m = .ok r ∧
      ∀ σ', |σ| ≤ |σ'| → |σ'| ≤ 0.6 * m → ∃ r', phi bc dc σ' m = .ok r' ∧ r ≤ r') := by
  have key : ∀ σ, |σ| ≤ 0.6 * m → phi bc dc σ m = .ok (Real.exp (1.5 * max (|σ| / m - 0.4) 0) * (bc + dc)) := by
    intro σ hs
    have hk : |σ / m| = |σ| / m := by rw [abs_div, abs_of_pos hm]
    have h6 : |σ| / m ≤ 0.6 := (div_le_iff₀ hm).2 hs
    simp only [phi, k_sigma, checkInitialStress, gt_iff_lt, not_lt.2 hs, if_false, hk]
    by_cases h4 : 0.4 < |σ| / m
    · simp only [h4, h6, and_self, if_true]; rw [max_eq_left (by linarith)]
    · simp only [h4, false_and, if_false]; rw [max_eq_right (by linarith)]; simp
  refine ⟨fun σ h => by simp only [phi, k_sigma, checkInitialStress, gt_iff_lt, h, if_true], fun σ h => ?_, fun σ h => ?_⟩
  · rw [key σ (by linarith)]
    have : |σ| / m ≤ 0.4 := (div_le_iff₀ hm).2 h
    rw [max_eq_right (by linarith)]; simp
  · refine ⟨_, key σ h, rfl, ?_, ?_, ?_, fun σ' h1 h2 => ⟨_, key σ' h2, ?_⟩⟩
    · have : 1 ≤ Real.exp (1.5 * max (|σ| / m - 0.4) 0) := Real.one_le_exp (by positivity)
      nlinarith
    · apply mul_le_mul_of_nonneg_right _ h0
      apply Real.exp_le_exp.2
      have h6 : |σ| / m ≤ 0.6 := (div_le_iff₀ hm).2 h
      have : max (|σ| / m - 0.4) 0 ≤ 0.2 := max_le (by linarith) (by norm_num)
      linarith
    · rw [key (-σ) (by rwa [abs_neg]), abs_neg]
    · apply mul_le_mul_of_nonneg_right _ h0
      apply Real.exp_le_exp.2
      have : |σ| / m ≤ |σ'| / m := div_le_div_of_nonneg_right h1 hm.le
      have := max_le_max (sub_le_sub_right this 0.4) (le_refl (0 : ℝ))
      linarith

example : |(-10 : ℝ)| ≤ 0.6 * 38 := by norm_num

/-- **C45 (creep compliance).** The compliance is at least the elastic one and grows with creep. -/
theorem C45_calc_J (E0 E p : ℝ) (hE0 : 0 < E0) (hE : 0 < E) (hp : 0 ≤ p) : 0 < calc_J E0 p E ∧ 1 / E0 ≤ calc_J E0 p E ∧
    calc_J E0 0 E = 1 / E0 ∧ ∀ q, p ≤ q → calc_J E0 p E ≤ calc_J E0 q E := by
  unfold calc_J
  refine ⟨by positivity, by have : 0 ≤ p / E := by positivity
                            linarith, by simp, fun q hq => ?_⟩
  have := div_le_div_of_nonneg_right hq hE.le
  linarith

/-- **C45, cement class spelling, violated.** The strength development accepts lower case cement classes, creep and
shrinkage do not. -/
theorem C45_cement_spelling_violated (t m : ℝ) : beta_cc t m "42.5 n".toList ≠ .error .keyError ∧
    eps_cds0 m "42.5 n".toList = .error .keyError ∧ eps_cbs0 m "42.5 n".toList = .error .keyError ∧
    t0_adj t "42.5 n".toList = .error .keyError := by
  refine ⟨?_, rfl, rfl, rfl⟩
  have : sCem (pyUpper "42.5 n".toList) = some 0.25 := by
    have : pyUpper "42.5 n".toList = ['4', '2', '.', '5', ' ', 'N'] := by decide
    rw [this]; rfl
  unfold beta_cc
  rw [this]
  split_ifs <;> simp

end SC.MC2010
