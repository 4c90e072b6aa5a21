import Verif.Props.MC2010_Shear

/-! # C46: punching, bond and interface shear of MC2010 -/

set_option autoImplicit false

namespace SC.MC2010

/-! ### Geometry of the support strip and design moment -/

/-- **C46 (support strip).** The width never exceeds the smaller span, is 0.33 times the geometric mean of the spans when
that governs, and for positive spans is positive. -/
theorem C46_b_s (x y : ℝ) (hx : 0 < x) (hy : 0 < y) : 0 < b_s x y ∧ b_s x y ≤ b_sr x y ∧
    b_s x y = min (0.33 * Real.sqrt (x * y)) (min x y) ∧ b_s x y = b_s y x ∧ b_s x x = 0.33 * x := by
  have h : ∀ y, 1.5 * (0.22 * x * (0.22 * y)) ^ (0.5 : ℝ) = 0.33 * Real.sqrt (x * y) := by
    intro y
    rw [show (0.22 * x * (0.22 * y)) = 0.22 ^ 2 * (x * y) by ring, show (0.5 : ℝ) = 1 / 2 by norm_num, ← Real.sqrt_eq_rpow,
      Real.sqrt_mul (by norm_num), Real.sqrt_sq (by norm_num)]
    ring
  have h0 : 0 < Real.sqrt (x * y) := Real.sqrt_pos.2 (by positivity)
  refine ⟨?_, min_le_right _ _, by unfold b_s; rw [h], ?_, ?_⟩
  · unfold b_s; rw [h]; exact lt_min (by positivity) (lt_min hx hy)
  · unfold b_s; rw [min_comm x y]; congr 3; ring
  · unfold b_s; rw [h, min_self, Real.sqrt_mul_self hx.le, min_eq_left (by linarith)]

/-- **C46 (design moment).** A moment is returned exactly when some placement is set; for a column inside the slab it
does not depend on the sign of the eccentricity; for a non-negative shear force it is at least an eighth (inner), a
quarter (edge, parallel), a half (corner) of the shear force, and never decreases with the eccentricity. -/
theorem C46_m_ed (v e b : ℝ) (hv : 0 ≤ v) (hb : 0 < b) (i p q c : Bool) :
    ((∃ m, m_ed v e b i p q c = .ok m) ↔ (i || p || q || c) = true) ∧
    (∀ x, m_ed v e b i p q c = .error x → x = .valueError) ∧
    (∃ m, m_ed v e b true p q c = .ok m ∧ v / 8 ≤ m ∧ m_ed v (-e) b true p q c = .ok m) ∧
    (∃ m, m_ed v e b false true q c = .ok m ∧ v / 4 ≤ m) ∧
    (∃ m, m_ed v e b false false false true = .ok m ∧ v / 2 ≤ m) ∧
    (∀ e' m, 0 ≤ e → e ≤ e' → m_ed v e b i p q c = .ok m → ∃ m', m_ed v e' b i p q c = .ok m' ∧ m ≤ m') := by
  have hq : ∀ {a a' d : ℝ}, 0 < d → a ≤ a' → v * (1 / 8 + a / d) ≤ v * (1 / 8 + a' / d) := fun {a a' d} hd h => by
    apply mul_le_mul_of_nonneg_left _ hv
    have := div_le_div_of_nonneg_right h hd.le
    linarith
  refine ⟨?_, ?_, ⟨_, rfl, ?_, ?_⟩, ⟨_, rfl, le_max_right _ _⟩, ⟨_, rfl, le_max_right _ _⟩, fun e' m he hee h => ?_⟩
  · cases i <;> cases p <;> cases q <;> cases c <;> simp [m_ed]
  · intro x h
    cases i <;> cases p <;> cases q <;> cases c <;> simp [m_ed] at h
    exact h.symm
  · have : 0 ≤ |e| / (2 * b) := by positivity
    nlinarith
  · simp [m_ed]
  · cases i
    · cases p
      · cases q
        · cases c
          · simp [m_ed] at h
          · simp only [m_ed, Bool.false_eq_true, if_false, if_true, Except.ok.injEq] at h ⊢
            exact ⟨_, rfl, h ▸ max_le_max (hq hb hee) le_rfl⟩
        · simp [m_ed] at h ⊢
          rw [← h]; simpa using hq hb hee
      · simp only [m_ed, Bool.false_eq_true, if_false, if_true, Except.ok.injEq] at h ⊢
        exact ⟨_, rfl, h ▸ max_le_max (hq (by linarith : 0 < 2 * b) hee) le_rfl⟩
    · simp [m_ed] at h ⊢
      rw [← h]
      have : |e| ≤ |e'| := abs_le_abs_of_nonneg he hee
      simpa using hq (by linarith : 0 < 2 * b) this

/-- **C46 (zero-moment radius).** A radius is returned unless level 3 at an edge or corner lacks the strip width; it is
never below 0.22 of the span in its direction. -/
theorem C46_r_s (x y : ℝ) (dx l3 edge : Bool) (b : Option ℝ) :
    (r_s x y dx l3 edge b = .error .valueError ↔ l3 = true ∧ edge = true ∧ b = none) ∧
    (∀ r, r_s x y dx l3 edge b = .ok r → (if dx then 0.22 * x else 0.22 * y) ≤ r) ∧
    (l3 = false ∨ edge = false → r_s x y dx l3 edge b = .ok (if dx then 0.22 * x else 0.22 * y)) := by
  cases l3 <;> cases edge <;> cases b <;> simp [r_s, rsBase]

/-! ### Rotation and resistance -/

/-- **C46 (rotation levels).** Exactly the levels 1, 2, 3; level 3 never exceeds level 2 for a non-negative rotation, and
reduces it by exactly one fifth when both uncracked flags are set. -/
theorem C46_psi (p1 p2 p3 lvl : ℝ) :
    ((∃ r, psi_punching p1 p2 p3 lvl = .ok r) ↔ lvl = 1 ∨ lvl = 2 ∨ lvl = 3) ∧
    (0 ≤ p2 → ∀ u w, 0.8 * p2 ≤ psi_punching_level_three p2 u w ∧ psi_punching_level_three p2 u w ≤ p2) ∧
    psi_punching_level_three p2 true true = 0.8 * p2 := by
  refine ⟨?_, fun h u w => ?_, ?_⟩
  · unfold psi_punching; split_ifs with h1 h2 h3 <;> simp [*]
  · cases u <;> cases w <;> simp [psi_punching_level_three] <;> (try constructor) <;> linarith
  · simp [psi_punching_level_three]; norm_num

/-- **C46 (order of the levels).** Level 2 is at most level 1 whenever the design moment does not exceed the resistance. -/
theorem C46_psi_order (x y fy d e m mr mp : ℝ) (dx : Bool) (hx : 0 ≤ x) (hy : 0 ≤ y) (hfy : 0 ≤ fy) (hd : 0 < d) (he : 0 < e)
    (h1 : mp ≤ m) (h2 : m ≤ mr) (h3 : mp < mr) :
    ∃ r, r_s x y dx = .ok r ∧ 0 ≤ psi_punching_level_two r fy d e m mr mp ∧
      psi_punching_level_two r fy d e m mr mp ≤ psi_punching_level_one x y fy d e := by
  have hq0 : 0 ≤ (m - mp) / (mr - mp) := div_nonneg (by linarith) (by linarith)
  have hq1 : (m - mp) / (mr - mp) ≤ 1 := (div_le_one (by linarith)).2 (by linarith)
  have hp0 := Real.rpow_nonneg hq0 1.5
  have hp1 := Real.rpow_le_one hq0 hq1 (by norm_num : (0 : ℝ) ≤ 1.5)
  have key : ∀ r, 0 ≤ r → r ≤ max (0.22 * x) (0.22 * y) → 0 ≤ psi_punching_level_two r fy d e m mr mp ∧
      psi_punching_level_two r fy d e m mr mp ≤ psi_punching_level_one x y fy d e := by
    intro r hr hr2
    unfold psi_punching_level_two psi_punching_level_one
    refine ⟨by positivity, ?_⟩
    calc _ ≤ 1.5 * r * fy / (d * e) * 1 := mul_le_mul_of_nonneg_left hp1 (by positivity)
      _ ≤ _ := by
        rw [mul_one]
        apply div_le_div_of_nonneg_right _ (by positivity)
        apply mul_le_mul_of_nonneg_right _ hfy
        linarith
  cases dx
  · exact ⟨_, rfl, key _ (by simp [rsBase]; positivity) (by simp [rsBase])⟩
  · exact ⟨_, rfl, key _ (by simp [rsBase]; positivity) (by simp [rsBase])⟩

example : (0 : ℝ) ≤ 40 ∧ (40 : ℝ) ≤ 60 ∧ (0 : ℝ) < 60 := by norm_num

/-- **C46 (rotation factor).** For non-negative size factor, depth and rotation: in `(0, 0.6]`, and never increasing with
rotation, depth or size factor; `k_dg` is at least 0.75 and equals 1 for 16 mm aggregate. -/
theorem C46_k_psi (k d p : ℝ) (hk : 0 ≤ k) (hd : 0 ≤ d) (hp : 0 ≤ p) : 0 < k_psi k d p ∧ k_psi k d p ≤ 0.6 ∧
    (∀ k' d' p', k ≤ k' → d ≤ d' → p ≤ p' → k_psi k' d' p' ≤ k_psi k d p) ∧ (∀ g, 0.75 ≤ k_dg g) ∧ k_dg 16 = 1 := by
  refine ⟨lt_min (by positivity) (by norm_num), min_le_right _ _, fun k' d' p' h1 h2 h3 => ?_, fun g => le_max_right _ _,
    by norm_num [k_dg]⟩
  unfold k_psi
  apply min_le_min _ le_rfl
  apply one_div_le_one_div_of_le (by positivity)
  have a1 : k * d ≤ k' * d' := mul_le_mul h1 h2 hd (by linarith)
  have a2 : k * d * p ≤ k' * d' * p' := mul_le_mul a1 h3 hp (mul_nonneg (by linarith) (by linarith))
  linarith

/-- **C46 (punching resistance).** For a rotation factor in `(0, 0.6]` and non-negative geometry: the concrete
contribution is non-negative and at most the crushing resistance, which is at most the base resistance `b0 dv √fck / γc`
and grows with the detailing (stirrups in compression zone, studs); the total resistance is at most the crushing
resistance, and at least the concrete contribution for non-negative reinforcement. -/
theorem C46_punching (k b d f g s : ℝ) (hk : 0 < k) (hk1 : k ≤ 0.6) (hb : 0 ≤ b) (hd : 0 ≤ d) (hg : 0 < g) (hs : 0 ≤ s)
    (h c : Bool) :
    0 ≤ v_rdc_punching k b d f g ∧ v_rdc_punching k b d f g ≤ v_rd_max_punching d f h c b k g ∧
    v_rd_max_punching d f h c b k g ≤ b * d * (Real.sqrt f / g) ∧
    v_rd_max_punching d f false false b k g ≤ v_rd_max_punching d f false true b k g ∧
    v_rd_max_punching d f false true b k g ≤ v_rd_max_punching d f true c b k g ∧
    v_rd_punching (v_rdc_punching k b d f g) s (v_rd_max_punching d f h c b k g) ≤ v_rd_max_punching d f h c b k g ∧
    v_rdc_punching k b d f g ≤ v_rd_punching (v_rdc_punching k b d f g) s (v_rd_max_punching d f h c b k g) := by
  have hsf : f ^ (0.5 : ℝ) = Real.sqrt f := by rw [Real.sqrt_eq_rpow]; norm_num
  have hB : 0 ≤ b * d * (Real.sqrt f / g) := by have := Real.sqrt_nonneg f; positivity
  have e1 : v_rdc_punching k b d f g = k * (b * d * (Real.sqrt f / g)) := by unfold v_rdc_punching; rw [hsf]; ring
  have hs2 : 2 ≤ kSys h c := by cases h <;> cases c <;> norm_num [kSys]
  have e2 : ∀ h c, v_rd_max_punching d f h c b k g = min (kSys h c * k * (b * d * (Real.sqrt f / g))) (b * d * (Real.sqrt f / g)) :=
    fun h c => by unfold v_rd_max_punching; rw [hsf]
  have hmono : ∀ h c h' c', kSys h c ≤ kSys h' c' → v_rd_max_punching d f h c b k g ≤ v_rd_max_punching d f h' c' b k g := by
    intro h c h' c' hle
    rw [e2, e2]
    apply min_le_min _ le_rfl
    apply mul_le_mul_of_nonneg_right _ hB
    nlinarith
  have hmain : v_rdc_punching k b d f g ≤ v_rd_max_punching d f h c b k g := by
    rw [e1, e2]
    refine le_min ?_ (by nlinarith)
    apply mul_le_mul_of_nonneg_right _ hB
    nlinarith
  refine ⟨by rw [e1]; positivity, hmain, by rw [e2]; exact min_le_right _ _, hmono _ _ _ _ (by norm_num [kSys]),
    hmono _ _ _ _ (by norm_num [kSys]), min_le_right _ _, le_min (by linarith) hmain⟩

/-- **C46 (punching reinforcement).** The stirrup stress never exceeds the design strength; the contribution is
non-negative for an inclination in `(0°, 180°)` and is reduced by the eccentricity. -/
theorem C46_punching_steel (es p a fb d fy ph e b sw : ℝ) (he : 0 ≤ es) (hp : 0 ≤ p) (a0 : 0 < a) (a1 : a ≤ 90) (hfb : 0 ≤ fb)
    (hd : 0 ≤ d) (hfy : 0 < fy) (hph : 0 < ph) (hsw : 0 ≤ sw) (hb : 0 < b) (hee : 0 ≤ e) :
    sigma_swd es p a fb d fy ph ≤ fy ∧ 0 ≤ sigma_swd es p a fb d fy ph ∧
    (∀ p', p ≤ p' → sigma_swd es p a fb d fy ph ≤ sigma_swd es p' a fb d fy ph) ∧
    0 ≤ v_rds_punching e b a (sigma_swd es p a fb d fy ph) sw ∧
    (∀ e', e ≤ e' → v_rds_punching e' b a (sigma_swd es p a fb d fy ph) sw ≤ v_rds_punching e b a (sigma_swd es p a fb d fy ph) sw) ∧
    v_rds_punching 0 b 90 fy sw = sw * fy := by
  have hs := sin_pos a0 (by linarith)
  have hc := cos_nonneg a0 a1
  have h0 : 0 ≤ sigma_swd es p a fb d fy ph := le_min (by positivity) hfy.le
  refine ⟨min_le_right _ _, h0, fun p' hp' => ?_, ?_, fun e' he' => ?_, ?_⟩
  · unfold sigma_swd
    apply min_le_min _ le_rfl
    apply mul_le_mul_of_nonneg_right _ (by positivity)
    apply mul_le_mul_of_nonneg_right _ (by positivity)
    apply div_le_div_of_nonneg_right _ (by norm_num)
    exact mul_le_mul_of_nonneg_left hp' he
  · unfold v_rds_punching; positivity
  · unfold v_rds_punching
    apply mul_le_mul_of_nonneg_right _ hs.le
    apply mul_le_mul_of_nonneg_right _ h0
    apply mul_le_mul_of_nonneg_left _ hsw
    apply one_div_le_one_div_of_le (by positivity)
    have := div_le_div_of_nonneg_right he' hb.le
    linarith
  · unfold v_rds_punching; rw [sin_90]; simp

/-! ### Bond -/

theorem validate_ok {valid : List (List Char)} {s : Option (List Char)} {r : List Char} :
    validate valid s = .ok r ↔ ∃ t, s = some t ∧ pyLower t ∈ valid ∧ r = pyLower t := by
  unfold validate
  cases s with
  | none => simp
  | some t =>
    simp only [Option.some.injEq]
    split_ifs with h
    · simp only [Except.ok.injEq]
      constructor
      · rintro rfl; exact ⟨t, rfl, h, rfl⟩
      · rintro ⟨_, rfl, _, rfl⟩; rfl
    · simp only [false_iff, reduceCtorEq]
      rintro ⟨_, rfl, h', _⟩
      exact h h'

theorem validate_error {valid : List (List Char)} {s : Option (List Char)} {e : PyErr} (h : validate valid s = .error e) :
    e = .valueError := by
  unfold validate at h
  cases s with
  | none => simpa using h.symm
  | some t =>
    simp only at h
    split_ifs at h
    simpa using h.symm

/-- **C46 (bond conditions).** The bond functions return a value exactly for the strings `good` and `other` up to case,
anything else (a missing value too) is a `ValueError`. -/
theorem C46_bond_values (b : Option (List Char)) (f : ℝ) :
    ((∃ r, eta_2 b = .ok r) ↔ ∃ s, b = some s ∧ (pyLower s = "good".toList ∨ pyLower s = "other".toList)) ∧
    ((∃ r, s_1 b = .ok r) ↔ ∃ r, eta_2 b = .ok r) ∧ ((∃ r, s_2 b = .ok r) ↔ ∃ r, eta_2 b = .ok r) ∧
    ((∃ r, tau_bmax b f = .ok r) ↔ ∃ r, eta_2 b = .ok r) ∧
    (∀ e, eta_2 b = .error e → e = .valueError) := by
  have key : ∀ g o, (∃ r, bondDict g o b = .ok r) ↔ ∃ s, b = some s ∧ (pyLower s = "good".toList ∨ pyLower s = "other".toList) := by
    intro g o
    unfold bondDict
    constructor
    · rintro ⟨r, h⟩
      cases hv : validate bondValues b with
      | error e => rw [hv] at h; simp [Except.map] at h
      | ok t =>
        obtain ⟨s, rfl, hs, rfl⟩ := validate_ok.1 hv
        exact ⟨s, rfl, by simpa [bondValues] using hs⟩
    · rintro ⟨s, rfl, hs⟩
      have : validate bondValues (some s) = .ok (pyLower s) := validate_ok.2 ⟨s, rfl, by simpa [bondValues] using hs, rfl⟩
      rw [this]
      exact ⟨_, rfl⟩
  refine ⟨key _ _, ?_, ?_, ?_, fun e h => ?_⟩
  · unfold s_1 eta_2; rw [key, key]
  · unfold s_2 eta_2; rw [key, key]
  · unfold tau_bmax eta_2; rw [key, key]
  · unfold eta_2 bondDict at h
    cases hv : validate bondValues b with
    | error e' =>
      rw [hv] at h
      simp only [Except.map, Except.error.injEq] at h
      rw [← h]; exact validate_error hv
    | ok t => rw [hv] at h; simp [Except.map] at h

/-- **C46 (bond-slip points).** In each bond condition: `0 < s1 < s2 = 2 s1`, the maximum bond stress is half as
large in "other" as in "good" conditions. -/
theorem C46_bond_points (b : Option (List Char)) (f η a s t : ℝ) (hf : 0 < f) (he : eta_2 b = .ok η) (h1 : s_1 b = .ok a)
    (h2 : s_2 b = .ok s) (h3 : tau_bmax b f = .ok t) :
    0 < η ∧ η ≤ 1 ∧ 0 < a ∧ s = 2 * a ∧ 0 < t ∧ t ≤ 2.5 * Real.sqrt f ∧ (η = 1 ↔ t = 2.5 * Real.sqrt f) ∧
    (η ≠ 1 → t = 1.25 * Real.sqrt f) := by
  have hsf : f ^ (0.5 : ℝ) = Real.sqrt f := by rw [Real.sqrt_eq_rpow]; norm_num
  have hp := Real.sqrt_pos.2 hf
  unfold eta_2 bondDict at he
  unfold s_1 bondDict at h1
  unfold s_2 bondDict at h2
  unfold tau_bmax bondDict at h3
  cases hv : validate bondValues b with
  | error e => rw [hv] at he; simp [Except.map] at he
  | ok q =>
    rw [hv] at he h1 h2 h3
    simp only [Except.map, Except.ok.injEq, hsf] at he h1 h2 h3
    split_ifs at he h1 h2 h3 <;> subst he <;> subst h1 <;> subst h2 <;> subst h3
    · refine ⟨by norm_num, by norm_num, by norm_num, by norm_num, by positivity, le_rfl, by simp, by simp⟩
    · refine ⟨by norm_num, by norm_num, by norm_num, by norm_num, by positivity, by linarith, ?_, fun _ => rfl⟩
      constructor
      · intro h; norm_num at h
      · intro h; linarith

/-- **C46 (third slip value).** For valid strings: the rib spacing at pull-out (whatever the confinement, even an
invalid one), half of it for splitting with stirrups, `1.2 s1` for splitting without confinement. -/
theorem C46_s_3 (b : List Char) (hb : pyLower b ∈ bondValues) (conf : Option (List Char)) (c s : ℝ) :
    s_3 (some "PO".toList) (some b) conf c s = .ok c ∧
    s_3 (some "SP".toList) (some b) (some "Unconfined".toList) c s = .ok (1.2 * s) ∧
    s_3 (some "SP".toList) (some b) (some "stirrups".toList) c s = .ok (0.5 * c) ∧
    s_3 (some "SP".toList) (some b) none c s = .error .valueError ∧
    (∀ fm, (∀ t, fm = some t → pyLower t ∉ failmodValues) → s_3 fm (some b) conf c s = .error .valueError) := by
  have hbv : validate bondValues (some b) = .ok (pyLower b) := validate_ok.2 ⟨b, rfl, hb, rfl⟩
  have h1 : validate failmodValues (some "PO".toList) = .ok "po".toList := validate_ok.2 ⟨_, rfl, by decide, by decide⟩
  have h2 : validate failmodValues (some "SP".toList) = .ok "sp".toList := validate_ok.2 ⟨_, rfl, by decide, by decide⟩
  have h3 : validate confinementValues (some "Unconfined".toList) = .ok "unconfined".toList :=
    validate_ok.2 ⟨_, rfl, by decide, by decide⟩
  have h4 : validate confinementValues (some "stirrups".toList) = .ok "stirrups".toList :=
    validate_ok.2 ⟨_, rfl, by decide, by decide⟩
  have hne : "sp".toList ≠ "po".toList := by decide
  have hne2 : "stirrups".toList ≠ "unconfined".toList := by decide
  refine ⟨?_, ?_, ?_, ?_, fun fm hfm => ?_⟩
  · simp only [s_3, h1, hbv, if_true]
  · simp only [s_3, h2, hbv, if_neg hne, h3, Except.map, s3Split, if_true]
  · simp only [s_3, h2, hbv, if_neg hne, h4, Except.map, s3Split, if_neg hne2]
  · have h5 : validate confinementValues none = .error .valueError := rfl
    simp only [s_3, h2, hbv, if_neg hne, h5, Except.map]
  · cases hv : validate failmodValues fm with
    | error e => unfold s_3; rw [hv]; simp only [validate_error hv]
    | ok t => obtain ⟨u, rfl, hu, -⟩ := validate_ok.1 hv; exact absurd hu (hfm u rfl)

example : pyLower "Good".toList ∈ bondValues := by decide

/-- **C46 (confinement index).** At most 5 per cent; below it, equal to the definition. -/
theorem C46_K_tr (nt A nb ph st : ℝ) : K_tr nt A nb ph st ≤ 0.05 ∧
    (nt * A / (nb * ph * st) ≤ 0.05 → K_tr nt A nb ph st = nt * A / (nb * ph * st)) :=
  ⟨min_le_right _ _, fun h => min_eq_left h⟩

/-- **C46 (splitting).** The splitting bond stress is non-negative and never decreases with bond condition, concrete
strength, confinement or largest cover. -/
theorem C46_tau_bu_split (η f ph c C k K : ℝ) (hη : 0 ≤ η) (hf : 0 ≤ f) (hp : 0 < ph) (hc : 0 < c) (hC : 0 < C) (hk : 0 ≤ k)
    (hK : 0 ≤ K) : 0 ≤ tau_bu_split η f ph c C k K ∧
    (∀ η' f' C' K', η ≤ η' → f ≤ f' → C ≤ C' → K ≤ K' → tau_bu_split η f ph c C k K ≤ tau_bu_split η' f' ph c C' k K') := by
  refine ⟨by unfold tau_bu_split; positivity, fun η' f' C' K' h1 h2 h3 h4 => ?_⟩
  unfold tau_bu_split
  have a1 : (f / 25) ^ (0.25 : ℝ) ≤ (f' / 25) ^ (0.25 : ℝ) := Real.rpow_le_rpow (by positivity) (by linarith) (by norm_num)
  have a2 : (C / c) ^ (0.1 : ℝ) ≤ (C' / c) ^ (0.1 : ℝ) :=
    Real.rpow_le_rpow (by positivity) (div_le_div_of_nonneg_right h3 hc.le) (by norm_num)
  have p1 : 0 ≤ (f / 25) ^ (0.25 : ℝ) := by positivity
  have p2 : 0 ≤ (25 / ph) ^ (0.2 : ℝ) := by positivity
  have p3 : 0 ≤ (c / ph) ^ (0.33 : ℝ) := by positivity
  have p4 : 0 ≤ (C / c) ^ (0.1 : ℝ) := by positivity
  have p0 : 0 ≤ η' := hη.trans h1
  have p5 : 0 ≤ (f' / 25) ^ (0.25 : ℝ) := p1.trans a1
  apply mul_le_mul
  · apply mul_le_mul_of_nonneg_right _ p2
    apply mul_le_mul (by linarith) a1 p1 (by positivity)
  · have := mul_le_mul_of_nonneg_left a2 p3
    have := mul_le_mul_of_nonneg_left h4 hk
    linarith
  · positivity
  · positivity

/-- **C46 (slip at splitting).** Never beyond `s1` when splitting comes before pull-out, `s1` when they coincide. -/
theorem C46_s_tau (tm ts a s : ℝ) (hm : 0 < tm) (h0 : 0 ≤ ts) (ha : 0 < a) (hs : 0 ≤ s) :
    (ts ≤ tm → s_tau_bu_split tm ts a s ≤ s) ∧ 0 ≤ s_tau_bu_split tm ts a s ∧ s_tau_bu_split tm tm a s = s ∧
    (∀ ts', ts ≤ ts' → s_tau_bu_split tm ts a s ≤ s_tau_bu_split tm ts' a s) := by
  unfold s_tau_bu_split
  refine ⟨fun h => ?_, by positivity, by rw [div_self hm.ne', Real.one_rpow, one_mul], fun ts' h => ?_⟩
  · have := Real.rpow_le_one (div_nonneg h0 hm.le) ((div_le_one hm).2 h) (by positivity : 0 ≤ 1 / a)
    nlinarith
  · apply mul_le_mul_of_nonneg_right _ hs
    exact Real.rpow_le_rpow (by positivity) (div_le_div_of_nonneg_right h hm.le) (by positivity)

/-- **C46 (anchorage).** The stress that can be developed is non-negative and never decreases with the bonded length;
the bond stress at yield multiplied by the bonded surface equals the yield force of the bar. -/
theorem C46_anchorage (f ph lb c C k K fy : ℝ) (hf : 0 ≤ f) (hp : 0 < ph) (hl : 0 < lb) (hc : 0 < c) (hC : 0 ≤ C) (hk : 0 ≤ k)
    (hK : 0 ≤ K) : 0 ≤ f_stm f ph lb c C k K ∧ (∀ lb', lb ≤ lb' → f_stm f ph lb c C k K ≤ f_stm f ph lb' c C k K) ∧
    tau_yield fy lb ph * (Real.pi * ph * lb) = fy * (Real.pi * ph ^ 2 / 4) := by
  refine ⟨by unfold f_stm; positivity, fun lb' h => ?_, ?_⟩
  · unfold f_stm
    apply mul_le_mul_of_nonneg_right _ (by positivity)
    apply mul_le_mul_of_nonneg_left _ (by positivity)
    exact Real.rpow_le_rpow (by positivity) (div_le_div_of_nonneg_right h hp.le) (by norm_num)
  · unfold tau_yield; field_simp

/-! ### Interfaces -/

/-- **C46 (interface factor).** -/
theorem C46_nuFc (f : ℝ) (hf : 0 < f) : nuFc f = 0.55 * eta_fc f ∧ 0 < nuFc f ∧ nuFc f ≤ 0.55 := by
  have e : nuFc f = 0.55 * eta_fc f := by
    unfold nuFc eta_fc
    rw [mul_min_of_nonneg _ _ (by norm_num), mul_one]
  have := C46_eta_fc f hf
  rw [e]
  exact ⟨rfl, by have := this.1; positivity, by linarith [this.2.1]⟩

/-- **C46 (interface resistance).** The resistance never exceeds the crushing limit (`0.5 ν fcd`, at most `0.275 fcd`; or
`βc ν fcd`), is non-negative for non-negative inputs, and never decreases with the normal stress, the friction or — in the
reinforced case, for dowels at up to 90 degrees — the reinforcement ratio. -/
theorem C46_interface (ca ft mu s f fc cr k1 k2 ro a bc fy : ℝ) (hca : 0 ≤ ca) (hft : 0 ≤ ft) (hmu : 0 ≤ mu) (hs : 0 ≤ s) (hf : 0 < f)
    (hfc : 0 ≤ fc) (hcr : 0 ≤ cr) (hk1 : 0 ≤ k1) (hk2 : 0 ≤ k2) (hro : 0 ≤ ro) (a0 : 0 < a) (a1 : a ≤ 90) (hbc : 0 ≤ bc) (hfy : 0 ≤ fy) :
    0 ≤ tau_rdi_without_reinforcement ca ft mu s f fc ∧
    tau_rdi_without_reinforcement ca ft mu s f fc ≤ 0.275 * fc ∧
    (∀ mu' s', mu ≤ mu' → s ≤ s' → tau_rdi_without_reinforcement ca ft mu s f fc ≤ tau_rdi_without_reinforcement ca ft mu' s' f fc) ∧
    0 ≤ tau_rdi_with_reinforcement cr k1 k2 mu ro s a bc f fy fc ∧
    tau_rdi_with_reinforcement cr k1 k2 mu ro s a bc f fy fc ≤ bc * 0.55 * fc ∧
    (∀ ro' s', ro ≤ ro' → s ≤ s' →
      tau_rdi_with_reinforcement cr k1 k2 mu ro s a bc f fy fc ≤ tau_rdi_with_reinforcement cr k1 k2 mu ro' s' a bc f fy fc) := by
  obtain ⟨-, hn0, hn1⟩ := C46_nuFc f hf
  have hs0 := (sin_pos a0 (by linarith)).le
  have hc0 := cos_nonneg a0 a1
  refine ⟨le_min (by positivity) (by positivity), ?_, fun mu' s' h1 h2 => ?_, le_min (by positivity) (by positivity), ?_,
    fun ro' s' h1 h2 => ?_⟩
  · apply (min_le_right _ _).trans; nlinarith
  · apply min_le_min _ le_rfl
    have := mul_le_mul h1 h2 hs (hmu.trans h1)
    linarith
  · apply (min_le_right _ _).trans
    have : nuFc f * (bc * fc) ≤ 0.55 * (bc * fc) := mul_le_mul_of_nonneg_right hn1 (by positivity)
    linarith
  · apply min_le_min _ le_rfl
    have q1 : mu * s ≤ mu * s' := mul_le_mul_of_nonneg_left h2 hmu
    have q2 : k1 * ro * fy * (mu * Real.sin (rad a) + Real.cos (rad a)) ≤ k1 * ro' * fy * (mu * Real.sin (rad a) + Real.cos (rad a)) := by
      apply mul_le_mul_of_nonneg_right _ (by positivity)
      apply mul_le_mul_of_nonneg_right _ hfy
      exact mul_le_mul_of_nonneg_left h1 hk1
    have q3 : k2 * ro * (fy * fc) ^ (0.5 : ℝ) ≤ k2 * ro' * (fy * fc) ^ (0.5 : ℝ) := by
      apply mul_le_mul_of_nonneg_right _ (by positivity)
      exact mul_le_mul_of_nonneg_left h1 hk2
    linarith

/-- **C46 (wall shear and interface demand).** Proportional to the action. -/
theorem C46_demand (T A z k b v zz bi : ℝ) : v_ed_ti (k * T) A z = k * v_ed_ti T A z ∧ tau_edi b (k * v) zz bi = k * tau_edi b v zz bi := by
  unfold v_ed_ti tau_edi; constructor <;> ring

end SC.MC2010
