import Verif.Model.Domain
import Verif.Props.Balanced
import Verif.Props.Strength
import Mathlib.Tactic.Positivity

/-! # C38, C39: strain profiles of the interaction domains and curvature grid -/

set_option autoImplicit false

namespace SC

open Spec

/-! ### Spacings -/

theorem linspace_length (a b : ℝ) (n : ℕ) (e : Bool) : (linspace a b n e).length = n := by
  simp [linspace]

theorem linspace_mem (a b : ℝ) (n : ℕ) (e : Bool) : ∀ x ∈ linspace a b n e,
    min a b ≤ x ∧ x ≤ max a b := by
  intro x hx
  simp only [linspace, List.mem_map, List.mem_range] at hx
  obtain ⟨i, hi, rfl⟩ := hx
  split_ifs with h1 h2
  · exact ⟨min_le_left _ _, le_max_left _ _⟩
  · -- endpoint, n > 1
    have hn1 : n ≠ 1 := by simpa [h2] using h1
    have hn : (1 : ℝ) ≤ (n : ℝ) - 1 := by
      have : 2 ≤ n := by omega
      have : (2 : ℝ) ≤ n := by exact_mod_cast this
      linarith
    have hin : (i : ℝ) ≤ (n : ℝ) - 1 := by
      have : i + 1 ≤ n := hi
      have : (i : ℝ) + 1 ≤ n := by exact_mod_cast this
      linarith
    have ht0 : (0 : ℝ) ≤ i / ((n : ℝ) - 1) := by positivity
    have ht1 : (i : ℝ) / ((n : ℝ) - 1) ≤ 1 := by rw [div_le_one (by linarith)]; exact hin
    have : (i : ℝ) * ((b - a) / ((n : ℝ) - 1)) = i / ((n : ℝ) - 1) * (b - a) := by ring
    rw [this]
    rcases le_total a b with hab | hab
    · rw [min_eq_left hab, max_eq_right hab]
      constructor <;> nlinarith
    · rw [min_eq_right hab, max_eq_left hab]
      constructor <;> nlinarith
  · have hn : (0 : ℝ) < n := by
      have : 0 < n := by omega
      exact_mod_cast this
    have hin : (i : ℝ) ≤ n := by exact_mod_cast hi.le
    have ht0 : (0 : ℝ) ≤ i / (n : ℝ) := by positivity
    have ht1 : (i : ℝ) / (n : ℝ) ≤ 1 := by rw [div_le_one hn]; exact hin
    have : (i : ℝ) * ((b - a) / (n : ℝ)) = i / (n : ℝ) * (b - a) := by ring
    rw [this]
    rcases le_total a b with hab | hab
    · rw [min_eq_left hab, max_eq_right hab]
      constructor <;> nlinarith
    · rw [min_eq_right hab, max_eq_left hab]
      constructor <;> nlinarith

theorem geom_between {a b t : ℝ} (hab : 0 < a * b) (h0 : 0 ≤ t) (h1 : t ≤ 1) :
    min a b ≤ a * (b / a) ^ t ∧ a * (b / a) ^ t ≤ max a b := by
  have hpow : ∀ r : ℝ, 0 < r → (1 ≤ r → 1 ≤ r ^ t ∧ r ^ t ≤ r) ∧ (r ≤ 1 → r ≤ r ^ t ∧ r ^ t ≤ 1) := by
    intro r hr
    refine ⟨fun h => ⟨Real.one_le_rpow h h0, ?_⟩, fun h => ⟨?_, Real.rpow_le_one hr.le h h0⟩⟩
    · have := Real.rpow_le_rpow_of_exponent_le h h1
      rwa [Real.rpow_one] at this
    · have := Real.rpow_le_rpow_of_exponent_ge hr h h1
      rwa [Real.rpow_one] at this
  have hr : 0 < b / a := by
    rcases pos_and_pos_or_neg_and_neg_of_mul_pos hab with ⟨ha, hb⟩ | ⟨ha, hb⟩
    · positivity
    · exact div_pos_of_neg_of_neg hb ha
  have hane : a ≠ 0 := by rintro rfl; simp at hab
  have hb' : a * (b / a) = b := by field_simp
  generalize b / a = r at hr hb' ⊢
  obtain ⟨hg, hl⟩ := hpow _ hr
  rcases pos_and_pos_or_neg_and_neg_of_mul_pos hab with ⟨ha, hb⟩ | ⟨ha, hb⟩
  · rcases le_total 1 r with h | h
    · obtain ⟨p, q⟩ := hg h
      constructor
      · refine (min_le_left _ _).trans ?_; nlinarith
      · refine le_trans ?_ (le_max_right _ _); nlinarith
    · obtain ⟨p, q⟩ := hl h
      constructor
      · refine (min_le_right _ _).trans ?_; nlinarith
      · refine le_trans ?_ (le_max_left _ _); nlinarith
  · rcases le_total 1 r with h | h
    · obtain ⟨p, q⟩ := hg h
      constructor
      · refine (min_le_right _ _).trans ?_; nlinarith
      · refine le_trans ?_ (le_max_left _ _); nlinarith
    · obtain ⟨p, q⟩ := hl h
      constructor
      · refine (min_le_left _ _).trans ?_; nlinarith
      · refine le_trans ?_ (le_max_right _ _); nlinarith

theorem geomspace_mem {a b : ℝ} (hab : 0 < a * b) (n : ℕ) :
    ∀ x ∈ geomspace a b n false, min a b ≤ x ∧ x ≤ max a b := by
  intro x hx
  simp only [geomspace, List.mem_map, List.mem_range, Bool.false_eq_true, if_false] at hx
  obtain ⟨i, hi, rfl⟩ := hx
  have hn : (0 : ℝ) < n := by
    have : 0 < n := by omega
    exact_mod_cast this
  refine geom_between hab (by positivity) ?_
  rw [div_le_one hn]
  exact_mod_cast hi.le

/-- Admissible limits of a spacing: no sign change, and not closer to zero than `1e-10` unless
zero. -/
def SpaceOk (a b : ℝ) : Prop := 0 ≤ a * b ∧ (a = 0 ∨ 1e-10 ≤ |a|) ∧ (b = 0 ∨ 1e-10 ≤ |b|)

theorem small_mul {a : ℝ} (ha : a ≠ 0) : 0 < a * (1e-10 * npSign a) := by
  unfold npSign
  split_ifs with h1 h2
  · norm_num; exact h1
  · norm_num; linarith
  · exact absurd (le_antisymm (not_lt.1 h1) (not_lt.1 h2)) ha

theorem small_between {a : ℝ} (h : 1e-10 ≤ |a|) :
    min a 0 ≤ min a (1e-10 * npSign a) ∧ max a (1e-10 * npSign a) ≤ max a 0 := by
  unfold npSign
  split_ifs with h1 h2
  · rw [abs_of_pos h1] at h
    rw [min_eq_right h1.le, max_eq_left h1.le, max_eq_left (by linarith)]
    exact ⟨le_min h1.le (by norm_num), le_rfl⟩
  · rw [abs_of_neg h2] at h
    rw [min_eq_left h2.le, max_eq_right h2.le, min_eq_left (by linarith)]
    exact ⟨le_rfl, max_le h2.le (by norm_num)⟩
  · have : a = 0 := le_antisymm (not_lt.1 h1) (not_lt.1 h2)
    rw [this]; simp

theorem geomspace?_ok {a b : ℝ} {n : ℤ} {e : Bool} {l : List ℝ} (h : geomspace? a b n e = .ok l) :
    a ≠ 0 ∧ b ≠ 0 ∧ 0 ≤ n ∧ l = geomspace a b n.toNat e := by
  unfold geomspace? at h
  split_ifs at h with hc
  push Not at hc
  cases h
  exact ⟨hc.1, hc.2.1, hc.2.2, rfl⟩

/-- A returned spacing has the requested number of values, all between the limits. -/
theorem npSpace_spec {a b : ℝ} {n : ℤ} {ty : Spacing} {l : List ℝ}
    (h : npSpace a b n ty false = .ok l) :
    l.length = n.toNat ∧ 0 ≤ n ∧ (SpaceOk a b → ∀ x ∈ l, min a b ≤ x ∧ x ≤ max a b) := by
  by_cases hn : n < 0
  · simp [npSpace, hn] at h
  rw [npSpace.eq_def, if_neg hn] at h
  push Not at hn
  cases ty with
  | linear =>
    cases h
    exact ⟨linspace_length _ _ _ _, hn, fun _ => linspace_mem _ _ _ _⟩
  | other => cases h
  | quadratic =>
    simp only [Except.ok.injEq] at h
    subst h
    refine ⟨by simp [linspace_length], hn, fun _ x hx => ?_⟩
    simp only [List.mem_reverse, List.mem_map] at hx
    obtain ⟨t, ht, rfl⟩ := hx
    obtain ⟨h0, h1⟩ := linspace_mem 0 1 _ _ t ht
    norm_num at h0 h1
    have hsq : t ^ 2 ≤ 1 := by nlinarith
    have hsq0 : 0 ≤ t ^ 2 := sq_nonneg t
    rcases le_total a b with hab | hab
    · rw [min_eq_left hab, max_eq_right hab]
      constructor <;> nlinarith
    · rw [min_eq_right hab, max_eq_left hab]
      constructor <;> nlinarith
  | geometric =>
    simp only at h
    split_ifs at h with h1 h2
    · obtain ⟨-, -, -, rfl⟩ := geomspace?_ok h
      refine ⟨by simp [geomspace], hn, fun hok => ?_⟩
      refine geomspace_mem (lt_of_le_of_ne hok.1 ?_) _
      exact (mul_ne_zero h1.2 h1.1).symm
    · cases hg : geomspace? a (1e-10 * npSign a) (n - 1) false with
      | error e => rw [hg] at h; cases h
      | ok g =>
        rw [hg] at h
        simp only [Except.ok.injEq] at h
        subst h
        obtain ⟨ha, -, hn1, rfl⟩ := geomspace?_ok hg
        refine ⟨?_, hn, fun hok x hx => ?_⟩
        · simp only [geomspace, List.length_append, List.length_map, List.length_range,
            List.length_cons, List.length_nil]
          omega
        · subst h2
          rcases List.mem_append.1 hx with hx | hx
          · obtain ⟨l1, l2⟩ := geomspace_mem (small_mul ha) _ x hx
            obtain ⟨m1, m2⟩ := small_between (hok.2.1.resolve_left ha)
            exact ⟨m1.trans l1, l2.trans m2⟩
          · simp only [List.mem_singleton] at hx
            subst hx
            exact ⟨min_le_right _ _, le_max_right _ _⟩
    · cases hg : geomspace? (1e-10 * npSign b) b (n - 1) false with
      | error e => rw [hg] at h; cases h
      | ok g =>
        rw [hg] at h
        simp only [Except.ok.injEq] at h
        subst h
        obtain ⟨-, hb, hn1, rfl⟩ := geomspace?_ok hg
        have ha : a = 0 := by
          by_contra hne
          exact h1 ⟨hb, hne⟩
        subst ha
        refine ⟨?_, hn, fun hok x hx => ?_⟩
        · simp only [geomspace, List.length_map, List.length_range, List.length_cons]
          omega
        · rcases List.mem_cons.1 hx with rfl | hx
          · exact ⟨min_le_left _ _, le_max_left _ _⟩
          · have hs := small_mul hb
            rw [mul_comm] at hs
            obtain ⟨l1, l2⟩ := geomspace_mem hs _ x hx
            obtain ⟨m1, m2⟩ := small_between (hok.2.2.resolve_left hb)
            rw [min_comm, min_comm b] at m1
            rw [max_comm b, max_comm b] at m2
            exact ⟨m1.trans l1, l2.trans m2⟩

/-! ### The six fields -/

/-- `x` and `y` are between `a` and `b`. -/
theorem between_iff {a b x : ℝ} (h : min a b ≤ x ∧ x ≤ max a b) :
    ∃ t, 0 ≤ t ∧ t ≤ 1 ∧ x = a + t * (b - a) := by
  obtain ⟨h1, h2⟩ := h
  rcases eq_or_ne a b with rfl | hne
  · refine ⟨0, le_rfl, zero_le_one, ?_⟩
    simp only [min_self, max_self] at h1 h2
    linarith
  · have hd : b - a ≠ 0 := sub_ne_zero.2 hne.symm
    refine ⟨(x - a) / (b - a), ?_, ?_, by field_simp; ring⟩
    · rcases lt_or_gt_of_ne hne with h | h
      · rw [min_eq_left h.le] at h1
        exact div_nonneg (by linarith) (by linarith)
      · rw [max_eq_left h.le] at h2
        exact div_nonneg_of_nonpos (by linarith) (by linarith)
    · rcases lt_or_gt_of_ne hne with h | h
      · rw [max_eq_right h.le] at h2
        rw [div_le_one (by linarith)]; linarith
      · rw [min_eq_right h.le] at h1
        rw [div_le_one_of_neg (by linarith)]; linarith

theorem fieldPos_ok {f : FieldData} {a b : ℝ} {n : ℤ} {ty : Spacing} {l : List (ℝ × ℝ)}
    (h : fieldPos f a b n ty = .ok l) :
    l.length = n.toNat ∧ 0 ≤ n ∧ ∀ p ∈ l, p.2 = f.eps_p_b ∧
      (SpaceOk a b → min a b ≤ p.1 ∧ p.1 ≤ max a b) := by
  unfold fieldPos at h
  cases hs : npSpace a b n ty false with
  | error e => rw [hs] at h; cases h
  | ok g =>
    rw [hs] at h
    cases h
    obtain ⟨h1, h2, h3⟩ := npSpace_spec hs
    refine ⟨by simpa using h1, h2, fun p hp => ?_⟩
    obtain ⟨x, hx, rfl⟩ := List.mem_map.1 hp
    exact ⟨rfl, fun hok => h3 hok x hx⟩

theorem fieldNeg_ok {f : FieldData} {a b : ℝ} {n : ℤ} {ty : Spacing} {l : List (ℝ × ℝ)}
    (h : fieldNeg f a b n ty = .ok l) :
    l.length = n.toNat ∧ 0 ≤ n ∧ ∀ p ∈ l, p.1 = f.eps_n_b ∧
      (SpaceOk a b → min a b ≤ p.2 ∧ p.2 ≤ max a b) := by
  unfold fieldNeg at h
  cases hs : npSpace a b n ty false with
  | error e => rw [hs] at h; cases h
  | ok g =>
    rw [hs] at h
    cases h
    obtain ⟨h1, h2, h3⟩ := npSpace_spec hs
    refine ⟨by simpa using h1, h2, fun p hp => ?_⟩
    obtain ⟨x, hx, rfl⟩ := List.mem_map.1 hp
    exact ⟨rfl, fun hok => h3 hok x hx⟩

/-- The line through the pivot of field 6. -/
theorem pivot_line (f : FieldData) (hb : f.eps_n_b ≠ 0) (hh : f.y_n - f.min_y ≠ 0) :
    (f.eps_n_y - f.epsPLim) * (f.zPivot - f.y_n) = (f.eps_n_y - f.eps_n_b) * (f.zPivot - f.y_p) := by
  unfold FieldData.epsPLim FieldData.zPivot
  field_simp
  ring

theorem field6_ok {f : FieldData} {rc : Bool} {n : ℤ} {ty : Spacing} {l : List (ℝ × ℝ)}
    (h : field6 f rc n ty = .ok l) :
    l.length = n.toNat ∧ 1 ≤ n ∧ ∀ p ∈ l,
      (rc = false → p.1 = f.eps_n_b ∧
        (SpaceOk f.epsPLim f.eps_n_b → min f.epsPLim f.eps_n_b ≤ p.2 ∧ p.2 ≤ max f.epsPLim f.eps_n_b)) ∧
      (rc = true → p.1 = -(f.eps_n_y - p.2) * (f.zPivot - f.y_n) / (f.zPivot - f.y_p) + f.eps_n_y ∧
        (SpaceOk f.epsPLim f.eps_n_y → min f.epsPLim f.eps_n_y ≤ p.2 ∧ p.2 ≤ max f.epsPLim f.eps_n_y)) := by
  unfold field6 at h
  cases rc with
  | false =>
    simp only [Bool.false_eq_true, if_false] at h
    cases hs : npSpace f.epsPLim f.eps_n_b (n - 1) ty false with
    | error e => rw [hs] at h; cases h
    | ok g =>
      rw [hs] at h
      cases h
      obtain ⟨h1, h2, h3⟩ := npSpace_spec hs
      refine ⟨by simp only [List.length_map, List.length_append, h1, List.length_singleton]; omega,
        by omega, fun p hp => ⟨fun _ => ?_, by simp⟩⟩
      obtain ⟨x, hx, rfl⟩ := List.mem_map.1 hp
      refine ⟨rfl, fun hok => ?_⟩
      rcases List.mem_append.1 hx with hx | hx
      · exact h3 hok x hx
      · rw [List.mem_singleton.1 hx]
        exact ⟨min_le_right _ _, le_max_right _ _⟩
  | true =>
    simp only [if_true] at h
    cases hs : npSpace f.epsPLim f.eps_n_y (n - 1) ty false with
    | error e => rw [hs] at h; cases h
    | ok g =>
      rw [hs] at h
      cases h
      obtain ⟨h1, h2, h3⟩ := npSpace_spec hs
      refine ⟨by simp only [List.length_map, List.length_append, h1, List.length_singleton]; omega,
        by omega, fun p hp => ⟨by simp, fun _ => ?_⟩⟩
      obtain ⟨x, hx, rfl⟩ := List.mem_map.1 hp
      refine ⟨rfl, fun hok => ?_⟩
      rcases List.mem_append.1 hx with hx | hx
      · exact h3 hok x hx
      · rw [List.mem_singleton.1 hx]
        exact ⟨min_le_right _ _, le_max_right _ _⟩

/-- A profile, evaluated in the rotated section, is the line through its two strains. -/
theorem profilePlane_at (f : FieldData) (theta : ℝ) (p : ℝ × ℝ) (x y : ℝ) (h : f.y_p < f.y_n) :
    planeStrain (profilePlane f theta p) (rotPt theta (x, y)).1 (rotPt theta (x, y)).2 =
      p.2 + (p.1 - p.2) * ((y - f.y_p) / (f.y_n - f.y_p)) := by
  have hne : f.y_n - f.y_p ≠ 0 := by linarith
  have : planeStrain (profilePlane f theta p) (rotPt theta (x, y)).1 (rotPt theta (x, y)).2 =
      p.1 - (p.1 - p.2) / (f.y_n - f.y_p) * f.y_n + (p.1 - p.2) / (f.y_n - f.y_p) * y *
        (Real.sin theta ^ 2 + Real.cos theta ^ 2) := by
    simp [planeStrain, profilePlane, rot2, rotPt, -Real.sin_sq_add_cos_sq]; ring
  rw [this, Real.sin_sq_add_cos_sq]
  field_simp
  ring

theorem line_between {lo hi a b t : ℝ} (ha : lo ≤ a ∧ a ≤ hi) (hb : lo ≤ b ∧ b ≤ hi) (h0 : 0 ≤ t)
    (h1 : t ≤ 1) : lo ≤ b + (a - b) * t ∧ b + (a - b) * t ≤ hi := by
  obtain ⟨a1, a2⟩ := ha
  obtain ⟨b1, b2⟩ := hb
  constructor <;> nlinarith

theorem mapM_finRange_six {α : Type} (g : Fin 6 → Except PyErr α) (l : List α)
    (h : (List.finRange 6).mapM g = .ok l) :
    ∃ F : Fin 6 → α, (∀ i, g i = .ok (F i)) ∧ l = List.ofFn F := by
  have : (List.finRange 6) = [0, 1, 2, 3, 4, 5] := by decide
  rw [this] at h
  cases h0 : g 0 with
  | error e => simp [List.mapM_cons, h0, bind, Except.bind] at h
  | ok a0 =>
  cases h1 : g 1 with
  | error e => simp [List.mapM_cons, h0, h1, bind, Except.bind] at h
  | ok a1 =>
  cases h2 : g 2 with
  | error e => simp [List.mapM_cons, h0, h1, h2, bind, Except.bind] at h
  | ok a2 =>
  cases h3 : g 3 with
  | error e => simp [List.mapM_cons, h0, h1, h2, h3, bind, Except.bind] at h
  | ok a3 =>
  cases h4 : g 4 with
  | error e => simp [List.mapM_cons, h0, h1, h2, h3, h4, bind, Except.bind] at h
  | ok a4 =>
  cases h5 : g 5 with
  | error e => simp [List.mapM_cons, h0, h1, h2, h3, h4, h5, bind, Except.bind] at h
  | ok a5 =>
    simp [List.mapM_cons, h0, h1, h2, h3, h4, h5, bind, Except.bind, pure, Except.pure] at h
    subst h
    refine ⟨![a0, a1, a2, a3, a4, a5], ?_, ?_⟩
    · intro i; fin_cases i <;> simp [h0, h1, h2, h3, h4, h5]
    · simp [List.ofFn_succ]

/-- The model's fields behind a successful run. -/
theorem ultimateProfiles_ok {bal : Bool → Except PyErr (ℝ × ℝ × (Fin 3 → ℝ))} {minY : ℝ} {rc : Bool}
    {theta : ℝ} {num : Fin 6 → ℤ} {ty : Fin 6 → Spacing} {planes : List (Fin 3 → ℝ)} {labels : List ℕ}
    (h : ultimateProfiles bal minY rc theta num ty = .ok (planes, labels)) :
    ∃ f F, fieldData bal minY = .ok f ∧ (∀ i, sixFields f rc num ty i = .ok (F i)) ∧
      planes = (List.ofFn F).flatten.map (profilePlane f theta) ∧
      labels = (List.finRange 6).flatMap fun i => List.replicate (num i).toNat (i.val + 1) := by
  unfold ultimateProfiles at h
  cases hf : fieldData bal minY with
  | error e => rw [hf] at h; cases h
  | ok f =>
    rw [hf] at h
    simp only at h
    cases hm : (List.finRange 6).mapM (sixFields f rc num ty) with
    | error e => rw [hm] at h; cases h
    | ok l =>
      rw [hm] at h
      obtain ⟨F, hF, rfl⟩ := mapM_finRange_six _ _ hm
      simp only [Except.ok.injEq, Prod.mk.injEq] at h
      exact ⟨f, F, rfl, hF, h.1.symm, h.2.symm⟩

theorem sixFields_length {f : FieldData} {rc : Bool} {num : Fin 6 → ℤ} {ty : Fin 6 → Spacing}
    {F : Fin 6 → List (ℝ × ℝ)} (h : ∀ i, sixFields f rc num ty i = .ok (F i)) (i : Fin 6) :
    (F i).length = (num i).toNat ∧ 0 ≤ num i := by
  have h0 := fieldPos_ok (h 0)
  have h1 := fieldPos_ok (h 1)
  have h2 := fieldNeg_ok (h 2)
  have h3 := fieldNeg_ok (h 3)
  have h4 := fieldNeg_ok (h 4)
  have h5 := field6_ok (h 5)
  fin_cases i
  · exact ⟨h0.1, h0.2.1⟩
  · exact ⟨h1.1, h1.2.1⟩
  · exact ⟨h2.1, h2.2.1⟩
  · exact ⟨h3.1, h3.2.1⟩
  · exact ⟨h4.1, h4.2.1⟩
  · exact ⟨h5.1, by have := h5.2.1; simp only [Fin.reduceFinMk]; omega⟩

/-- **C38 (number and labels).** Whatever the section, when profiles are returned, no requested
number is negative, the last one is at least 1, and there are exactly as many profiles as requested
in total; the labels are `num_1` ones, then `num_2` twos, ... `num_6` sixes. -/
theorem C38_count (bal : Bool → Except PyErr (ℝ × ℝ × (Fin 3 → ℝ))) (minY : ℝ) (rc : Bool)
    (theta : ℝ) (num : Fin 6 → ℤ) (ty : Fin 6 → Spacing) (planes : List (Fin 3 → ℝ)) (labels : List ℕ)
    (h : ultimateProfiles bal minY rc theta num ty = .ok (planes, labels)) :
    (∀ i, 0 ≤ num i) ∧ 1 ≤ num 5 ∧ (planes.length : ℤ) = ∑ i, num i ∧
      labels.length = planes.length ∧ labels.Pairwise (· ≤ ·) ∧
      ∀ i : Fin 6, (labels.count (i.val + 1) : ℤ) = num i := by
  obtain ⟨f, F, -, hF, hpl, hla⟩ := ultimateProfiles_ok h
  have hlen := fun i => sixFields_length hF i
  have h5 := (field6_ok (hF 5)).2.1
  have hnn := fun i => (hlen i).2
  have e0 := hnn 0
  have e1 := hnn 1
  have e2 := hnn 2
  have e3 := hnn 3
  have e4 := hnn 4
  have hfin : (List.finRange 6) = [0, 1, 2, 3, 4, 5] := by decide
  rw [hfin] at hla
  have l1 : planes.length = ∑ i, (num i).toNat := by
    rw [hpl, List.length_map, List.length_flatten]
    simp [List.ofFn_succ, Fin.sum_univ_succ, hlen]
  refine ⟨hnn, h5, ?_, ?_, ?_, ?_⟩
  · rw [l1]
    push_cast
    exact Finset.sum_congr rfl fun i _ => Int.toNat_of_nonneg (hnn i)
  · rw [l1, hla]
    simp [Fin.sum_univ_succ]
  · rw [hla]
    simp only [List.flatMap_cons, List.flatMap_nil, List.pairwise_append, List.mem_append,
      List.mem_replicate, List.pairwise_replicate, List.append_nil]
    refine ⟨Or.inr le_rfl, ⟨Or.inr le_rfl, ⟨Or.inr le_rfl, ⟨Or.inr le_rfl, ⟨Or.inr le_rfl,
      Or.inr le_rfl, ?_⟩, ?_⟩, ?_⟩, ?_⟩, ?_⟩ <;>
    · intro a ha b hb
      have : ((0 : Fin 6) : ℕ) = 0 := rfl
      have : ((1 : Fin 6) : ℕ) = 1 := rfl
      have : ((2 : Fin 6) : ℕ) = 2 := rfl
      have : ((3 : Fin 6) : ℕ) = 3 := rfl
      have : ((4 : Fin 6) : ℕ) = 4 := rfl
      have : ((5 : Fin 6) : ℕ) = 5 := rfl
      omega
  · intro i
    rw [hla]
    simp only [List.flatMap_cons, List.flatMap_nil, List.count_append, List.count_replicate,
      List.append_nil]
    fin_cases i <;> simp <;> omega

theorem geomspace?_error {a b : ℝ} {n : ℤ} {e : Bool} {err : PyErr}
    (h : geomspace? a b n e = .error err) : err = .valueError := by
  unfold geomspace? at h
  split_ifs at h
  cases h; rfl

theorem npSpace_error {a b : ℝ} {n : ℤ} {ty : Spacing} {e : Bool} {err : PyErr}
    (h : npSpace a b n ty e = .error err) : err = .valueError := by
  by_cases hn : n < 0
  · simp [npSpace, hn] at h; exact h.symm
  rw [npSpace.eq_def, if_neg hn] at h
  cases ty with
  | linear => cases h
  | other => cases h; rfl
  | quadratic => cases h
  | geometric =>
    simp only at h
    split_ifs at h with h1 h2
    · exact geomspace?_error h
    · cases hg : geomspace? a (1e-10 * npSign a) (n - 1) e with
      | ok l => rw [hg] at h; cases h
      | error e' => rw [hg] at h; cases h; exact geomspace?_error hg
    · cases hg : geomspace? (1e-10 * npSign b) b (n - 1) e with
      | ok l => rw [hg] at h; cases h
      | error e' => rw [hg] at h; cases h; exact geomspace?_error hg

theorem sixFields_error {f : FieldData} {rc : Bool} {num : Fin 6 → ℤ} {ty : Fin 6 → Spacing}
    (i : Fin 6) {err : PyErr} (h : sixFields f rc num ty i = .error err) : err = .valueError := by
  have hp : ∀ a b n t, fieldPos f a b n t = .error err → err = .valueError := by
    intro a b n t h
    unfold fieldPos at h
    cases hs : npSpace a b n t false with
    | ok l => rw [hs] at h; cases h
    | error e => rw [hs] at h; cases h; exact npSpace_error hs
  have hn : ∀ a b n t, fieldNeg f a b n t = .error err → err = .valueError := by
    intro a b n t h
    unfold fieldNeg at h
    cases hs : npSpace a b n t false with
    | ok l => rw [hs] at h; cases h
    | error e => rw [hs] at h; cases h; exact npSpace_error hs
  have h6 : ∀ n t, field6 f rc n t = .error err → err = .valueError := by
    intro n t h
    unfold field6 at h
    cases rc with
    | false =>
      simp only [Bool.false_eq_true, if_false] at h
      cases hs : npSpace f.epsPLim f.eps_n_b (n - 1) t false with
      | ok l => rw [hs] at h; cases h
      | error e => rw [hs] at h; cases h; exact npSpace_error hs
    | true =>
      simp only [if_true] at h
      cases hs : npSpace f.epsPLim f.eps_n_y (n - 1) t false with
      | ok l => rw [hs] at h; cases h
      | error e => rw [hs] at h; cases h; exact npSpace_error hs
  fin_cases i
  · exact hp _ _ _ _ h
  · exact hp _ _ _ _ h
  · exact hn _ _ _ _ h
  · exact hn _ _ _ _ h
  · exact hn _ _ _ _ h
  · exact h6 _ _ h

theorem mapM_error {α β : Type} (g : α → Except PyErr β) (l : List α) {e : PyErr}
    (h : l.mapM g = .error e) : ∃ a ∈ l, g a = .error e := by
  induction l with
  | nil => cases h
  | cons a l ih =>
    rw [List.mapM_cons] at h
    cases ha : g a with
    | error e' =>
      rw [ha] at h
      simp only [bind, Except.bind, Except.error.injEq] at h
      exact ⟨a, List.mem_cons_self, by rw [ha, h]⟩
    | ok b =>
      cases hl : l.mapM g with
      | error e' =>
        rw [ha, hl] at h
        simp only [bind, Except.bind, Except.error.injEq] at h
        obtain ⟨a', h1, h2⟩ := ih (by rw [hl, h])
        exact ⟨a', List.mem_cons_of_mem _ h1, h2⟩
      | ok bs =>
        rw [ha, hl] at h
        simp [bind, Except.bind, pure, Except.pure] at h

/-- **C38 (rejection).** A negative number in a field, zero for the last field, or an unknown spacing
type is always a `ValueError` once the balanced failures are known. -/
theorem C38_rejects (bal : Bool → Except PyErr (ℝ × ℝ × (Fin 3 → ℝ))) (minY : ℝ) (rc : Bool)
    (theta : ℝ) (num : Fin 6 → ℤ) (ty : Fin 6 → Spacing)
    (hbal : ∀ b, ∃ r, bal b = .ok r)
    (h : (∃ i, num i < 0) ∨ num 5 < 1 ∨ ∃ i, ty i = .other) :
    ultimateProfiles bal minY rc theta num ty = .error .valueError := by
  cases hu : ultimateProfiles bal minY rc theta num ty with
  | error e =>
    unfold ultimateProfiles at hu
    obtain ⟨r1, h1⟩ := hbal true
    obtain ⟨r2, h2⟩ := hbal false
    cases hf : fieldData bal minY with
    | error e' => unfold fieldData at hf; rw [h1, h2] at hf; cases hf
    | ok f =>
      rw [hf] at hu
      simp only at hu
      cases hm : (List.finRange 6).mapM (sixFields f rc num ty) with
      | ok l => rw [hm] at hu; cases hu
      | error e' =>
        rw [hm] at hu
        simp only [Except.error.injEq] at hu
        obtain ⟨i, -, hi⟩ := mapM_error _ _ hm
        rw [← hu, sixFields_error i hi]
  | ok r =>
    obtain ⟨planes, labels⟩ := r
    obtain ⟨h1, h2, -⟩ := C38_count _ _ _ _ _ _ _ _ hu
    rcases h with ⟨i, hi⟩ | h | ⟨i, hi⟩
    · exact absurd (h1 i) (not_le.2 hi)
    · exact absurd h2 (not_le.2 h)
    · obtain ⟨f, F, -, hF, -, -⟩ := ultimateProfiles_ok hu
      have hsp : ∀ a b n, npSpace a b n .other false = .error .valueError := by
        intro a b n
        rw [npSpace.eq_def]
        split_ifs <;> rfl
      have hFi := hF i
      exfalso
      fin_cases i <;> simp only [Fin.reduceFinMk, Fin.isValue, Fin.zero_eta, Fin.mk_one] at hi <;>
        simp [sixFields, fieldPos, fieldNeg, field6, hi, hsp] at hFi

/-- Strains not resolved by the geometric spacing: nonzero but smaller than `1e-10`. -/
def Resolved (x : ℝ) : Prop := x = 0 ∨ 1e-10 ≤ |x|

/-- **C38 (bounds), partial.** Let the balanced failure of the (rotated) section take the strain
`eps_n_b < 0` at its upper governing ordinate `y_n` and `eps_p_b > 0` at its lower one `y_p`.
If the strains `eps_n_y`, `eps_p_y` of the yield failure lie within these limits
(`eps_n_b ≤ eps_n_y < 0 < eps_p_y ≤ eps_p_b`), the section extends at least down to `y_p` and the pivot
of field 6 is not at `y_p`, then every generated profile, at every point between the two governing
ordinates, stays between `eps_n_b` and `eps_p_b`; and every profile is a failure: it takes `eps_p_b` at
`y_p`, or `eps_n_b` at `y_n`, or (field 6 of a reinforced concrete section) `eps_n_y` at the pivot
ordinate, for which the line from `eps_n_b` at `y_n` to zero at the lowest ordinate takes `eps_n_y`, and at most `eps_n_y` at `y_n`.
Missing: the conclusion without the ordering hypotheses is false (`C38_violated`). -/
theorem C38_bounds_partial (bal : Bool → Except PyErr (ℝ × ℝ × (Fin 3 → ℝ))) (minY : ℝ) (rc : Bool)
    (theta : ℝ) (num : Fin 6 → ℤ) (ty : Fin 6 → Spacing) (planes : List (Fin 3 → ℝ)) (labels : List ℕ)
    (h : ultimateProfiles bal minY rc theta num ty = .ok (planes, labels))
    (yn yp yn' yp' eps_n_b eps_p_b eps_n_y eps_p_y : ℝ) (s s' : Fin 3 → ℝ)
    (hb : bal false = .ok (yn, yp, s)) (hy : bal true = .ok (yn', yp', s'))
    (hlt : yp < yn)
    (e1 : eps_n_b = planeStrain s 0 yn) (e2 : eps_p_b = planeStrain s 0 yp)
    (e3 : eps_n_y = planeStrain s' 0 yn') (e4 : eps_p_y = planeStrain s' 0 yp')
    (o1 : eps_n_b ≤ eps_n_y) (o2 : eps_n_y < 0) (o3 : 0 < eps_p_y) (o4 : eps_p_y ≤ eps_p_b)
    (hmin : minY ≤ yp) (zp : ℝ)
    (hzp : zp = minY + eps_n_y / eps_n_b * (yn - minY)) (hz : zp ≠ yp)
    (res : ∀ e ∈ [eps_n_b, eps_p_b, eps_n_y, eps_p_y, eps_n_b * ((yp - minY) / (yn - minY))], Resolved e) :
    (∀ v ∈ planes, ∀ x y, yp ≤ y → y ≤ yn →
      eps_n_b ≤ planeStrain v (rotPt theta (x, y)).1 (rotPt theta (x, y)).2 ∧
      planeStrain v (rotPt theta (x, y)).1 (rotPt theta (x, y)).2 ≤ eps_p_b) ∧
    (∀ v ∈ planes, ∀ x,
      planeStrain v (rotPt theta (x, yp)).1 (rotPt theta (x, yp)).2 = eps_p_b ∨
      planeStrain v (rotPt theta (x, yn)).1 (rotPt theta (x, yn)).2 = eps_n_b ∨
      (rc = true ∧ planeStrain v (rotPt theta (x, zp)).1 (rotPt theta (x, zp)).2 = eps_n_y ∧
        planeStrain v (rotPt theta (x, yn)).1 (rotPt theta (x, yn)).2 ≤ eps_n_y)) := by
  obtain ⟨f, F, hf, hF, hpl, -⟩ := ultimateProfiles_ok h
  unfold fieldData at hf
  rw [hy, hb] at hf
  simp only [Except.ok.injEq] at hf
  simp only [planeStrain, mul_zero, sub_zero] at e1 e2 e3 e4
  have f1 : f.y_n = yn := by rw [← hf]
  have f2 : f.y_p = yp := by rw [← hf]
  have f3 : f.eps_p_b = eps_p_b := by rw [← hf, e2]
  have f4 : f.eps_n_b = eps_n_b := by rw [← hf, e1]
  have f5 : f.eps_p_y = eps_p_y := by rw [← hf, e4]
  have f6 : f.eps_n_y = eps_n_y := by rw [← hf, e3]
  have f7 : f.min_y = minY := by rw [← hf]
  clear hf e1 e2 e3 e4
  subst f1 f2 f3 f4 f5 f6 f7
  have hh : 0 < f.y_n - f.min_y := by linarith
  have nb : f.eps_n_b ≠ 0 := by linarith [o1.trans_lt o2]
  have nb' : f.eps_n_b < 0 := by linarith
  have hlim : f.epsPLim = f.eps_n_b * ((f.y_p - f.min_y) / (f.y_n - f.min_y)) := by
    unfold FieldData.epsPLim
    rw [mul_div_assoc]
    congr 2
    ring
  have hzp' : f.zPivot = zp := by
    rw [hzp]; unfold FieldData.zPivot; ring
  rw [← hlim] at res
  have hratio : 0 ≤ (f.y_p - f.min_y) / (f.y_n - f.min_y) ∧
      (f.y_p - f.min_y) / (f.y_n - f.min_y) ≤ 1 :=
    ⟨div_nonneg (by linarith) hh.le, by rw [div_le_one hh]; linarith⟩
  have hlim0 : f.epsPLim ≤ 0 := by rw [hlim]; nlinarith [hratio.1]
  have hlim1 : f.eps_n_b ≤ f.epsPLim := by rw [hlim]; nlinarith [hratio.2]
  have r1 := res _ (by simp : f.eps_n_b ∈ _)
  have r2 := res _ (by simp : f.eps_p_b ∈ _)
  have r3 := res _ (by simp : f.eps_n_y ∈ _)
  have r4 := res _ (by simp : f.eps_p_y ∈ _)
  have r5 := res _ (by simp : f.epsPLim ∈ _)
  have hpb : 0 < f.eps_p_b := by linarith
  -- the pairs of strains
  have key : ∀ i, ∀ p ∈ F i, (f.eps_n_b ≤ p.1 ∧ p.1 ≤ f.eps_p_b) ∧ (f.eps_n_b ≤ p.2 ∧ p.2 ≤ f.eps_p_b) ∧
      (p.2 = f.eps_p_b ∨ p.1 = f.eps_n_b ∨ (rc = true ∧
        p.2 + (p.1 - p.2) * ((zp - f.y_p) / (f.y_n - f.y_p)) = f.eps_n_y ∧ p.1 ≤ f.eps_n_y)) := by
    have z0 : Resolved 0 := Or.inl rfl
    have h0 := (fieldPos_ok (hF 0)).2.2
    have h1 := (fieldPos_ok (hF 1)).2.2
    have h2 := (fieldNeg_ok (hF 2)).2.2
    have h3 := (fieldNeg_ok (hF 3)).2.2
    have h4 := (fieldNeg_ok (hF 4)).2.2
    have h5 := (field6_ok (hF 5)).2.2
    intro i p hp
    fin_cases i
    · obtain ⟨a, b⟩ := h0 p hp
      obtain ⟨c, d⟩ := b ⟨by simp, r2, z0⟩
      rw [min_eq_right hpb.le] at c
      rw [max_eq_left hpb.le] at d
      exact ⟨⟨by linarith, d⟩, ⟨by linarith, by linarith⟩, Or.inl a⟩
    · obtain ⟨a, b⟩ := h1 p hp
      obtain ⟨c, d⟩ := b ⟨by simp, z0, r1⟩
      rw [min_eq_right nb'.le] at c
      rw [max_eq_left nb'.le] at d
      exact ⟨⟨c, by linarith⟩, ⟨by linarith, by linarith⟩, Or.inl a⟩
    · obtain ⟨a, b⟩ := h2 p hp
      obtain ⟨c, d⟩ := b ⟨by positivity, r2, r4⟩
      rw [min_eq_right o4] at c
      rw [max_eq_left o4] at d
      exact ⟨⟨by linarith, by linarith⟩, ⟨by linarith, d⟩, Or.inr (Or.inl a)⟩
    · obtain ⟨a, b⟩ := h3 p hp
      obtain ⟨c, d⟩ := b ⟨by simp, r4, z0⟩
      rw [min_eq_right o3.le] at c
      rw [max_eq_left o3.le] at d
      exact ⟨⟨by linarith, by linarith⟩, ⟨by linarith, by linarith⟩, Or.inr (Or.inl a)⟩
    · obtain ⟨a, b⟩ := h4 p hp
      obtain ⟨c, d⟩ := b ⟨by simp, z0, r5⟩
      rw [min_eq_right hlim0] at c
      rw [max_eq_left hlim0] at d
      exact ⟨⟨by linarith, by linarith⟩, ⟨by linarith, by linarith⟩, Or.inr (Or.inl a)⟩
    · obtain ⟨hf', ht'⟩ := h5 p hp
      cases rc with
      | false =>
        obtain ⟨a, b⟩ := hf' rfl
        obtain ⟨c, d⟩ := b ⟨mul_nonneg_of_nonpos_of_nonpos hlim0 nb'.le, r5, r1⟩
        rw [min_eq_right hlim1] at c
        rw [max_eq_left hlim1] at d
        exact ⟨⟨by linarith, by linarith⟩, ⟨c, by linarith⟩, Or.inr (Or.inl a)⟩
      | true =>
        obtain ⟨a, b⟩ := ht' rfl
        obtain ⟨t, t0, t1, ht⟩ := between_iff (b ⟨mul_nonneg_of_nonpos_of_nonpos hlim0 o2.le, r5, r3⟩)
        have hzne : f.zPivot - f.y_p ≠ 0 := by rw [hzp']; exact sub_ne_zero.2 hz
        have hpiv := pivot_line f nb hh.ne'
        have hp1 : p.1 = f.eps_n_b + t * (f.eps_n_y - f.eps_n_b) := by
          have e : (f.eps_n_y - p.2) * (f.zPivot - f.y_n) =
              (1 - t) * ((f.eps_n_y - f.eps_n_b) * (f.zPivot - f.y_p)) := by
            rw [← hpiv, ht]; ring
          rw [a, neg_mul, e]
          field_simp
          ring
        refine ⟨⟨by nlinarith, by nlinarith⟩, ⟨by rw [ht]; nlinarith, by rw [ht]; nlinarith⟩,
          Or.inr (Or.inr ⟨rfl, ?_, by rw [hp1]; nlinarith⟩)⟩
        rw [hp1, ht, ← hzp']
        have hne : f.y_n - f.y_p ≠ 0 := by linarith
        field_simp
        linear_combination (1 - t) * hpiv
  have hmem : ∀ v ∈ planes, ∃ i, ∃ p ∈ F i, v = profilePlane f theta p := by
    intro v hv
    rw [hpl] at hv
    obtain ⟨p, hp, rfl⟩ := List.mem_map.1 hv
    obtain ⟨l, hl, hpl'⟩ := List.mem_flatten.1 hp
    obtain ⟨i, rfl⟩ := (List.mem_ofFn' F l).1 hl
    exact ⟨i, p, hpl', rfl⟩
  refine ⟨fun v hv x y h1 h2 => ?_, fun v hv x => ?_⟩
  · obtain ⟨i, p, hp, rfl⟩ := hmem v hv
    obtain ⟨ka, kb, -⟩ := key i p hp
    rw [profilePlane_at f theta p x y hlt]
    exact line_between ka kb (div_nonneg (by linarith) (by linarith))
      (by rw [div_le_one (by linarith)]; linarith)
  · obtain ⟨i, p, hp, rfl⟩ := hmem v hv
    obtain ⟨-, -, kc⟩ := key i p hp
    rw [profilePlane_at f theta p x _ hlt, profilePlane_at f theta p x _ hlt,
      profilePlane_at f theta p x _ hlt, sub_self, zero_div, mul_zero, add_zero,
      div_self (by linarith : f.y_n - f.y_p ≠ 0), mul_one]
    rcases kc with k | k | k
    · exact Or.inl k
    · exact Or.inr (Or.inl (by linarith))
    · exact Or.inr (Or.inr ⟨k.1, k.2.1, by linarith [k.2.2]⟩)

/-- A section with concrete from 0 to 1, a brittle (elastic) bar at 0.2 and a high strength steel
bar at 0: the yield failure is governed by the steel, the ultimate failure by the brittle bar. -/
def hybridParts : List Part :=
  [⟨true, true, 0, 1, fun b => if b then (-0.002, 100) else (-0.0035, 100)⟩,
   ⟨false, false, 0.2, 0.2, fun _ => (-0.0035, 0.0035)⟩,
   ⟨false, false, 0, 0, fun b => if b then (-0.004, 0.004) else (-0.01, 0.01)⟩]

theorem hybrid_ult : balancedFailure hybridParts true false =
    .ok (1, 0.2, ![0.00525, -0.00875, 0]) := by
  norm_num [balancedFailure, hybridParts, balStep, Part.posLimit, Part.negLimit]

theorem hybrid_yield : balancedFailure hybridParts true true =
    .ok (1, 0, ![0.004, -0.006, 0]) := by
  norm_num [balancedFailure, hybridParts, balStep, Part.posLimit, Part.negLimit]

/-- **C38, violated.** For this section (whose yield limits are all within its ultimate limits) the
default linear spacing of field 3 produces a profile that strains the brittle bar beyond its
ultimate strain, which is the positive limit of the balanced failure. -/
theorem C38_violated : ∃ planes labels,
    ultimateProfiles (balancedFailure hybridParts true) 0 true 0 ![0, 0, 2, 0, 0, 1]
      (fun _ => .linear) = .ok (planes, labels) ∧
    ∃ v ∈ planes, ∃ g ∈ hybridParts, ∀ x, g.posLimit false < planeStrain v x g.yLow := by
  have hrun : ∃ r, ultimateProfiles (balancedFailure hybridParts true) 0 true 0 ![0, 0, 2, 0, 0, 1]
      (fun _ => .linear) = .ok r ∧ ![0.0055625, -0.0090625, 0] ∈ r.1 := by
    have hf : fieldData (balancedFailure hybridParts true) 0 =
        .ok ⟨1, 0.2, 0.0035, -0.0035, 0.004, -0.002, 0⟩ := by
      unfold fieldData
      rw [hybrid_ult, hybrid_yield]
      norm_num
    have hfin : (List.finRange 6) = [0, 1, 2, 3, 4, 5] := by decide
    unfold ultimateProfiles
    rw [hf, hfin]
    simp [List.mapM_cons, sixFields, fieldPos, fieldNeg, field6, npSpace.eq_def, linspace, bind,
      Except.bind, pure, Except.pure]
    left
    simp [profilePlane, rot2, rotPt]
    norm_num
    exact ⟨1, le_rfl, by norm_num, by norm_num⟩
  obtain ⟨⟨planes, labels⟩, h1, h2⟩ := hrun
  refine ⟨planes, labels, h1, _, h2, ⟨false, false, 0.2, 0.2, fun _ => (-0.0035, 0.0035)⟩,
    by simp [hybridParts], fun x => ?_⟩
  simp [planeStrain, Part.posLimit]
  norm_num

/-- The hypotheses of `C38_bounds_partial` are met by an ordinary reinforced concrete section, with
the default numbers and spacings. -/
theorem rc_ult : balancedFailure
    [⟨true, true, 0, 500, fun b => if b then (-0.002, 100) else (-0.0035, 100)⟩,
     ⟨false, false, 50, 50, fun b => if b then (-0.0022, 0.0022) else (-0.0595, 0.0595)⟩] true false
    = .ok (500, 50, ![0.0665, -0.00014, 0]) := by
  norm_num [balancedFailure, balStep, Part.posLimit, Part.negLimit]

theorem rc_yield : balancedFailure
    [⟨true, true, 0, 500, fun b => if b then (-0.002, 100) else (-0.0035, 100)⟩,
     ⟨false, false, 50, 50, fun b => if b then (-0.0022, 0.0022) else (-0.0595, 0.0595)⟩] true true
    = .ok (500, 50, ![0.0042 / 450 * 500 - 0.002, -(0.0042 / 450), 0]) := by
  norm_num [balancedFailure, balStep, Part.posLimit, Part.negLimit]

example : ∃ planes labels, ultimateProfiles (balancedFailure
    [⟨true, true, 0, 500, fun b => if b then (-0.002, 100) else (-0.0035, 100)⟩,
     ⟨false, false, 50, 50, fun b => if b then (-0.0022, 0.0022) else (-0.0595, 0.0595)⟩] true)
    0 true 0 defaultNum ![.linear, .linear, .geometric, .linear, .linear, .linear]
    = .ok (planes, labels) ∧ planes.length = 35 := by
  have hf : fieldData (balancedFailure
    [⟨true, true, 0, 500, fun b => if b then (-0.002, 100) else (-0.0035, 100)⟩,
     ⟨false, false, 50, 50, fun b => if b then (-0.0022, 0.0022) else (-0.0595, 0.0595)⟩] true) 0 =
        .ok ⟨500, 50, 0.0595, -0.0035, 0.0022, -0.002, 0⟩ := by
    unfold fieldData
    rw [rc_ult, rc_yield]
    norm_num
  have hfin : (List.finRange 6) = [0, 1, 2, 3, 4, 5] := by decide
  have hrun : ∃ r, ultimateProfiles (balancedFailure
    [⟨true, true, 0, 500, fun b => if b then (-0.002, 100) else (-0.0035, 100)⟩,
     ⟨false, false, 50, 50, fun b => if b then (-0.0022, 0.0022) else (-0.0595, 0.0595)⟩] true)
    0 true 0 defaultNum ![.linear, .linear, .geometric, .linear, .linear, .linear] = .ok r := by
    unfold ultimateProfiles
    rw [hf, hfin]
    simp [List.mapM_cons, sixFields, fieldPos, fieldNeg, field6, npSpace.eq_def, geomspace?,
      defaultNum, bind, Except.bind, pure, Except.pure]
    norm_num
  obtain ⟨⟨planes, labels⟩, h⟩ := hrun
  refine ⟨planes, labels, h, ?_⟩
  have := (C38_count _ _ _ _ _ _ _ _ h).2.2.1
  simp [Fin.sum_univ_succ, defaultNum] at this
  exact_mod_cast this

example : (-0.0035 : ℝ) ≤ -0.002 ∧ (-0.002 : ℝ) < 0 ∧ (0 : ℝ) < 0.0022 ∧ (0.0022 : ℝ) ≤ 0.0595 ∧
    (0 : ℝ) ≤ 50 ∧ (0 : ℝ) + -0.002 / -0.0035 * (500 - 0) ≠ 50 ∧
    ∀ e ∈ [(-0.0035 : ℝ), 0.0595, -0.002, 0.0022, -0.0035 * ((50 - 0) / (500 - 0))], Resolved e := by
  norm_num [Resolved, abs_of_neg, abs_of_pos]

/-! ### The complete domain and the number of profiles -/

theorem dropEndsRev_length {α : Type} (l : List α) : (dropEndsRev l).length = l.length - 2 := by
  simp [dropEndsRev]; omega

/-- **C38 (whole domain).** The half domain has `num_1 + ... + num_6` points; the complete domain has
twice as many minus the two ends of the second half, which are not repeated. -/
theorem C38_domain_count (bal : ℝ → Bool → Except PyErr (ℝ × ℝ × (Fin 3 → ℝ))) (minY : ℝ → ℝ)
    (rc : Bool) (theta : ℝ) (num : Fin 6 → ℤ) (ty : Fin 6 → Spacing) (complete : Bool)
    (planes : List (Fin 3 → ℝ)) (labels : List ℕ)
    (h : nmProfiles bal minY rc theta num ty complete = .ok (planes, labels)) :
    labels.length = planes.length ∧
    planes.length = (∑ i, num i).toNat + (if complete then (∑ i, num i).toNat - 2 else 0) := by
  unfold nmProfiles at h
  cases h1 : ultimateProfiles (bal (-theta)) (minY (-theta)) rc theta num ty with
  | error e => rw [h1] at h; cases h
  | ok r =>
    obtain ⟨s, k⟩ := r
    obtain ⟨-, -, c1, c2, -⟩ := C38_count _ _ _ _ _ _ _ _ h1
    rw [h1] at h
    simp only at h
    cases complete with
    | false =>
      simp only [Bool.false_eq_true, if_false, Except.ok.injEq, Prod.mk.injEq] at h
      obtain ⟨rfl, rfl⟩ := h
      simp only [Bool.false_eq_true, if_false]
      omega
    | true =>
      simp only [if_true] at h
      cases h2 : ultimateProfiles (bal (-(theta + Real.pi))) (minY (-(theta + Real.pi))) rc
          (theta + Real.pi) num ty with
      | error e => rw [h2] at h; cases h
      | ok r' =>
        obtain ⟨s', k'⟩ := r'
        obtain ⟨-, -, d1, d2, -⟩ := C38_count _ _ _ _ _ _ _ _ h2
        rw [h2] at h
        simp only [Except.ok.injEq, Prod.mk.injEq] at h
        obtain ⟨rfl, rfl⟩ := h
        simp only [List.length_append, dropEndsRev_length, if_true]
        omega

theorem nmmLoop_ok (bal : ℝ → Bool → Except PyErr (ℝ × ℝ × (Fin 3 → ℝ))) (minY : ℝ → ℝ) (rc : Bool)
    (num : Fin 6 → ℤ) (ty : Fin 6 → Spacing) (thetas : List ℝ) (acc : List (Fin 3 → ℝ))
    (k0 : Option (List ℕ)) (s : List (Fin 3 → ℝ)) (k : Option (List ℕ))
    (hk0 : ∀ l, k0 = some l → l.length = (∑ i, num i).toNat)
    (h : nmmLoop bal minY rc num ty thetas acc k0 = .ok (s, k)) :
    s.length = acc.length + thetas.length * (∑ i, num i).toNat ∧
      ∀ l, k = some l → l.length = (∑ i, num i).toNat := by
  induction thetas generalizing acc k0 with
  | nil =>
    simp only [nmmLoop, Except.ok.injEq, Prod.mk.injEq] at h
    obtain ⟨rfl, rfl⟩ := h
    simpa using hk0
  | cons th rest ih =>
    simp only [nmmLoop] at h
    cases h1 : ultimateProfiles (bal (-th)) (minY (-th)) rc th num ty with
    | error e => rw [h1] at h; cases h
    | ok r =>
      obtain ⟨s1, k1⟩ := r
      obtain ⟨-, -, c1, c2, -⟩ := C38_count _ _ _ _ _ _ _ _ h1
      rw [h1] at h
      obtain ⟨i1, i2⟩ := ih (acc ++ s1) (some k1) (by
        intro l hl
        cases hl
        omega) h
      refine ⟨?_, i2⟩
      rw [i1, List.length_append, List.length_cons, Nat.succ_mul]
      omega

/-- **C38 (N-My-Mz domain).** The domain has `num_theta` times the requested number of points; but
the field numbers returned with it are those of the last angle only, so that for `num_theta ≥ 2`
(and any points at all) there are fewer labels than points: violated. -/
theorem C38_nmm_labels_violated (bal : ℝ → Bool → Except PyErr (ℝ × ℝ × (Fin 3 → ℝ)))
    (minY : ℝ → ℝ) (rc : Bool) (numTheta : ℕ) (num : Fin 6 → ℤ) (ty : Fin 6 → Spacing)
    (planes : List (Fin 3 → ℝ)) (labels : List ℕ)
    (h : nmmProfiles bal minY rc numTheta num ty = .ok (planes, labels)) :
    planes.length = numTheta * (∑ i, num i).toNat ∧ labels.length = (∑ i, num i).toNat ∧
    (2 ≤ numTheta → planes ≠ [] → labels.length < planes.length) := by
  unfold nmmProfiles at h
  cases h1 : nmmLoop bal minY rc num ty (linspace 0 (Real.pi * 2) numTheta true) [] none with
  | error e => rw [h1] at h; cases h
  | ok r =>
    obtain ⟨s, k⟩ := r
    obtain ⟨i1, i2⟩ := nmmLoop_ok _ _ _ _ _ _ _ _ _ _ (by simp) h1
    rw [h1] at h
    cases k with
    | none => cases h
    | some k =>
      simp only [Except.ok.injEq, Prod.mk.injEq] at h
      obtain ⟨rfl, rfl⟩ := h
      have l1 : s.length = numTheta * (∑ i, num i).toNat := by
        rw [i1, linspace_length]; simp
      have l2 := i2 k rfl
      refine ⟨l1, l2, fun h2 hne => ?_⟩
      have : 0 < s.length := List.length_pos_of_ne_nil hne
      rw [l1] at this ⊢
      rw [l2]
      have hpos : 0 < (∑ i, num i).toNat := Nat.pos_of_mul_pos_left this
      nlinarith

theorem pyInt_nonneg {x : ℝ} (h : 0 ≤ x) : pyInt x = ⌊x⌋ := if_pos h

/-- **C38 (num).** With a total number `num ≥ 0` requested, every field gets at least its minimum
and at least the truncated proportional share, so that the number of profiles is at least the sum
of the minima and more than `num - 6`. -/
theorem C38_num (num : ℤ) (hnum : 0 ≤ num) (mins : Fin 6 → ℤ) :
    (∀ i, mins i ≤ processNum num mins i) ∧ ∑ i, mins i ≤ ∑ i, processNum num mins i ∧
    num - 6 < ∑ i, processNum num mins i := by
  have h1 : ∀ i, mins i ≤ processNum num mins i := fun i => le_max_right _ _
  refine ⟨h1, Finset.sum_le_sum fun i _ => h1 i, ?_⟩
  have h2 : ∀ i, (num : ℝ) / 35 * defaultNum i - 1 < processNum num mins i := by
    intro i
    have hd : (0 : ℝ) ≤ defaultNum i := by fin_cases i <;> simp [defaultNum]
    have hn : (0 : ℝ) ≤ num := by exact_mod_cast hnum
    have := Int.sub_one_lt_floor ((num : ℝ) / 35 * defaultNum i)
    have h3 : ⌊(num : ℝ) / 35 * defaultNum i⌋ ≤ processNum num mins i := by
      rw [← pyInt_nonneg (by positivity)]
      exact le_max_left _ _
    have : ((⌊(num : ℝ) / 35 * defaultNum i⌋ : ℤ) : ℝ) ≤ (processNum num mins i : ℤ) := by
      exact_mod_cast h3
    linarith
  have hs : (num : ℝ) - 6 < ((∑ i, processNum num mins i : ℤ) : ℝ) := by
    push_cast
    have e0 := h2 0
    have e1 := h2 1
    have e2 := h2 2
    have e3 := h2 3
    have e4 := h2 4
    have e5 := h2 5
    simp [defaultNum] at e0 e1 e2 e3 e4 e5
    simp only [Fin.sum_univ_succ, Fin.sum_univ_zero]
    simp
    linarith
  have : ((num - 6 : ℤ) : ℝ) < ((∑ i, processNum num mins i : ℤ) : ℝ) := by
    push_cast at hs ⊢
    exact hs
  exact_mod_cast this

/-- The requested total is not always reached: 36 profiles with the default minima give 35. -/
example : ∑ i, processNum 36 defaultNum i = 35 := by
  have f1 : pyInt (36 / 35 * 1) = 1 := by rw [pyInt_nonneg (by norm_num), Int.floor_eq_iff]; norm_num
  have f2 : pyInt (36 / 35 * 2) = 2 := by rw [pyInt_nonneg (by norm_num), Int.floor_eq_iff]; norm_num
  have f3 : pyInt (36 / 35 * 15) = 15 := by rw [pyInt_nonneg (by norm_num), Int.floor_eq_iff]; norm_num
  have f4 : pyInt (36 / 35 * 10) = 10 := by rw [pyInt_nonneg (by norm_num), Int.floor_eq_iff]; norm_num
  have f5 : pyInt (36 / 35 * 3) = 3 := by rw [pyInt_nonneg (by norm_num), Int.floor_eq_iff]; norm_num
  have f6 : pyInt (36 / 35 * 4) = 4 := by rw [pyInt_nonneg (by norm_num), Int.floor_eq_iff]; norm_num
  simp only [Fin.sum_univ_succ, Fin.sum_univ_zero, processNum, defaultNum]
  simp
  norm_num at f1
  rw [f1, f2, f3, f4, f5, f6]
  norm_num

end SC
