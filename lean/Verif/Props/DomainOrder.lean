import Verif.Props.Domain

/-! # C58: the profiles of the interaction domain sweep from uniform tension to uniform compression -/

set_option autoImplicit false

namespace SC

open Spec

theorem range_pairwise (n : ℕ) (g : ℕ → ℝ) (R : ℝ → ℝ → Prop) (h : ∀ i j, i < j → j < n → R (g i) (g j)) :
    ((List.range n).map g).Pairwise R := by
  rw [List.pairwise_map]
  have := List.pairwise_lt_range (n := n)
  refine List.Pairwise.imp_of_mem ?_ this
  intro i j _ hj hij
  exact h i j hij (List.mem_range.1 hj)

theorem linspace_desc {a b : ℝ} (hab : b ≤ a) (n : ℕ) : (linspace a b n false).Pairwise (fun x y => y ≤ x) := by
  unfold linspace
  apply range_pairwise
  intro i j hij hj
  simp only [Bool.false_and, Bool.false_eq_true, if_false]
  have hn : (0 : ℝ) < n := by
    have : 0 < n := by omega
    exact_mod_cast this
  have hs : (b - a) / n ≤ 0 := div_nonpos_of_nonpos_of_nonneg (by linarith) hn.le
  have : (i : ℝ) ≤ j := by exact_mod_cast hij.le
  nlinarith

theorem linspace01_asc (n : ℕ) : (linspace 0 1 n true).Pairwise (fun x y => x ≤ y) := by
  unfold linspace
  apply range_pairwise
  intro i j hij hj
  have h1 : n ≠ 1 := by omega
  simp only [Bool.true_and, beq_iff_eq, h1, if_false, if_true]
  have hn : (0 : ℝ) < (n : ℝ) - 1 := by
    have : 2 ≤ n := by omega
    have : (2 : ℝ) ≤ n := by exact_mod_cast this
    linarith
  have hs : 0 ≤ (1 - 0) / ((n : ℝ) - 1) := by positivity
  have : (i : ℝ) ≤ j := by exact_mod_cast hij.le
  nlinarith

theorem geomspace_desc {a b : ℝ} (hab : 0 < a * b) (hle : b ≤ a) (n : ℕ) :
    (geomspace a b n false).Pairwise (fun x y => y ≤ x) := by
  unfold geomspace
  apply range_pairwise
  intro i j hij hj
  simp only [Bool.false_eq_true, if_false]
  have hn : (0 : ℝ) < n := by
    have : 0 < n := by omega
    exact_mod_cast this
  have he : (i : ℝ) / n ≤ j / n := by
    apply div_le_div_of_nonneg_right _ hn.le
    exact_mod_cast hij.le
  rcases pos_and_pos_or_neg_and_neg_of_mul_pos hab with ⟨ha, hb⟩ | ⟨ha, hb⟩
  · have hr : b / a ≤ 1 := (div_le_one ha).2 hle
    have := Real.rpow_le_rpow_of_exponent_ge (by positivity : 0 < b / a) hr he
    nlinarith
  · have hr : 1 ≤ b / a := (one_le_div_of_neg ha).2 hle
    have := Real.rpow_le_rpow_of_exponent_le hr he
    nlinarith

/-- A returned spacing from `a` down to `b` never increases. -/
theorem npSpace_desc {a b : ℝ} {n : ℤ} {ty : Spacing} {l : List ℝ} (h : npSpace a b n ty false = .ok l)
    (hok : SpaceOk a b) (hab : b ≤ a) : l.Pairwise (fun x y => y ≤ x) := by
  by_cases hn : n < 0
  · simp [npSpace, hn] at h
  rw [npSpace.eq_def, if_neg hn] at h
  push Not at hn
  cases ty with
  | linear => cases h; exact linspace_desc hab _
  | other => cases h
  | quadratic =>
    simp only [Except.ok.injEq] at h
    subst h
    rw [List.pairwise_reverse, List.pairwise_map]
    refine List.Pairwise.imp_of_mem ?_ (linspace01_asc n.toNat)
    intro s t hs _ hst
    have h0 := (linspace_mem 0 1 _ _ s hs).1
    norm_num at h0
    have : s ^ 2 ≤ t ^ 2 := pow_le_pow_left₀ h0 hst 2
    nlinarith
  | geometric =>
    simp only at h
    split_ifs at h with h1 h2
    · obtain ⟨-, -, -, rfl⟩ := geomspace?_ok h
      exact geomspace_desc (lt_of_le_of_ne hok.1 (mul_ne_zero h1.2 h1.1).symm) hab _
    · cases hg : geomspace? a (1e-10 * npSign a) (n - 1) false with
      | error e => rw [hg] at h; cases h
      | ok g =>
        rw [hg] at h
        simp only [Except.ok.injEq] at h
        subst h
        obtain ⟨ha, -, hn1, rfl⟩ := geomspace?_ok hg
        subst h2
        have hapos : 0 < a := lt_of_le_of_ne hab (Ne.symm ha)
        have hsm := hok.2.1.resolve_left ha
        rw [abs_of_pos hapos] at hsm
        have hs1 : 1e-10 * npSign a = 1e-10 := by unfold npSign; rw [if_pos hapos]; ring
        rw [hs1]
        rw [List.pairwise_append]
        refine ⟨geomspace_desc (by positivity) hsm _, by simp, fun x hx y hy => ?_⟩
        rw [List.mem_singleton.1 hy]
        have := (geomspace_mem (by positivity) _ x hx).1
        exact le_trans (le_min hapos.le (by norm_num)) this
    · cases hg : geomspace? (1e-10 * npSign b) b (n - 1) false with
      | error e => rw [hg] at h; cases h
      | ok g =>
        rw [hg] at h
        simp only [Except.ok.injEq] at h
        subst h
        obtain ⟨-, hb, hn1, rfl⟩ := geomspace?_ok hg
        have ha : a = 0 := by
          by_contra hne
          exact h1 ⟨hb, hne⟩
        subst ha
        have hbneg : b < 0 := lt_of_le_of_ne hab hb
        have hsm := hok.2.2.resolve_left hb
        rw [abs_of_neg hbneg] at hsm
        have hs1 : 1e-10 * npSign b = -1e-10 := by
          unfold npSign; rw [if_neg (not_lt.2 hbneg.le), if_pos hbneg]; ring
        rw [hs1, List.pairwise_cons]
        have hpos : 0 < (-1e-10) * b := by nlinarith
        refine ⟨fun x hx => ?_, geomspace_desc hpos (by linarith) _⟩
        have := (geomspace_mem hpos _ x hx).2
        exact this.trans (max_le (by norm_num) hbneg.le)

/-- A returned spacing of at least two values starts at `a`. -/
theorem npSpace_head {a b : ℝ} {n : ℤ} {ty : Spacing} {l : List ℝ} (h : npSpace a b n ty false = .ok l)
    (hn2 : 2 ≤ n ∨ (ty = .linear ∧ 1 ≤ n)) : l.head? = some a := by
  have hn : ¬ n < 0 := by omega
  have hnn : 0 < n.toNat := by omega
  rw [npSpace.eq_def, if_neg hn] at h
  have hrange : ∀ (m : ℕ) (g : ℕ → ℝ), 0 < m → ((List.range m).map g).head? = some (g 0) := by
    intro m g hm
    obtain ⟨k, rfl⟩ : ∃ k, m = k + 1 := ⟨m - 1, by omega⟩
    simp [List.range_succ_eq_map]
  cases ty with
  | linear =>
    cases h
    unfold linspace
    rw [hrange _ _ hnn]
    simp
  | other => cases h
  | quadratic =>
    have h2 : 2 ≤ n := hn2.resolve_right (by simp)
    simp only [Except.ok.injEq] at h
    subst h
    rw [List.head?_reverse]
    obtain ⟨k, hk⟩ : ∃ k, n.toNat = k + 1 + 1 := ⟨n.toNat - 2, by omega⟩
    unfold linspace
    rw [hk, List.map_map, List.range_succ, List.map_append]
    simp only [List.map_cons, List.map_nil, List.getLast?_append_cons, List.getLast?_singleton, Function.comp]
    have : ¬ (k + 1 + 1 = 1) := by omega
    simp only [Bool.true_and, beq_iff_eq, this, if_false, if_true]
    congr 1
    push_cast
    have hk1 : ((k : ℝ) + 1) ≠ 0 := by positivity
    have e : ((k : ℝ) + 1) * ((1 - 0) / ((k : ℝ) + 1 + 1 - 1)) = 1 := by field_simp; ring
    rw [zero_add, e]; ring
  | geometric =>
    have h2 : 2 ≤ n := hn2.resolve_right (by simp)
    have hm : 0 < (n - 1).toNat := by omega
    simp only at h
    split_ifs at h with h1 h3
    · obtain ⟨-, -, -, rfl⟩ := geomspace?_ok h
      unfold geomspace
      rw [hrange _ _ hnn]
      simp
    · cases hg : geomspace? a (1e-10 * npSign a) (n - 1) false with
      | error e => rw [hg] at h; cases h
      | ok g =>
        rw [hg] at h
        simp only [Except.ok.injEq] at h
        subst h
        obtain ⟨ha, -, hn1, rfl⟩ := geomspace?_ok hg
        have : (geomspace a (1e-10 * npSign a) (n - 1).toNat false).head? = some a := by
          unfold geomspace
          rw [hrange _ _ hm]
          simp
        rw [List.head?_append, this]; rfl
    · cases hg : geomspace? (1e-10 * npSign b) b (n - 1) false with
      | error e => rw [hg] at h; cases h
      | ok g =>
        rw [hg] at h
        simp only [Except.ok.injEq] at h
        subst h
        obtain ⟨-, hb, hn1, rfl⟩ := geomspace?_ok hg
        have ha : a = 0 := by
          by_contra hne
          exact h1 ⟨hb, hne⟩
        simp [ha]

theorem fieldPos_desc {f : FieldData} {a b : ℝ} {n : ℤ} {ty : Spacing} {l : List (ℝ × ℝ)}
    (h : fieldPos f a b n ty = .ok l) (hok : SpaceOk a b) (hab : b ≤ a) :
    l.Pairwise (fun p q => q.1 ≤ p.1 ∧ q.2 ≤ p.2) ∧ ∀ p ∈ l, p.2 = f.eps_p_b ∧ b ≤ p.1 ∧ p.1 ≤ a := by
  constructor
  · unfold fieldPos at h
    cases hs : npSpace a b n ty false with
    | error e => rw [hs] at h; cases h
    | ok g =>
      rw [hs] at h
      cases h
      rw [List.pairwise_map]
      exact (npSpace_desc hs hok hab).imp (fun hxy => ⟨hxy, le_rfl⟩)
  · intro p hp
    obtain ⟨h1, h2⟩ := (fieldPos_ok h).2.2 p hp
    have := h2 hok
    rw [min_eq_right hab, max_eq_left hab] at this
    exact ⟨h1, this⟩

theorem fieldNeg_desc {f : FieldData} {a b : ℝ} {n : ℤ} {ty : Spacing} {l : List (ℝ × ℝ)}
    (h : fieldNeg f a b n ty = .ok l) (hok : SpaceOk a b) (hab : b ≤ a) :
    l.Pairwise (fun p q => q.1 ≤ p.1 ∧ q.2 ≤ p.2) ∧ ∀ p ∈ l, p.1 = f.eps_n_b ∧ b ≤ p.2 ∧ p.2 ≤ a := by
  constructor
  · unfold fieldNeg at h
    cases hs : npSpace a b n ty false with
    | error e => rw [hs] at h; cases h
    | ok g =>
      rw [hs] at h
      cases h
      rw [List.pairwise_map]
      exact (npSpace_desc hs hok hab).imp (fun hxy => ⟨le_rfl, hxy⟩)
  · intro p hp
    obtain ⟨h1, h2⟩ := (fieldNeg_ok h).2.2 p hp
    have := h2 hok
    rw [min_eq_right hab, max_eq_left hab] at this
    exact ⟨h1, this⟩

/-- The strain with which field 6 ends. -/
def FieldData.endStrain (f : FieldData) (rc : Bool) : ℝ := if rc then f.eps_n_y else f.eps_n_b

theorem field6_desc {f : FieldData} {rc : Bool} {n : ℤ} {ty : Spacing} {l : List (ℝ × ℝ)}
    (h : field6 f rc n ty = .ok l) (hok : SpaceOk f.epsPLim (f.endStrain rc)) (hab : f.endStrain rc ≤ f.epsPLim) :
    l.Pairwise (fun p q => q.2 ≤ p.2) ∧ (∀ p ∈ l, p.2 ≤ f.epsPLim) ∧
      l.getLast? = some (f.endStrain rc, f.endStrain rc) := by
  unfold field6 at h
  cases rc with
  | false =>
    simp only [FieldData.endStrain, Bool.false_eq_true, if_false] at h hok hab ⊢
    cases hs : npSpace f.epsPLim f.eps_n_b (n - 1) ty false with
    | error e => rw [hs] at h; cases h
    | ok g =>
      rw [hs] at h
      cases h
      have hb := (npSpace_spec hs).2.2 hok
      rw [min_eq_right hab, max_eq_left hab] at hb
      refine ⟨?_, ?_, by simp⟩
      · rw [List.pairwise_map, List.pairwise_append]
        refine ⟨npSpace_desc hs hok hab, by simp, fun x hx y hy => ?_⟩
        rw [List.mem_singleton.1 hy]; exact (hb x hx).1
      · intro p hp
        obtain ⟨x, hx, rfl⟩ := List.mem_map.1 hp
        rcases List.mem_append.1 hx with hx | hx
        · exact (hb x hx).2
        · rw [List.mem_singleton.1 hx]; exact hab
  | true =>
    simp only [FieldData.endStrain, if_true] at h hok hab ⊢
    cases hs : npSpace f.epsPLim f.eps_n_y (n - 1) ty false with
    | error e => rw [hs] at h; cases h
    | ok g =>
      rw [hs] at h
      cases h
      have hb := (npSpace_spec hs).2.2 hok
      rw [min_eq_right hab, max_eq_left hab] at hb
      refine ⟨?_, ?_, by simp⟩
      · rw [List.pairwise_map, List.pairwise_append]
        refine ⟨npSpace_desc hs hok hab, by simp, fun x hx y hy => ?_⟩
        rw [List.mem_singleton.1 hy]; exact (hb x hx).1
      · intro p hp
        obtain ⟨x, hx, rfl⟩ := List.mem_map.1 hp
        rcases List.mem_append.1 hx with hx | hx
        · exact (hb x hx).2
        · rw [List.mem_singleton.1 hx]; exact hab

/-- **C58 (sweep of the domain).** When the strains are ordered as in an ordinary section
(`eps_n_b ≤ eps_n_y < 0 < eps_p_y ≤ eps_p_b`, the section extends down to `y_p` and the pivot of field 6 lies
above `y_p`), the returned profiles sweep from tension to compression: along the list the strain at the lower governing
ordinate never increases; over the profiles of fields 1 to 5 the strain never increases at any ordinate between
the governing ones; the first profile is uniform tension `eps_p_b` (as soon as field 1 has a profile in linear
spacing, or two); and the last is uniform compression: `eps_n_y` for reinforced concrete, `eps_n_b` otherwise. -/
theorem C58_sweep (bal : Bool → Except PyErr (ℝ × ℝ × (Fin 3 → ℝ))) (minY : ℝ) (rc : Bool)
    (theta : ℝ) (num : Fin 6 → ℤ) (ty : Fin 6 → Spacing) (planes : List (Fin 3 → ℝ)) (labels : List ℕ)
    (h : ultimateProfiles bal minY rc theta num ty = .ok (planes, labels))
    (yn yp yn' yp' eps_n_b eps_p_b eps_n_y eps_p_y : ℝ) (s s' : Fin 3 → ℝ)
    (hb : bal false = .ok (yn, yp, s)) (hy : bal true = .ok (yn', yp', s'))
    (hlt : yp < yn)
    (e1 : eps_n_b = planeStrain s 0 yn) (e2 : eps_p_b = planeStrain s 0 yp)
    (e3 : eps_n_y = planeStrain s' 0 yn') (e4 : eps_p_y = planeStrain s' 0 yp')
    (o1 : eps_n_b ≤ eps_n_y) (o2 : eps_n_y < 0) (o3 : 0 < eps_p_y) (o4 : eps_p_y ≤ eps_p_b)
    (hmin : minY ≤ yp) (hz : rc = true → yp ≤ minY + eps_n_y / eps_n_b * (yn - minY))
    (res : ∀ e ∈ [eps_n_b, eps_p_b, eps_n_y, eps_p_y, eps_n_b * ((yp - minY) / (yn - minY))], Resolved e) :
    planes.Pairwise (fun v w => ∀ x, planeStrain w (rotPt theta (x, yp)).1 (rotPt theta (x, yp)).2 ≤
      planeStrain v (rotPt theta (x, yp)).1 (rotPt theta (x, yp)).2) ∧
    (planes.take (∑ i : Fin 5, num i.castSucc).toNat).Pairwise (fun v w => ∀ x y, yp ≤ y → y ≤ yn →
      planeStrain w (rotPt theta (x, y)).1 (rotPt theta (x, y)).2 ≤
      planeStrain v (rotPt theta (x, y)).1 (rotPt theta (x, y)).2) ∧
    (2 ≤ num 0 ∨ (ty 0 = .linear ∧ 1 ≤ num 0) → ∃ v, planes.head? = some v ∧ ∀ x y,
      planeStrain v (rotPt theta (x, y)).1 (rotPt theta (x, y)).2 = eps_p_b) ∧
    (∃ v, planes.getLast? = some v ∧ ∀ x y,
      planeStrain v (rotPt theta (x, y)).1 (rotPt theta (x, y)).2 = if rc then eps_n_y else eps_n_b) := by
  obtain ⟨f, F, hf, hF, hpl, -⟩ := ultimateProfiles_ok h
  unfold fieldData at hf
  rw [hy, hb] at hf
  simp only [Except.ok.injEq] at hf
  simp only [planeStrain, mul_zero, sub_zero] at e1 e2 e3 e4
  have f1 : f.y_n = yn := by rw [← hf]
  have f2 : f.y_p = yp := by rw [← hf]
  have f3 : f.eps_p_b = eps_p_b := by rw [← hf, e2]
  have f4 : f.eps_n_b = eps_n_b := by rw [← hf, e1]
  have f5 : f.eps_p_y = eps_p_y := by rw [← hf, e4]
  have f6 : f.eps_n_y = eps_n_y := by rw [← hf, e3]
  have f7 : f.min_y = minY := by rw [← hf]
  clear hf e1 e2 e3 e4
  subst f1 f2 f3 f4 f5 f6 f7
  have hh : 0 < f.y_n - f.min_y := by linarith
  have nb' : f.eps_n_b < 0 := by linarith
  have hlim : f.epsPLim = f.eps_n_b * ((f.y_p - f.min_y) / (f.y_n - f.min_y)) := by
    unfold FieldData.epsPLim
    rw [mul_div_assoc]
    congr 2
    ring
  rw [← hlim] at res
  have hratio : 0 ≤ (f.y_p - f.min_y) / (f.y_n - f.min_y) ∧
      (f.y_p - f.min_y) / (f.y_n - f.min_y) ≤ 1 :=
    ⟨div_nonneg (by linarith) hh.le, by rw [div_le_one hh]; linarith⟩
  have hlim0 : f.epsPLim ≤ 0 := by rw [hlim]; nlinarith [hratio.1]
  have hlim1 : f.eps_n_b ≤ f.epsPLim := by rw [hlim]; nlinarith [hratio.2]
  have r1 := res _ (by simp : f.eps_n_b ∈ _)
  have r2 := res _ (by simp : f.eps_p_b ∈ _)
  have r3 := res _ (by simp : f.eps_n_y ∈ _)
  have r4 := res _ (by simp : f.eps_p_y ∈ _)
  have r5 := res _ (by simp : f.epsPLim ∈ _)
  have hpb : 0 < f.eps_p_b := by linarith
  have z0 : Resolved 0 := Or.inl rfl
  have hend : f.endStrain rc ≤ f.epsPLim ∧ f.endStrain rc ≤ 0 ∧ Resolved (f.endStrain rc) := by
    cases rc with
    | false => exact ⟨hlim1, nb'.le, r1⟩
    | true =>
      refine ⟨?_, o2.le, r3⟩
      have hz' := hz rfl
      have hq : (f.y_p - f.min_y) / (f.y_n - f.min_y) ≤ f.eps_n_y / f.eps_n_b := by
        rw [div_le_iff₀ hh]; linarith
      have := mul_le_mul_of_nonpos_left hq nb'.le
      rw [← hlim] at this
      rw [mul_div_cancel₀ _ nb'.ne] at this
      exact this
  obtain ⟨d0, b0⟩ := fieldPos_desc (hF 0) ⟨by simp, r2, z0⟩ hpb.le
  obtain ⟨d1, b1⟩ := fieldPos_desc (hF 1) ⟨by simp, z0, r1⟩ nb'.le
  obtain ⟨d2, b2⟩ := fieldNeg_desc (hF 2) ⟨by positivity, r2, r4⟩ o4
  obtain ⟨d3, b3⟩ := fieldNeg_desc (hF 3) ⟨by simp, r4, z0⟩ o3.le
  obtain ⟨d4, b4⟩ := fieldNeg_desc (hF 4) ⟨by simp, z0, r5⟩ hlim0
  obtain ⟨d5, b5, l5⟩ := field6_desc (hF 5)
    ⟨mul_nonneg_of_nonpos_of_nonpos hlim0 hend.2.1, r5, hend.2.2⟩ hend.1
  have hofn : List.ofFn F = [F 0, F 1, F 2, F 3, F 4, F 5] := by simp [List.ofFn_succ]
  have hpairs : (List.ofFn F).flatten = (F 0 ++ F 1 ++ F 2 ++ F 3 ++ F 4) ++ F 5 := by
    rw [hofn]; simp
  have hat := fun (p : ℝ × ℝ) (x y : ℝ) => profilePlane_at f theta p x y hlt
  -- the pairs of the first five fields
  have five : (F 0 ++ F 1 ++ F 2 ++ F 3 ++ F 4).Pairwise (fun p q => q.1 ≤ p.1 ∧ q.2 ≤ p.2) := by
    simp only [List.pairwise_append, List.mem_append]
    refine ⟨⟨⟨⟨d0, d1, fun p hp q hq => ?_⟩, d2, fun p hp q hq => ?_⟩, d3, fun p hp q hq => ?_⟩, d4, fun p hp q hq => ?_⟩
    · obtain ⟨p1, p2, p3⟩ := b0 p hp
      obtain ⟨q1, q2, q3⟩ := b1 q hq
      exact ⟨by linarith, by linarith⟩
    · obtain ⟨q1, q2, q3⟩ := b2 q hq
      rcases hp with hp | hp
      · obtain ⟨p1, p2, p3⟩ := b0 p hp; exact ⟨by linarith, by linarith⟩
      · obtain ⟨p1, p2, p3⟩ := b1 p hp; exact ⟨by linarith, by linarith⟩
    · obtain ⟨q1, q2, q3⟩ := b3 q hq
      rcases hp with (hp | hp) | hp
      · obtain ⟨p1, p2, p3⟩ := b0 p hp; exact ⟨by linarith, by linarith⟩
      · obtain ⟨p1, p2, p3⟩ := b1 p hp; exact ⟨by linarith, by linarith⟩
      · obtain ⟨p1, p2, p3⟩ := b2 p hp; exact ⟨by linarith, by linarith⟩
    · obtain ⟨q1, q2, q3⟩ := b4 q hq
      rcases hp with ((hp | hp) | hp) | hp
      · obtain ⟨p1, p2, p3⟩ := b0 p hp; exact ⟨by linarith, by linarith⟩
      · obtain ⟨p1, p2, p3⟩ := b1 p hp; exact ⟨by linarith, by linarith⟩
      · obtain ⟨p1, p2, p3⟩ := b2 p hp; exact ⟨by linarith, by linarith⟩
      · obtain ⟨p1, p2, p3⟩ := b3 p hp; exact ⟨by linarith, by linarith⟩
  have low5 : ∀ p ∈ F 0 ++ F 1 ++ F 2 ++ F 3 ++ F 4, f.epsPLim ≤ p.2 := by
    intro p hp
    simp only [List.mem_append] at hp
    rcases hp with (((hp | hp) | hp) | hp) | hp
    · obtain ⟨p1, p2, p3⟩ := b0 p hp; linarith
    · obtain ⟨p1, p2, p3⟩ := b1 p hp; linarith
    · obtain ⟨p1, p2, p3⟩ := b2 p hp; linarith
    · obtain ⟨p1, p2, p3⟩ := b3 p hp; linarith
    · obtain ⟨p1, p2, p3⟩ := b4 p hp; linarith
  have hlen : (F 0 ++ F 1 ++ F 2 ++ F 3 ++ F 4).length = (∑ i : Fin 5, num i.castSucc).toNat := by
    have l := fun i => sixFields_length hF i
    have m0 := (l 0).2
    have m1 := (l 1).2
    have m2 := (l 2).2
    have m3 := (l 3).2
    have m4 := (l 4).2
    simp only [List.length_append, (l 0).1, (l 1).1, (l 2).1, (l 3).1, (l 4).1]
    have : (∑ i : Fin 5, num i.castSucc) = num 0 + num 1 + num 2 + num 3 + num 4 := by
      simp [Fin.sum_univ_succ]
      ring_nf
    rw [this]; omega
  rw [hpl, hpairs]
  refine ⟨?_, ?_, fun hnum => ?_, ?_⟩
  · rw [List.pairwise_map, List.pairwise_append]
    have hp2 : ∀ p x, planeStrain (profilePlane f theta p) (rotPt theta (x, f.y_p)).1 (rotPt theta (x, f.y_p)).2 = p.2 := by
      intro p x; rw [hat]; simp
    refine ⟨five.imp fun hpq x => ?_, d5.imp fun hpq x => ?_, fun p hp q hq x => ?_⟩
    · rw [hp2, hp2]; exact hpq.2
    · rw [hp2, hp2]; exact hpq
    · rw [hp2, hp2]; exact (b5 q hq).trans (low5 p hp)
  · rw [← List.map_take, ← hlen, List.take_left', List.pairwise_map]
    · refine five.imp fun {p q} hpq x y h1 h2 => ?_
      rw [hat, hat]
      have t0 : 0 ≤ (y - f.y_p) / (f.y_n - f.y_p) := div_nonneg (by linarith) (by linarith)
      have t1 : (y - f.y_p) / (f.y_n - f.y_p) ≤ 1 := (div_le_one (by linarith)).2 (by linarith)
      generalize (y - f.y_p) / (f.y_n - f.y_p) = t at t0 t1
      nlinarith [hpq.1, hpq.2, mul_le_mul_of_nonneg_left hpq.1 t0,
        mul_le_mul_of_nonneg_left hpq.2 (by linarith : 0 ≤ 1 - t)]
    · rfl
  · have hh0 : (F 0).head? = some (f.eps_p_b, f.eps_p_b) := by
      have := hF 0
      simp only [sixFields, fieldPos] at this
      cases hs : npSpace f.eps_p_b 0 (num 0) (ty 0) false with
      | error e => simp [hs] at this
      | ok g =>
        simp [hs] at this
        rw [← this, List.head?_map, npSpace_head hs hnum]; rfl
    refine ⟨profilePlane f theta (f.eps_p_b, f.eps_p_b), ?_, fun x y => by rw [hat]; simp⟩
    rw [List.head?_map]
    simp only [List.head?_append, hh0, Option.some_or, Option.map_some]
  · refine ⟨profilePlane f theta (f.endStrain rc, f.endStrain rc), ?_, fun x y => ?_⟩
    · rw [List.getLast?_map, List.getLast?_append, l5]; rfl
    · rw [hat]; simp [FieldData.endStrain]

/-- The hypotheses are met by the ordinary reinforced concrete section of the example above
(`rc_ult`, `rc_yield`: `y_n = 500`, `y_p = 50`, lowest ordinate 0), whose profiles are generated without error. -/
example : balancedFailure
      [⟨true, true, 0, 500, fun b => if b then (-0.002, 100) else (-0.0035, 100)⟩,
       ⟨false, false, 50, 50, fun b => if b then (-0.0022, 0.0022) else (-0.0595, 0.0595)⟩] true false
      = .ok (500, 50, ![0.0665, -0.00014, 0]) ∧
    planeStrain ![0.0665, -0.00014, 0] 0 500 = -0.0035 ∧ planeStrain ![0.0665, -0.00014, 0] 0 50 = 0.0595 ∧
    (-0.0035 : ℝ) ≤ -0.002 ∧ (-0.002 : ℝ) < 0 ∧ (0 : ℝ) < 0.0022 ∧ (0.0022 : ℝ) ≤ 0.0595 ∧
    (0 : ℝ) ≤ 50 ∧ (50 : ℝ) ≤ 0 + -0.002 / -0.0035 * (500 - 0) ∧
    ∀ e ∈ [(-0.0035 : ℝ), 0.0595, -0.002, 0.0022, -0.0035 * ((50 - 0) / (500 - 0))], Resolved e := by
  refine ⟨rc_ult, ?_⟩
  norm_num [Resolved, planeStrain, abs_of_neg, abs_of_pos]

end SC
