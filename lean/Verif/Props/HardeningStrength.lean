import Verif.Props.HardeningRC

/-! # C76: where the bending strength of sections with hardening steel is found -/

set_option autoImplicit false

namespace SC

open Spec MeasureTheory OrdinaryRC

variable {th ecu eu H : ℝ} {parts : List ConcretePart} {bars : List Bar}

/-- The planes tried by the search in an ordinary section. -/
theorem OrdinaryRC.search {split : Polygon → ℝ → ℝ → ShapelyResult} (ms : ℝ) (h : OrdinaryRC th parts bars ecu eu H)
    (hok : ∀ p ∈ parts, p.Ok split th) :
    ∃ yn yp st, (sectionEngine split (parts.map ConcretePart.solid) bars ms).balanced (-th) false = .ok (yn, yp, st) ∧
      planeStrain st 0 yp = eu ∧ planeStrain st 0 yn = -ecu ∧ st 2 = 0 ∧ -1e5 ≤ st 1 ∧ st 1 ≤ -1e-13 ∧
      (∃ b ∈ bars, height th (b.x, b.y) = yp) ∧ (∃ c ∈ (concreteSection parts bars).corners, height th c.1 = yn) ∧
      (∀ c ∈ (concreteSection parts bars).corners, planeStrain st 0 yp ≤ c.2.2 ∧ c.2.1 ≤ planeStrain st 0 yn) ∧
      (∀ y, y = yp ∨ y = yn → ∀ chi, st 1 ≤ chi → chi ≤ 0 →
        (concreteSection parts bars).Admissible (planeThrough th y (planeStrain st 0 y) chi)) ∧
      (∀ y, y = yp ∨ y = yn → ∀ chi, st 1 ≤ chi → chi ≤ 0 →
        (crossSection (parts.map ConcretePart.solid) bars).forces ![st 0 + st 1 * y - chi * y, chi * Real.cos th, chi * Real.sin th] 0 =
          (concreteSection parts bars).forces (planeThrough th y (planeStrain st 0 y) chi) 0) ∧
      (crossSection (parts.map ConcretePart.solid) bars).forces ![st 0, st 1 * Real.cos th, st 1 * Real.sin th] 0 =
          (concreteSection parts bars).forces (planeThrough th yn (-ecu) (st 1)) 0 := by
  have hne : ∀ p ∈ parts, p.polygon.ext ≠ [] := fun p hp => concrete_ne hok _ (List.mem_map_of_mem hp)
  obtain ⟨yn, yp, st, hb, e1, e2, hst2, hs1, hs1', hyp, hyn, hgov⟩ := h.balanced (split := split) (ms := ms) hne
  have hcor := concrete_corners parts bars
  have hlim := h.lim
  have hflat := h.flat
  have hgov' := hgov
  rw [← hcor] at hlim hflat hgov'
  have hsteep := steep_balanced (concrete_ne hok) hlim hflat hb
  have hpl : ∀ x y, planeStrain st x y = st 0 + st 1 * y := by intro x y; simp [planeStrain, hst2]
  have hadm : ∀ y, y = yp ∨ y = yn → ∀ chi, st 1 ≤ chi → chi ≤ 0 →
      (concreteSection parts bars).Admissible (planeThrough th y (planeStrain st 0 y) chi) := by
    intro y hy chi h1 h2
    rw [← concrete_admissible]
    exact search_admissible (concrete_ne hok) hlim hb hgov' hy h1 h2
  have hN : ∀ y, y = yp ∨ y = yn → ∀ chi, st 1 ≤ chi → chi ≤ 0 →
      (crossSection (parts.map ConcretePart.solid) bars).forces ![st 0 + st 1 * y - chi * y, chi * Real.cos th, chi * Real.sin th] 0 =
        (concreteSection parts bars).forces (planeThrough th y (planeStrain st 0 y) chi) 0 := by
    intro y hy chi h1 h2
    rw [← concrete_forces bars hok (hadm y hy chi h1 h2), hpl]
    rfl
  refine ⟨yn, yp, st, hb, e1, e2, hst2, hs1, hsteep, hyp, hyn, hgov, hadm, hN, ?_⟩
  have := hN yn (Or.inr rfl) (st 1) le_rfl (by linarith [show (0:ℝ) < 1e-13 by norm_num])
  rw [e2] at this
  rw [← this]
  congr 3
  ring

theorem forceSlope_nonneg (parts : List ConcretePart) (bars : List Bar) {K : ℝ} (hK : 0 ≤ K) (th y : ℝ) : 0 ≤ forceSlope parts bars K th y := by
  unfold forceSlope
  refine add_nonneg (List.sum_nonneg ?_) (List.sum_nonneg ?_)
  · intro x hx
    obtain ⟨p, -, rfl⟩ := List.mem_map.1 hx
    refine mul_nonneg (by positivity) (integral_nonneg fun x => abs_nonneg _)
  · intro x hx
    obtain ⟨b, -, rfl⟩ := List.mem_map.1 hx
    positivity

/-- A nearly uniform plane carries nearly the force of the uniform one, if no bar passes a jump of its law. -/
theorem end_near {split : Polygon → ℝ → ℝ → ShapelyResult} (h : OrdinaryRC th parts bars ecu eu H) (hok : ∀ p ∈ parts, p.Ok split th)
    {K j t : ℝ} (hK0 : 0 ≤ K)
    (hK : ∀ b ∈ bars, NearLipschitz b.law.law.stress (b.law.law.ult false).1 (b.law.law.ult false).2 K j t)
    {y v : ℝ} (hy : ∃ c ∈ (concreteSection parts bars).corners, height th c.1 = y)
    (hside : (-t < v - 1e-13 * H ∧ v + 1e-13 * H < t) ∨ (0 < t ∧ t ≤ v - 1e-13 * H))
    (ha : ∀ chi, chi = -1e-13 ∨ chi = 0 → (concreteSection parts bars).Admissible (planeThrough th y v chi)) :
    |(concreteSection parts bars).forces (planeThrough th y v (-1e-13)) 0 - (concreteSection parts bars).forces ![v, 0, 0] 0| ≤
      axialRigidity parts bars K * H * 1e-13 := by
  have e : ![v, 0, 0] = planeThrough th y v 0 := by simp [planeThrough]
  have hH : 0 ≤ H := le_trans (by norm_num) h.size.1
  rw [e]
  refine (force_near (K := K) (j := 0) hok (by norm_num) le_rfl ?_ (ha _ (Or.inl rfl)) (ha _ (Or.inr rfl))).trans ?_
  · intro b hb
    rw [add_zero]
    have s1 := bar_strain (ha _ (Or.inl rfl)) hb
    have s2 := bar_strain (ha _ (Or.inr rfl)) hb
    obtain ⟨c, hc, hcy⟩ := hy
    have p1 := h.span _ hc _ (bar_corner hb)
    have p2 := h.span _ (bar_corner hb) _ hc
    rw [hcy] at p1 p2
    have q1 := planeThrough_height th y v (-1e-13) (b.x, b.y)
    have q2 := planeThrough_height th y v 0 (b.x, b.y)
    simp only at q1 q2 p1 p2
    have w1 : 1e-13 * (y - height th (b.x, b.y)) ≤ 1e-13 * H := mul_le_mul_of_nonneg_left p1 (by norm_num)
    have w2 : 1e-13 * (height th (b.x, b.y) - y) ≤ 1e-13 * H := mul_le_mul_of_nonneg_left p2 (by norm_num)
    have w3 : 0 ≤ 1e-13 * H := by positivity
    refine (hK b hb _ s1 _ s2).2 ?_ ?_ <;> rw [q1, q2]
    · rcases hside with ⟨a1, a2⟩ | ⟨a1, a2⟩
      · constructor <;> intro hh <;> exfalso <;> linarith
      · constructor <;> intro hh <;> exfalso <;> linarith
    · rcases hside with ⟨a1, a2⟩ | ⟨a1, a2⟩
      · constructor <;> intro hh <;> exfalso <;> linarith
      · constructor <;> intro hh <;> linarith
  · have : |(-1e-13 : ℝ) - 0| = 1e-13 := by norm_num [abs_of_pos]
    rw [this, zero_mul, add_zero]
    exact mul_le_mul_of_nonneg_right (h.slope_le (fun p hp => ⟨(hok p hp).encloses, (hok p hp).inHull⟩) hK0 hy) (by norm_num)

theorem trial_range {st : Fin 3 → ℝ} (hst : st 1 ≤ -1e-13) {t : ℝ} (ht : t ∈ Set.Icc (0:ℝ) 1) : st 1 ≤ trial st t ∧ trial st t ≤ -1e-13 := by
  obtain ⟨t0, t1⟩ := ht
  have h1 : 0 ≤ t * (-1e-13 - st 1) := mul_nonneg t0 (by linarith)
  have h2 : t * (-1e-13 - st 1) ≤ 1 * (-1e-13 - st 1) := mul_le_mul_of_nonneg_right t1 (by linarith)
  unfold trial
  constructor <;> linarith

theorem trial_uIcc (st : Fin 3 → ℝ) {t u c : ℝ} (hc : c ∈ Set.uIcc (trial st t) (trial st u)) : ∃ x ∈ Set.uIcc t u, trial st x = c := by
  have hcont : ContinuousOn (trial st) (Set.uIcc t u) := by unfold trial; fun_prop
  obtain ⟨x, hx, e⟩ := intermediate_value_uIcc hcont hc
  exact ⟨x, hx, e⟩

theorem dyadic_countable : {x | DyadicUnit x}.Countable := by
  refine (Set.countable_range fun q : ℕ × ℕ => (q.1 / 2 ^ q.2 : ℝ)).mono ?_
  rintro x ⟨a, k, -, rfl⟩
  exact ⟨(a, k), rfl⟩

open Classical in
/-- **C76** (bending strength with steel whose law jumps near its limit strain; partial: the loads near the at most `4·bars` loads at
which a bar of a limit plane is at a jump have no guarantee - see `C76_violated` - besides the exceptions of C73). -/
theorem C76_strength_partial (split : Polygon → ℝ → ℝ → ShapelyResult) (ms : ℝ)
    (lu : Matrix (Fin 3) (Fin 3) ℝ → (Fin 3 → ℝ) → (Fin 3 → ℝ))
    {H0 : ℝ} (h0 : OrdinaryRC 0 parts bars ecu eu H0) (h : OrdinaryRC th parts bars ecu eu H)
    (hok : ∀ p ∈ parts, p.Ok split th) (hid : SameIds (bars.map Bar.law)) (hd : EqualSizes (groupBars bars))
    {K j t : ℝ} (hK0 : 0 ≤ K) (hj0 : 0 ≤ j)
    (hK : ∀ b ∈ bars, NearLipschitz b.law.law.stress (b.law.law.ult false).1 (b.law.law.ult false).2 K j t)
    (ht1 : ecu + 1e-13 * H < t) (ht2 : t + 1e-13 * H ≤ eu)
    (hstiff : axialRigidity parts bars K * H ≤ 1e22) :
    ∃ C : Set ℝ, C.Countable ∧ ∃ G : List ℝ, G.length ≤ 4 * bars.length ∧
      (∀ g ∈ G, ∃ e, (concreteSection parts bars).Admissible e ∧ (∃ b ∈ bars, |planeStrain e b.x b.y| = t) ∧
        g = (concreteSection parts bars).forces e 0) ∧
      ∀ (n : ℝ) (ops : List Op),
      Undisturbed (sectionEngine split (parts.map ConcretePart.solid) bars ms) lu ops .fresh →
      (n < (concreteSection parts bars).forces ![-ecu, 0, 0] 0 ∨ (concreteSection parts bars).forces ![eu, 0, 0] 0 < n →
        (bendingStrength (sectionEngine split (parts.map ConcretePart.solid) bars ms) th n
          (history (sectionEngine split (parts.map ConcretePart.solid) bars ms) lu ops .fresh)).2 = .error .valueError) ∧
      (∀ b : BendingResult, (bendingStrength (sectionEngine split (parts.map ConcretePart.solid) bars ms) th n
          (history (sectionEngine split (parts.map ConcretePart.solid) bars ms) lu ops .fresh)).2 = .ok b →
        (∃ c < 0, b.chi = (c * Real.cos th, c * Real.sin th)) ∧
        (concreteSection parts bars).forces ![b.eps_a, b.chi.1, b.chi.2] = ![b.n, b.m.1, b.m.2] ∧
        (concreteSection parts bars).AtLimit ![b.eps_a, b.chi.1, b.chi.2] ∧
        (concreteSection parts bars).Admissible ![b.eps_a, b.chi.1, b.chi.2]) ∧
      ((concreteSection parts bars).forces ![-ecu, 0, 0] 0 + axialRigidity parts bars K * H * 1e-13 < n →
        n < (concreteSection parts bars).forces ![eu, 0, 0] 0 - axialRigidity parts bars K * H * 1e-13 →
        n ∉ C → (∀ g ∈ G, j * (bars.map fun b => |b.area|).sum + 1e-2 < |g - n|) →
        ∃ b : BendingResult, (bendingStrength (sectionEngine split (parts.map ConcretePart.solid) bars ms) th n
          (history (sectionEngine split (parts.map ConcretePart.solid) bars ms) lu ops .fresh)).2 = .ok b ∧ |b.n - n| ≤ 1e-2) := by
  set E := sectionEngine split (parts.map ConcretePart.solid) bars ms with hEdef
  obtain ⟨yn, yp, st, hb, e1, e2, hst2, hs1, hsteep, ⟨bp, hbp, ey⟩, hyn, hgov, hadm, hN, -⟩ := h.search ms hok
  rw [← hEdef] at hb
  have hyp : ∃ c ∈ (concreteSection parts bars).corners, height th c.1 = yp := ⟨_, bar_corner hbp, ey⟩
  have hE : E.Lawful fun _ => .ok (groupBars bars) := marinEngine_lawful _ _ _ _ _ _
  have hlims : (limits E .fresh).2 =
      .ok ((concreteSection parts bars).forces ![-ecu, 0, 0] 0, (concreteSection parts bars).forces ![eu, 0, 0] 0) :=
    C73_limits split ms h0 (fun p hp => ⟨(hok p hp).encloses, (hok p hp).peak, by
      linarith [(hok p hp).plateau, abs_nonneg p.eps_u, show (0:ℝ) < 1e-6 by norm_num]⟩) hid hd
  have hH : 0 ≤ 1e-13 * H := mul_nonneg (by norm_num) (le_trans (by norm_num) h.size.1)
  have hec := h.ecu_range.1
  have hec0 : 0 < ecu := lt_of_lt_of_le (by norm_num) hec
  have ht0 : 0 < t := by linarith
  have hneg13 : (0:ℝ) < 1e-13 := by norm_num
  have hends : ∀ y, y = yp ∨ y = yn → ∀ chi, chi = -1e-13 ∨ chi = 0 →
      (concreteSection parts bars).Admissible (planeThrough th y (planeStrain st 0 y) chi) := by
    intro y hy chi hchi
    rcases hchi with rfl | rfl
    · exact hadm y hy _ hsteep (by linarith)
    · exact hadm y hy _ (by linarith) le_rfl
  have hn := end_near h hok hK0 hK hyn (by rw [e2]; left; constructor <;> linarith) (hends yn (Or.inr rfl))
  have hp := end_near h hok hK0 hK hyp (by rw [e1]; right; constructor <;> linarith) (hends yp (Or.inl rfl))
  rw [e2] at hn
  rw [e1] at hp
  obtain ⟨C, hC, hmain⟩ := C66_reinforced_concrete_partial split parts bars ms th lu hok hid hd h.lim h.flat hb hgov
  set N : ℝ → ℝ → ℝ := fun y chi => (concreteSection parts bars).forces (planeThrough th y (planeStrain st 0 y) chi) 0 with hNdef
  let D : Set ℝ := (fun x => N yp (trial st x)) '' {x | DyadicUnit x} ∪ (fun x => N yn (trial st x)) '' {x | DyadicUnit x}
  have hD : D.Countable := (dyadic_countable.image _).union (dyadic_countable.image _)
  let G : List ℝ := (([yp, yn].flatMap fun y => bars.flatMap fun b => [t, -t].map fun s =>
    (y, (s - planeStrain st 0 y) / (height th (b.x, b.y) - y))).filter fun q => st 1 ≤ q.2 ∧ q.2 ≤ 0 ∧
      ∃ b ∈ bars, |planeStrain (planeThrough th q.1 (planeStrain st 0 q.1) q.2) b.x b.y| = t).map fun q => N q.1 q.2
  have hst : ∀ y, y = yp ∨ y = yn → |planeStrain st 0 y| ≠ t := by
    intro y hy
    rcases hy with rfl | rfl
    · rw [e1, abs_of_pos (by linarith)]
      have : 0 < 1e-13 * H := mul_pos (by norm_num) (lt_of_lt_of_le (by norm_num) h.size.1)
      intro hh
      linarith
    · rw [e2, abs_neg, abs_of_pos hec0]
      intro hh
      linarith
  have hG : ∀ y, y = yp ∨ y = yn → ∀ chi, st 1 ≤ chi → chi ≤ 0 → ∀ b ∈ bars,
      |planeStrain (planeThrough th y (planeStrain st 0 y) chi) b.x b.y| = t → N y chi ∈ G := by
    intro y hy chi h1 h2 b hb' hs
    refine List.mem_map.2 ⟨(y, chi), List.mem_filter.2 ⟨?_, ?_⟩, rfl⟩
    · refine List.mem_flatMap.2 ⟨y, by rcases hy with rfl | rfl <;> simp, List.mem_flatMap.2 ⟨b, hb', List.mem_map.2 ?_⟩⟩
      have q := planeThrough_height th y (planeStrain st 0 y) chi (b.x, b.y)
      simp only at q
      have hne : height th (b.x, b.y) - y ≠ 0 := by
        intro h'
        rw [q, h', mul_zero, add_zero] at hs
        exact hst y hy hs
      refine ⟨planeStrain (planeThrough th y (planeStrain st 0 y) chi) b.x b.y, ?_, ?_⟩
      · rcases (abs_eq ht0.le).1 hs with e | e <;> rw [e] <;> simp
      · rw [q]
        simp only [Prod.mk.injEq, true_and]
        rw [add_sub_cancel_left]
        exact mul_div_cancel_right₀ _ hne
    · simp only [decide_eq_true_eq]
      exact ⟨h1, h2, b, hb', hs⟩
  refine ⟨C ∪ D, hC.union hD, G, ?_, ?_, fun n ops hops => ⟨fun hout => ?_, fun b hb' => ?_, fun hlo hhi hnC hgap => ?_⟩⟩
  · rw [List.length_map]
    refine (List.length_filter_le _ _).trans ?_
    simp only [List.flatMap_cons, List.flatMap_nil, List.append_nil, List.length_append, List.length_flatMap, List.length_map,
      List.length_cons, List.length_nil, List.map_const', List.sum_replicate, smul_eq_mul]
    omega
  · intro g hg
    obtain ⟨⟨y, c⟩, hq, rfl⟩ := List.mem_map.1 hg
    obtain ⟨hq1, hq2⟩ := List.mem_filter.1 hq
    simp only [decide_eq_true_eq] at hq2
    obtain ⟨y', hy', hq3⟩ := List.mem_flatMap.1 hq1
    obtain ⟨b', -, hq4⟩ := List.mem_flatMap.1 hq3
    obtain ⟨s, -, hq5⟩ := List.mem_map.1 hq4
    simp only [Prod.mk.injEq] at hq5
    obtain ⟨rfl, -⟩ := hq5
    exact ⟨_, hadm y' (by simpa using hy') c hq2.1 hq2.2.1, hq2.2.2, rfl⟩
  · have hcan := canonical_history lu hE rfl ops _ .fresh hops
    have l1 := (limits_canonical hE hcan).1
    have l2 := (limits_canonical hE (.fresh : Canonical E _ .fresh)).1
    rw [← l2, hlims] at l1
    rcases hl : limits E (history E lu ops .fresh) with ⟨s', r⟩
    rw [hl] at l1
    simp only at l1
    subst l1
    exact congrArg Prod.snd (C28_gate_rejects _ _ _ hl n hout th 0 0 0 none).1
  · obtain ⟨a1, a2, a3, a4, -⟩ := hmain n ops b hops hb'
    exact ⟨a1, a2, a3, a4⟩
  · have hlow : N yn (-1e-13) < n := by
      simp only [hNdef]
      rw [e2]; linarith [(abs_le.1 hn).2]
    have hhigh : n < N yp (-1e-13) := by
      simp only [hNdef]
      rw [e1]; linarith [(abs_le.1 hp).1]
    have hr : 0 ≤ axialRigidity parts bars K * H * 1e-13 := (abs_nonneg _).trans hn
    have hcheck : (checkAxialLoad E n .fresh).2 = .ok () := by
      simp only [checkAxialLoad, CalcM.bind_def]
      rcases hl : limits E .fresh with ⟨s, r⟩
      rw [hl] at hlims
      simp only at hlims
      subst hlims
      simp only
      rw [if_neg (by push Not; constructor <;> linarith)]
      rfl
    obtain ⟨e, c, k, hrun⟩ := fixedPivotFrom_jumps
      (fun e c => (crossSection (parts.map ConcretePart.solid) bars).forces ![e, c * Real.cos th, c * Real.sin th] 0) n yn yp st
      (j * (bars.map fun b => |b.area|).sum)
      (fun y => {x | ∃ b ∈ bars, |planeStrain (planeThrough th y (planeStrain st 0 y) (trial st x)) b.x b.y| = t})
      (by
        intro y hy
        refine ⟨forceSlope parts bars K th y, forceSlope_nonneg _ _ hK0 _ _, ?_, fun x hx u hu => ?_⟩
        · have hs : forceSlope parts bars K th y ≤ 1e22 := by
            refine (h.slope_le (fun p hp => ⟨(hok p hp).encloses, (hok p hp).inHull⟩) hK0 ?_).trans hstiff
            rcases hy with rfl | rfl
            · exact hyp
            · exact hyn
          have ha : |-1e-13 - st 1| ≤ 1e5 := by
            rw [abs_le]
            constructor <;> norm_num at * <;> linarith
          calc forceSlope parts bars K th y * |-1e-13 - st 1| ≤ 1e22 * 1e5 :=
                mul_le_mul hs ha (abs_nonneg _) (by norm_num)
            _ ≤ _ := by norm_num
        · obtain ⟨a1, a2⟩ := trial_range hsteep hx
          obtain ⟨b1, b2⟩ := trial_range hsteep hu
          have hA := hadm y hy _ a1 (by linarith)
          have hB := hadm y hy _ b1 (by linarith)
          have ew : trial st x - trial st u = (x - u) * (-1e-13 - st 1) := by unfold trial; ring
          rw [hN y hy _ a1 (by linarith), hN y hy _ b1 (by linarith)]
          constructor
          · refine (force_near (K := K) (j := j) hok (by linarith) (by linarith)
              (fun b hb' => (hK b hb' _ (bar_strain hA hb') _ (bar_strain hB hb')).1) hA hB).trans_eq ?_
            rw [ew, abs_mul]
            ring
          · intro hT
            refine (force_near (K := K) (j := 0) hok (by linarith) (by linarith) ?_ hA hB).trans_eq ?_
            · intro b hb'
              rw [add_zero]
              obtain ⟨z1, z2⟩ := same_side (th := th) (y0 := y) (v := planeStrain st 0 y) (x := (b.x, b.y)) ht0.le
                (a := trial st x) (b := trial st u) (by
                  intro c hc hs
                  obtain ⟨x', hx', e⟩ := trial_uIcc st hc
                  rw [← e] at hs
                  exact hT x' ⟨b, hb', hs⟩ hx')
              exact (hK b hb' _ (bar_strain hA hb') _ (bar_strain hB hb')).2 z1 z2
            · rw [ew, abs_mul]
              ring)
      (by
        rintro y hy x ⟨b, hb', hs⟩ hx
        obtain ⟨a1, a2⟩ := trial_range hsteep hx
        rw [hN y hy _ a1 (by linarith)]
        exact hgap _ (hG y hy _ a1 (by linarith) b hb' hs))
      (by
        intro y hy x hx
        obtain ⟨a1, a2⟩ := trial_range hsteep hx.mem_Icc
        rw [hN y hy _ a1 (by linarith)]
        intro hh
        apply hnC
        right
        rcases hy with rfl | rfl
        · exact Or.inl ⟨x, hx, hh⟩
        · exact Or.inr ⟨x, hx, hh⟩)
      (by
        rw [hN yn (Or.inr rfl) _ hsteep (by linarith)]
        exact hlow)
      (by
        rw [hN yp (Or.inl rfl) _ hsteep (by linarith)]
        exact hhigh)
    obtain ⟨b, hb'⟩ := (strength_of_search ms n lu ops hops hok hid hd hb hsteep hst2 hcheck).1 e c k hrun
    exact ⟨b, hb', (hmain n ops b hops hb').2.2.2.2 (fun hc => hnC (Or.inl hc)) hlow hhigh⟩

end SC
