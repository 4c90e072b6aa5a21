import Verif.Props.SteelStrength

/-! # C75: results of the calculator for steel sections -/

set_option autoImplicit false

namespace SC

open Spec MeasureTheory

section

variable {split : Polygon → ℝ → ℝ → ShapelyResult} {th u lo hi : ℝ} {parts : List SteelPart}

theorem steel_goods (hok : ∀ p ∈ parts, p.Ok split th u) : ∀ s ∈ parts.map SteelPart.solid, MeasurableSet s.spec.region ∧
    ∀ e chi, chi < 0 → (s.spec.turn (-th)).Good split .stress ![e, chi, 0] := by
  intro s hs
  obtain ⟨p, hp, rfl⟩ := List.mem_map.1 hs
  exact ⟨(hok p hp).encloses.measurable, fun e chi h => steel_good (hok p hp) e chi h⟩

theorem no_ids : SameIds (([] : List Bar).map Bar.law) := by
  intro a ha
  simp at ha

theorem no_sizes : EqualSizes (groupBars []) := by
  intro a ha
  simp [groupBars] at ha

/-- The state of a strength calculation that returned. -/
theorem steel_result (hok : ∀ p ∈ parts, p.Ok split th u) (hu1 : u ≤ 1) (hD : SteelDepth th parts lo hi) (ms : ℝ)
    (lu : Matrix (Fin 3) (Fin 3) ℝ → (Fin 3 → ℝ) → (Fin 3 → ℝ)) (n : ℝ) (ops : List Op) (b : BendingResult)
    (hops : Undisturbed (sectionEngine split (parts.map SteelPart.solid) [] ms) lu ops .fresh)
    (hrun : (bendingStrength (sectionEngine split (parts.map SteelPart.solid) [] ms) th n
      (history (sectionEngine split (parts.map SteelPart.solid) [] ms) lu ops .fresh)).2 = .ok b) :
    ∃ c < 0, ![b.eps_a, b.chi.1, b.chi.2] = planeThrough th 0 b.eps_a c ∧
      (steelSection parts).forces (planeThrough th 0 b.eps_a c) = ![b.n, b.m.1, b.m.2] ∧
      (steelSection parts).AtLimit (planeThrough th 0 b.eps_a c) ∧
      (steelSection parts).Admissible (planeThrough th 0 b.eps_a c) := by
  obtain ⟨st, hb, -, -, -, hgov⟩ := steel_balanced (ms := ms) hok hu1 hD
  have hlim := steel_lim hok
  have hflat := steel_flat hok hD
  rw [← steel_corners] at hlim hflat hgov
  obtain ⟨C, -, hmain⟩ := C66_strength_partial split _ [] ms th lu no_ids no_sizes (steel_goods hok) hlim hflat hb
  obtain ⟨⟨cu, hcu, e⟩, hf, hl, had, -⟩ := hmain n ops b hops hrun
  have hpl : ![b.eps_a, b.chi.1, b.chi.2] = planeThrough th 0 b.eps_a cu := by rw [planeThrough_curvature, e]
  have had := (steel_admissible parts _).1 (had hgov)
  rw [steel_forces hok had] at hf
  have hl' : (steelSection parts).AtLimit ![b.eps_a, b.chi.1, b.chi.2] := by
    obtain ⟨c, hc, h⟩ := hl
    exact ⟨c, by rwa [← steel_corners], h⟩
  rw [hpl] at hf hl' had
  exact ⟨cu, hcu, hpl, hf, hl', had⟩

theorem coreLoss_le (hok : ∀ p ∈ parts, p.Ok split th u) {c c' : ℝ} (hc : 0 < c') (h : c' ≤ c) : coreLoss parts c ≤ coreLoss parts c' := by
  unfold coreLoss
  refine List.sum_le_sum fun p hp => ?_
  have hs := (hok p hp).law.sy_nonneg
  have hf := (hok p hp).law.fy
  refine mul_le_mul_of_nonneg_right ?_ (integral_nonneg fun _ => zero_le_one)
  exact div_le_div_of_nonneg_left (mul_nonneg hf hs) (by linarith) (by linarith)

/-- **C75** (the bending strength is the plastic moment).  The result is a state of the section at a limit strain and within all of
them; its moment is at most that of the fully plastic section for every position `z` of the plastic neutral axis; and unless the axial
force is so large that the whole section may be in tension or in compression, it is at least that of the fully plastic section with the
neutral axis at some height `z` of the section, less the moment lost to the elastic core. -/
theorem C75_strength (hok : ∀ p ∈ parts, p.Ok split th u) (hu1 : u ≤ 1) (hD : SteelDepth th parts lo hi) (ms : ℝ)
    (lu : Matrix (Fin 3) (Fin 3) ℝ → (Fin 3 → ℝ) → (Fin 3 → ℝ)) (n : ℝ) (ops : List Op) (b : BendingResult)
    (hops : Undisturbed (sectionEngine split (parts.map SteelPart.solid) [] ms) lu ops .fresh)
    (hrun : (bendingStrength (sectionEngine split (parts.map SteelPart.solid) [] ms) th n
      (history (sectionEngine split (parts.map SteelPart.solid) [] ms) lu ops .fresh)).2 = .ok b) :
    (steelSection parts).forces ![b.eps_a, b.chi.1, b.chi.2] = ![b.n, b.m.1, b.m.2] ∧
    (steelSection parts).AtLimit ![b.eps_a, b.chi.1, b.chi.2] ∧
    (steelSection parts).Admissible ![b.eps_a, b.chi.1, b.chi.2] ∧
    (∀ z, bendingMoment th ![b.n, b.m.1, b.m.2] ≤ plasticMoment th (yieldPlates parts) z - z * b.n) ∧
    (b.n * (hi - lo) < plasticMoment th (yieldPlates parts) hi → -b.n * (hi - lo) < plasticMoment th (yieldPlates parts) lo →
      ∃ z, lo ≤ z ∧ z ≤ hi ∧ plasticMoment th (yieldPlates parts) z - z * b.n - coreLoss parts (u / (hi - lo)) ≤
        bendingMoment th ![b.n, b.m.1, b.m.2]) := by
  obtain ⟨c, hc, hpl, hf, hl, ha⟩ := steel_result hok hu1 hD ms lu n ops b hops hrun
  have hN : (steelSection parts).forces (planeThrough th 0 b.eps_a c) 0 = b.n := by rw [hf]; rfl
  refine ⟨by rw [hpl, hf], by rw [hpl]; exact hl, by rw [hpl]; exact ha, fun z => ?_, fun h1 h2 => ?_⟩
  · have := steel_upper hok ha z
    rwa [hf] at this
  · obtain ⟨a1, a2⟩ := steel_axis hok hD hc ha hl (by rw [hN]; exact h1) (by rw [hN]; exact h2)
    have hDp : 0 < hi - lo := by linarith [hD.size.1, show (0:ℝ) < 1e-6 by norm_num]
    obtain ⟨pt, hpt, -⟩ := hD.top
    have hu : 0 < u := by linarith [(hok pt hpt).law.u_pos.1, show (0:ℝ) < 1e-6 by norm_num]
    have hlow := steel_lower hok hc ha
    rw [hN, hf] at hlow
    refine ⟨-b.eps_a / c, ?_, ?_, ?_⟩
    · rw [le_div_iff_of_neg hc]; linarith
    · rw [div_le_iff_of_neg hc]; linarith
    · have : coreLoss parts (-c) ≤ coreLoss parts (u / (hi - lo)) := by
        refine coreLoss_le hok (div_pos hu hDp) ?_
        rw [div_le_iff₀ hDp]
        obtain ⟨-, -, e | e⟩ := steel_extreme hok hD hc ha hl <;> linarith
      linarith

/-! ### Loads with a result -/

theorem steel_uniform_forces (hok : ∀ p ∈ parts, p.Ok split th u) (v : ℝ) (hv : v = u ∨ v = -u) :
    (steelSection parts).forces ![v, 0, 0] 0 = (if v = u then 1 else -1) * squashLoad (yieldPlates parts) := by
  simp only [CrossSection.forces, steelSection, List.map_map, Function.comp_def, List.map_nil, Pi.add_apply, list_sum_apply]
  have : resultants [] ![v, 0, 0] 0 = 0 := by simp [resultants]
  rw [this, add_zero, squashLoad_parts, ← List.sum_map_mul_left]
  congr 1
  refine List.map_congr_left fun p hp => ?_
  have hl := (hok p hp).law
  have hu := hl.u_pos
  have hs := hl.sy_nonneg
  have hpos : (0:ℝ) < 1e-6 := by norm_num
  simp only [regionResultants, planeStrain, Matrix.cons_val, zero_mul, add_zero, lever, mul_one, sub_zero]
  rw [← integral_const_mul, ← integral_const_mul]
  refine integral_congr_ae (Filter.Eventually.of_forall fun x => ?_)
  simp only [mul_one]
  rcases hv with rfl | rfl
  · rw [if_pos rfl, hl.stress_eq (by linarith) le_rfl, hl.clamped_high (by linarith), one_mul]
  · rw [if_neg (by intro h; linarith), hl.stress_eq le_rfl (by linarith), hl.clamped_low (by linarith), neg_one_mul]

/-- **C75** (limit loads). The limit axial loads are the squash loads. -/
theorem C75_limits (hok : ∀ p ∈ parts, p.Ok split 0 u) (hu1 : u ≤ 1) (hD : SteelDepth 0 parts lo hi) (ms : ℝ) :
    (limits (sectionEngine split (parts.map SteelPart.solid) [] ms) .fresh).2 =
      .ok (-squashLoad (yieldPlates parts), squashLoad (yieldPlates parts)) := by
  obtain ⟨st, hbal, h1, h2, -, -⟩ := steel_balanced (ms := ms) hok hu1 hD
  rw [neg_zero] at hbal
  have hint : ∀ e m, (e = u ∨ e = -u) →
      (sectionEngine split (parts.map SteelPart.solid) [] ms).integ 0 ![e, 0, 0] .stress (some (groupBars [])) m =
        .ok (.forces ((steelSection parts).forces ![e, 0, 0]), groupBars []) := by
    intro e m he
    have h := C50_forces_partial split (parts.map fun p => ⟨p.surf, p.region, p.law.stress⟩) (([] : List Bar).map (Bar.rotate 0))
      (groupBars []) no_sizes ![e, 0, 0] (by
        intro s hs
        obtain ⟨p, hp, rfl⟩ := List.mem_map.1 hs
        exact steel_good_uniform (hok p hp).encloses (hok p hp).law he)
    have hsurf : ((parts.map SteelPart.solid).map fun s => s.spec.surf).map
        (fun g => ({ g with polygon := g.polygon.rotate 0 } : Surf)) =
        (parts.map fun p => (⟨p.surf, p.region, p.law.stress⟩ : SurfSpec)).map SurfSpec.surf := by
      simp only [List.map_map, Function.comp_def, polygon_rotate_zero]
      rfl
    have hbars : resultants ((steelSection parts).rods.map Rod.fibre) ![e, 0, 0] =
        resultants (fibres Law.stress (groupBars [])) ![e, 0, 0] := by
      rw [resultants_perm (C18_grouping Law.stress [] no_ids)]
      simp only [steelSection, List.map_nil]
    simp only [sectionEngine, marinEngine, hsurf]
    rw [h]
    simp only [CrossSection.forces, hbars]
    simp only [steelSection, List.map_map, Function.comp_def]
  have hE : (sectionEngine split (parts.map SteelPart.solid) [] ms).Lawful fun _ => .ok (groupBars []) :=
    marinEngine_lawful _ _ _ _ _ _
  obtain ⟨pt, hpt, -⟩ := hD.top
  have hu : 0 < u := by linarith [(hok pt hpt).law.u_pos.1, show (0:ℝ) < 1e-6 by norm_num]
  have f1 := steel_uniform_forces hok u (Or.inl rfl)
  have f2 := steel_uniform_forces hok (-u) (Or.inr rfl)
  rw [if_pos rfl, one_mul] at f1
  rw [if_neg (by intro h; linarith), neg_one_mul] at f2
  have hlim : limitAxialLoad (sectionEngine split (parts.map SteelPart.solid) [] ms) .fresh =
      (⟨some (groupBars []), none⟩, .ok (-squashLoad (yieldPlates parts), squashLoad (yieldPlates parts))) := by
    simp only [limitAxialLoad, hbal, CalcState.fresh]
    rw [hE.first]
    simp only
    rw [h1, h2, hint _ _ (Or.inr rfl)]
    simp only
    rw [hint _ _ (Or.inl rfl), ← f2, ← f1]
    rfl
  have h2 : (CalcState.fresh).lim = none := rfl
  simp only [limits, h2, hlim]

/-- Sum of modulus times area. -/
noncomputable def steelRigidity (parts : List SteelPart) : ℝ := (parts.map fun p => p.law.E * ∫ _ in p.region, (1:ℝ)).sum

theorem steel_lipschitz (hok : ∀ p ∈ parts, p.Ok split th u) (hD : SteelDepth th parts lo hi) {y v c c' : ℝ} (hy : y = lo ∨ y = hi)
    (ha : (steelSection parts).Admissible (planeThrough th y v c))
    (ha' : (steelSection parts).Admissible (planeThrough th y v c')) :
    |(steelSection parts).forces (planeThrough th y v c) 0 - (steelSection parts).forces (planeThrough th y v c') 0| ≤
      steelRigidity parts * (hi - lo) * |c - c'| := by
  rw [steel_forces_clamped hok ha, steel_forces_clamped hok ha', steelRigidity, ← list_sum_mul_const, ← list_sum_mul_const]
  refine list_abs_sum_sub _ _ _ _ fun p hp => ?_
  have hb := (hok p hp).encloses.bounded
  have hi' : ∀ c, IntegrableOn (fun x : ℝ × ℝ => p.law.clamped (planeStrain (planeThrough th y v c) x.1 x.2) * lever x.1 x.2 0) p.region := by
    intro c
    refine continuous_integrableOn ?_ hb
    simp only [lever, Matrix.cons_val, mul_one]
    exact p.law.continuous_clamped.comp (continuous_plane _)
  rw [← integral_sub (hi' c) (hi' c'), ← integral_const_mul, ← integral_mul_const, ← integral_mul_const]
  rw [← Real.norm_eq_abs (∫ x in p.region, _)]
  refine norm_integral_le_of_norm_le (continuous_integrableOn continuous_const hb) ?_
  refine (ae_restrict_iff' (hok p hp).encloses.measurable).2 (Filter.Eventually.of_forall fun x hx => ?_)
  obtain ⟨r1, r2⟩ := hull_range hD hp ((hok p hp).inHull hx)
  simp only [lever, Matrix.cons_val, mul_one, Real.norm_eq_abs]
  refine ((hok p hp).law.clamped_lipschitz _ _).trans ?_
  rw [planeThrough_height, planeThrough_height]
  have e : v + c * (height th x - y) - (v + c' * (height th x - y)) = (c - c') * (height th x - y) := by ring
  rw [e, abs_mul, mul_assoc, mul_comm |c - c'|]
  refine mul_le_mul_of_nonneg_left (mul_le_mul_of_nonneg_right ?_ (abs_nonneg _)) (hok p hp).law.E.le
  rw [abs_le]
  rcases hy with rfl | rfl <;> constructor <;> linarith

/-- The end planes of the search carry the squash loads. -/
theorem steel_end (hok : ∀ p ∈ parts, p.Ok split th u) (hD : SteelDepth th parts lo hi)
    (ha : (steelSection parts).Admissible (planeThrough th hi (-u) (-1e-13))) (ha' : (steelSection parts).Admissible (planeThrough th lo u (-1e-13))) :
    (steelSection parts).forces (planeThrough th hi (-u) (-1e-13)) 0 = -squashLoad (yieldPlates parts) ∧
    (steelSection parts).forces (planeThrough th lo u (-1e-13)) 0 = squashLoad (yieldPlates parts) := by
  have hs := hD.size
  rw [steel_forces_clamped hok ha, steel_forces_clamped hok ha', squashLoad_parts]
  constructor
  · rw [← neg_one_mul (List.sum _), ← List.sum_map_mul_left]
    congr 1
    refine List.map_congr_left fun p hp => ?_
    have hl := (hok p hp).law
    have hu := hl.u_pos
    rw [← integral_const_mul, ← integral_const_mul]
    refine setIntegral_congr_fun (hok p hp).encloses.measurable fun x hx => ?_
    obtain ⟨r1, r2⟩ := hull_range hD hp ((hok p hp).inHull hx)
    simp only [planeThrough_height, lever, Matrix.cons_val, mul_one]
    rw [hl.clamped_low (by norm_num at *; linarith)]
    ring
  · congr 1
    refine List.map_congr_left fun p hp => ?_
    have hl := (hok p hp).law
    have hu := hl.u_pos
    rw [← integral_const_mul]
    refine setIntegral_congr_fun (hok p hp).encloses.measurable fun x hx => ?_
    obtain ⟨r1, r2⟩ := hull_range hD hp ((hok p hp).inHull hx)
    simp only [planeThrough_height, lever, Matrix.cons_val, mul_one]
    rw [hl.clamped_high (by norm_num at *; linarith)]

/-- **C75** (loads; partial: for the tolerance a countable set of loads).  A load beyond the squash load is rejected; a smaller one has
a result, in equilibrium with it up to the tolerance `1e-2` of the search. -/
theorem C75_loads_partial (hok : ∀ p ∈ parts, p.Ok split th u) (hok0 : ∀ p ∈ parts, p.Ok split 0 u) (hu1 : u ≤ 1)
    (hD : SteelDepth th parts lo hi) {lo0 hi0 : ℝ} (hD0 : SteelDepth 0 parts lo0 hi0) (ms : ℝ)
    (lu : Matrix (Fin 3) (Fin 3) ℝ → (Fin 3 → ℝ) → (Fin 3 → ℝ)) (hstiff : steelRigidity parts ≤ 1e27) :
    ∃ C : Set ℝ, C.Countable ∧ ∀ (n : ℝ) (ops : List Op),
      Undisturbed (sectionEngine split (parts.map SteelPart.solid) [] ms) lu ops .fresh →
      (squashLoad (yieldPlates parts) < |n| →
        (bendingStrength (sectionEngine split (parts.map SteelPart.solid) [] ms) th n
          (history (sectionEngine split (parts.map SteelPart.solid) [] ms) lu ops .fresh)).2 = .error .valueError) ∧
      (|n| < squashLoad (yieldPlates parts) →
        ∃ b : BendingResult, (bendingStrength (sectionEngine split (parts.map SteelPart.solid) [] ms) th n
          (history (sectionEngine split (parts.map SteelPart.solid) [] ms) lu ops .fresh)).2 = .ok b ∧
          (n ∉ C ∨ |(steelSection parts).forces (planeThrough th lo u (-(2 * u) / (hi - lo))) 0 - n| ≤ 1e-2 → |b.n - n| ≤ 1e-2)) := by
  set E := sectionEngine split (parts.map SteelPart.solid) [] ms with hEdef
  obtain ⟨st, hb, s1, s2, hst2, hgov⟩ := steel_balanced (ms := ms) hok hu1 hD
  have hE : E.Lawful fun _ => .ok (groupBars []) := marinEngine_lawful _ _ _ _ _ _
  have hlims : (limits E .fresh).2 = .ok (-squashLoad (yieldPlates parts), squashLoad (yieldPlates parts)) := C75_limits hok0 hu1 hD0 ms
  have hlim := steel_lim hok
  have hflat := steel_flat hok hD
  rw [← steel_corners] at hlim hflat hgov
  have hne := steel_ne hok
  have hb' : balancedFailure (sectionParts (parts.map SteelPart.solid) [] (-th)) ((parts.map SteelPart.solid).any Solid.concrete) false =
    .ok (hi, lo, st) := hb
  have hsteep := steep_balanced hne hlim hflat hb'
  have hpl : ∀ x y, planeStrain st x y = st 0 + st 1 * y := by intro x y; simp [planeStrain, hst2]
  have hDp : 0 < hi - lo := by linarith [hD.size.1, show (0:ℝ) < 1e-6 by norm_num]
  have hneg : st 1 < 0 := by linarith [show (0:ℝ) < 1e-13 by norm_num]
  have hadm : ∀ y, y = lo ∨ y = hi → ∀ chi, st 1 ≤ chi → chi ≤ 0 →
      (steelSection parts).Admissible (planeThrough th y (planeStrain st 0 y) chi) := by
    intro y hy chi k1 k2
    rw [← steel_admissible]
    exact search_admissible hne hlim hb' hgov hy k1 k2
  have hd := marin_answers split (parts.map SteelPart.solid) [] ms th no_ids no_sizes (steel_goods hok)
  have hA1 := hadm hi (Or.inr rfl) (-1e-13) hsteep (by norm_num)
  have hA2 := hadm lo (Or.inl rfl) (-1e-13) hsteep (by norm_num)
  have hEnd : (crossSection (parts.map SteelPart.solid) []).forces (planeThrough th hi (planeStrain st 0 hi) (-1e-13)) 0 =
        -squashLoad (yieldPlates parts) ∧
      (crossSection (parts.map SteelPart.solid) []).forces (planeThrough th lo (planeStrain st 0 lo) (-1e-13)) 0 =
        squashLoad (yieldPlates parts) := by
    rw [steel_forces hok hA1, steel_forces hok hA2]
    rw [hpl, s2] at hA1 ⊢
    rw [hpl, s1] at hA2 ⊢
    exact steel_end hok hD hA1 hA2
  obtain ⟨C, hC, hmain⟩ := C66_strength_partial split _ [] ms th lu no_ids no_sizes (steel_goods hok) hlim hflat hb
  refine ⟨C, hC, fun n ops hops => ⟨fun hout => ?_, fun hin => ?_⟩⟩
  · have hcan := canonical_history lu hE rfl ops _ .fresh hops
    have l1 := (limits_canonical hE hcan).1
    have l2 := (limits_canonical hE (.fresh : Canonical E _ .fresh)).1
    rw [← l2, hlims] at l1
    rcases hl : limits E (history E lu ops .fresh) with ⟨s', r⟩
    rw [hl] at l1
    simp only at l1
    subst l1
    refine congrArg Prod.snd (C28_gate_rejects _ _ _ hl n ?_ th 0 0 0 none).1
    rcases lt_abs.1 hout with h | h
    · exact Or.inr h
    · exact Or.inl (by linarith)
  · obtain ⟨n1, n2⟩ := abs_lt.1 hin
    have hcheck : (checkAxialLoad E n .fresh).2 = .ok () := by
      simp only [checkAxialLoad, CalcM.bind_def]
      rcases hl : limits E .fresh with ⟨s, r⟩
      rw [hl] at hlims
      simp only at hlims
      subst hlims
      simp only
      rw [if_neg (by push Not; constructor <;> linarith)]
      rfl
    have hcan := canonical_history lu hE rfl ops _ .fresh hops
    have hR0 : 0 ≤ steelRigidity parts := by
      refine List.sum_nonneg fun x hx => ?_
      obtain ⟨p, hp, rfl⟩ := List.mem_map.1 hx
      exact mul_nonneg (hok p hp).law.E.le (integral_nonneg fun _ => zero_le_one)
    obtain ⟨b, hb''⟩ := returns_generic hE rfl hd hcan (solids := parts.map SteelPart.solid) (bars := []) rfl hne hlim hflat hb hgov
      (slope := fun _ => steelRigidity parts * (hi - lo)) (by
        intro y hy
        have e : |-1e-13 - st 1| ≤ -st 1 := by rw [abs_le]; constructor <;> norm_num at * <;> linarith
        have e2 : (hi - lo) * -st 1 = 2 * u := by linarith
        calc steelRigidity parts * (hi - lo) * |-1e-13 - st 1| ≤ steelRigidity parts * (hi - lo) * -st 1 :=
              mul_le_mul_of_nonneg_left e (mul_nonneg hR0 hDp.le)
          _ = steelRigidity parts * (2 * u) := by rw [mul_assoc, e2]
          _ ≤ 1e27 * 2 := mul_le_mul hstiff (by linarith) (by
              obtain ⟨pt, hpt, -⟩ := hD.top
              linarith [(hok pt hpt).law.u_pos.1, show (0:ℝ) < 1e-6 by norm_num]) (by norm_num)
          _ ≤ _ := by norm_num)
      (by
        intro y hy v c c' hc hc' ha ha'
        have ha1 := (steel_admissible parts _).1 ha
        have ha1' := (steel_admissible parts _).1 ha'
        rw [steel_forces hok ha1, steel_forces hok ha1']
        exact steel_lipschitz hok hD hy ha1 ha1')
      hcheck (by rw [hEnd.1]; exact n1) (by rw [hEnd.2]; exact n2)
    refine ⟨b, hb'', fun hcase => ?_⟩
    rcases hcase with hnC | hbal
    · exact (hmain n ops b hops hb'').2.2.2.2 hnC (by rw [hEnd.1]; exact n1) (by rw [hEnd.2]; exact n2)
    · obtain ⟨e, c, k, hpiv, h1, h2, h3⟩ := bending_spec (s' := (bendingStrength E th n (history E lu ops .fresh)).1) hE rfl hd
        (n := n) (b := b) hcan hb hneg (Prod.ext rfl hb'')
      have hst1 : st 1 = -(2 * u) / (hi - lo) := by rw [eq_div_iff hDp.ne']; linarith
      have hbp : planeThrough th lo u (-(2 * u) / (hi - lo)) = ![st 0, st 1 * Real.cos th, st 1 * Real.sin th] := by
        rw [← hst1, planeThrough, ← s1]
        congr 1
        ring
      have hab := hadm lo (Or.inl rfl) (st 1) le_rfl hneg.le
      rw [hpl, s1, hst1, hbp] at hab
      rw [hbp, ← steel_forces hok hab] at hbal
      rw [fixedPivotFrom, if_pos hbal] at hpiv
      simp only [Option.some.injEq, Prod.mk.injEq, Except.ok.injEq] at hpiv
      obtain ⟨⟨rfl, rfl, -⟩, -⟩ := hpiv
      have := congrFun (h3 hneg) 0
      rw [h1, h2] at this
      simp only [Matrix.cons_val_zero] at this
      rw [← this]
      exact hbal

end

end SC
