import Verif.Props.MaximumResults

/-! # C79: more reinforcement in the lowest layer -/

set_option autoImplicit false

namespace SC

open Spec MeasureTheory

/-- Forces of a section with more rods. -/
theorem forces_added (plates : List Plate) (rods X : List Rod) (e : Fin 3 → ℝ) :
    (CrossSection.mk plates (rods ++ X)).forces e = (CrossSection.mk plates rods).forces e + resultants (X.map Rod.fibre) e := by
  funext i
  simp only [CrossSection.forces, Pi.add_apply, resultants, List.map_append, List.sum_append]
  ring

/-- Rods at one height `zl`, strained by `t` there: force, and moment. -/
theorem layer_added (X : List Rod) (th zl v c : ℝ) (hX : ∀ r ∈ X, height th (r.fibre.y, r.fibre.z) = zl) :
    resultants (X.map Rod.fibre) (planeThrough th 0 v c) 0 = (X.map fun r => r.fibre.A * r.fibre.resp (v + c * zl)).sum ∧
    bendingMoment th (resultants (X.map Rod.fibre) (planeThrough th 0 v c)) =
      -(zl * (X.map fun r => r.fibre.A * r.fibre.resp (v + c * zl)).sum) := by
  induction X with
  | nil => simp [resultants, bendingMoment]
  | cons r X ih =>
    obtain ⟨i1, i2⟩ := ih fun r hr => hX r (List.mem_cons_of_mem _ hr)
    have h1 := hX r List.mem_cons_self
    have h2 := planeThrough_at th v c (r.fibre.y, r.fibre.z)
    rw [h1] at h2
    simp only at h2
    have hs : ∀ i, resultants ((r :: X).map Rod.fibre) (planeThrough th 0 v c) i =
        r.fibre.A * r.fibre.resp (v + c * zl) * lever r.fibre.y r.fibre.z i +
          resultants (X.map Rod.fibre) (planeThrough th 0 v c) i := by
      intro i
      simp only [resultants, List.map_cons, List.sum_cons, h2]
    refine ⟨?_, ?_⟩
    · rw [hs, i1]
      simp [lever]
    · have h3 : height th (r.fibre.y, r.fibre.z) = zl := h1
      simp only [bendingMoment] at i2 ⊢
      rw [hs, hs, List.map_cons, List.sum_cons]
      simp only [lever, height, Matrix.cons_val] at h3 ⊢
      linear_combination i2 - r.fibre.A * r.fibre.resp (v + c * zl) * h3

set_option maxHeartbeats 1600000 in
/-- Of two planes, `p` within the limits and with tension in the lowest layer of rods, and `u` an ultimate plane of the section with
further rods `X` in that layer: the first has at most the moment of the second, up to the difference of the axial forces. -/
theorem strength_added {plates : List Plate} {rods X : List Rod} {th R zl : ℝ}
    (h : (CrossSection.mk plates rods).NonSoftening) (hR : (CrossSection.mk plates rods).Within th R) (hR0 : 0 ≤ R) (hz : |zl| ≤ R)
    (hX : ∀ r ∈ X, height th (r.fibre.y, r.fibre.z) = zl ∧ 0 ≤ r.fibre.A ∧ (∀ x, 0 ≤ x → x ≤ r.hi → 0 ≤ r.fibre.resp x) ∧
      ∀ x ≤ 0, r.lo ≤ x → r.fibre.resp x ≤ 0)
    (hno : ∀ p ∈ plates, (∀ x, p.response x ≤ 0) ∧ ∀ x, 0 ≤ x → p.response x = 0)
    (hrods : ∀ r ∈ rods, zl ≤ height th (r.fibre.y, r.fibre.z)) {v c v' c' : ℝ} (hc : c ≤ 0) (hc' : c' ≤ 0)
    (hu : (CrossSection.mk plates (rods ++ X)).Admissible (planeThrough th 0 v c))
    (hul : (CrossSection.mk plates (rods ++ X)).Ultimate th (planeThrough th 0 v c))
    (hp : (CrossSection.mk plates (rods ++ X)).Admissible (planeThrough th 0 v' c'))
    (hten : ∀ k ∈ (CrossSection.mk plates (rods ++ X)).corners, planeStrain (planeThrough th 0 v c) k.1.1 k.1.2 = k.2.2 → 0 ≤ v + c * zl)
    (hlow : 0 ≤ v' + c' * zl) :
    bendingMoment th ((CrossSection.mk plates rods).forces (planeThrough th 0 v' c')) ≤
      bendingMoment th ((CrossSection.mk plates (rods ++ X)).forces (planeThrough th 0 v c)) +
        R * |(CrossSection.mk plates rods).forces (planeThrough th 0 v' c') 0 -
          (CrossSection.mk plates (rods ++ X)).forces (planeThrough th 0 v c) 0| := by
  set S : CrossSection := ⟨plates, rods⟩ with hS
  obtain ⟨l1, l2⟩ := layer_added X th zl v c fun r hr => (hX r hr).1
  set D := (X.map fun r => r.fibre.A * r.fibre.resp (v + c * zl)).sum with hD
  rw [forces_added, Pi.add_apply, l1]
  have hM : bendingMoment th (S.forces (planeThrough th 0 v c) + resultants (X.map Rod.fibre) (planeThrough th 0 v c)) =
      bendingMoment th (S.forces (planeThrough th 0 v c)) - zl * D := by
    have : bendingMoment th (S.forces (planeThrough th 0 v c) + resultants (X.map Rod.fibre) (planeThrough th 0 v c)) =
        bendingMoment th (S.forces (planeThrough th 0 v c)) +
          bendingMoment th (resultants (X.map Rod.fibre) (planeThrough th 0 v c)) := by
      simp only [bendingMoment, Pi.add_apply]; ring
    rw [this, l2]; ring
  rw [hM]
  have hDpos : 0 ≤ v + c * zl → 0 ≤ D := by
    intro h0
    refine List.sum_nonneg fun x hx => ?_
    obtain ⟨r, hr, rfl⟩ := List.mem_map.1 hx
    have := hu.2 r (List.mem_append_right _ hr)
    have p1 := planeThrough_at th v c (r.fibre.y, r.fibre.z)
    simp only at p1
    rw [p1, (hX r hr).1] at this
    exact mul_nonneg (hX r hr).2.1 ((hX r hr).2.2.1 _ h0 this.2)
  have hDneg : v + c * zl ≤ 0 → D ≤ 0 := by
    intro h0
    have : 0 ≤ (X.map fun r => r.fibre.A * -r.fibre.resp (v + c * zl)).sum := by
      refine List.sum_nonneg fun x hx => ?_
      obtain ⟨r, hr, rfl⟩ := List.mem_map.1 hx
      have := hu.2 r (List.mem_append_right _ hr)
      have p1 := planeThrough_at th v c (r.fibre.y, r.fibre.z)
      simp only at p1
      rw [p1, (hX r hr).1] at this
      exact mul_nonneg (hX r hr).2.1 (by linarith [(hX r hr).2.2.2 _ h0 this.1])
    have e : (X.map fun r => r.fibre.A * -r.fibre.resp (v + c * zl)).sum = -D := by
      rw [hD, ← neg_one_mul, ← List.sum_map_mul_left]
      congr 1
      exact List.map_congr_left fun r _ => by ring
    linarith
  set Mp := bendingMoment th (S.forces (planeThrough th 0 v' c')) with hMp
  set Mu := bendingMoment th (S.forces (planeThrough th 0 v c)) with hMu
  set Np := S.forces (planeThrough th 0 v' c') 0 with hNp
  set Nu := S.forces (planeThrough th 0 v c) 0 with hNu
  set t := |Np - (Nu + D)| with ht
  have ht0 : 0 ≤ t := abs_nonneg _
  have hta : Np - Nu - D ≤ t := by rw [ht]; exact le_trans (by linarith) (le_abs_self _)
  have htb : -t ≤ Np - Nu - D := by rw [ht]; linarith [neg_abs_le (Np - (Nu + D))]
  have hzu := (abs_le.1 hz).2
  have hzl := (abs_le.1 hz).1
  have hS1 : S.Admissible (planeThrough th 0 v c) := ⟨hu.1, fun r hr => hu.2 r (List.mem_append_left _ hr)⟩
  have hS2 : S.Admissible (planeThrough th 0 v' c') := ⟨hp.1, fun r hr => hp.2 r (List.mem_append_left _ hr)⟩
  -- it remains to find the height about which the stresses turn
  suffices ∃ g, |g| ≤ R ∧ 0 ≤ (g - zl) * D ∧
      (∀ p ∈ plates, ∀ x ∈ p.region, 0 ≤ (p.response (planeStrain (planeThrough th 0 v' c') x.1 x.2) -
        p.response (planeStrain (planeThrough th 0 v c) x.1 x.2)) * (height th x - g)) ∧
      ∀ r ∈ rods, 0 ≤ (r.fibre.resp (planeStrain (planeThrough th 0 v' c') r.fibre.y r.fibre.z) -
        r.fibre.resp (planeStrain (planeThrough th 0 v c) r.fibre.y r.fibre.z)) * (height th (r.fibre.y, r.fibre.z) - g) by
    obtain ⟨g, hg, hgD, h1, h2⟩ := this
    have e1 := moment_tilt h th g (planeThrough th 0 v c) (planeThrough th 0 v' c') h1 h2
    rw [← hMp, ← hMu, ← hNp, ← hNu] at e1
    have e2 := abs_le.1 hg
    have e3 : -(g * (Np - Nu - D)) ≤ R * t := by
      refine (neg_le_abs _).trans ?_
      rw [abs_mul]
      refine mul_le_mul hg ?_ (abs_nonneg _) hR0
      rw [ht, sub_sub]
    nlinarith
  -- stresses between the planes
  have hpm : ∀ p ∈ plates, ∀ x ∈ p.region, (v' + c' * height th x ≤ v + c * height th x →
      p.response (planeStrain (planeThrough th 0 v' c') x.1 x.2) ≤ p.response (planeStrain (planeThrough th 0 v c) x.1 x.2)) ∧
      (v + c * height th x ≤ v' + c' * height th x →
      p.response (planeStrain (planeThrough th 0 v c) x.1 x.2) ≤ p.response (planeStrain (planeThrough th 0 v' c') x.1 x.2)) := by
    intro p hp x hx
    have m1 := admissible_plate h hS1 hp hx
    have m2 := admissible_plate h hS2 hp hx
    refine ⟨fun hl => h.plates_mono p hp m2 m1 ?_, fun hl => h.plates_mono p hp m1 m2 ?_⟩ <;> rwa [planeThrough_at, planeThrough_at]
  have hrm : ∀ r ∈ rods, (v' + c' * height th (r.fibre.y, r.fibre.z) ≤ v + c * height th (r.fibre.y, r.fibre.z) →
      r.fibre.resp (planeStrain (planeThrough th 0 v' c') r.fibre.y r.fibre.z) ≤
        r.fibre.resp (planeStrain (planeThrough th 0 v c) r.fibre.y r.fibre.z)) ∧
      (v + c * height th (r.fibre.y, r.fibre.z) ≤ v' + c' * height th (r.fibre.y, r.fibre.z) →
      r.fibre.resp (planeStrain (planeThrough th 0 v c) r.fibre.y r.fibre.z) ≤
        r.fibre.resp (planeStrain (planeThrough th 0 v' c') r.fibre.y r.fibre.z)) := by
    intro r hr
    have p1 := planeThrough_at th v c (r.fibre.y, r.fibre.z)
    have p2 := planeThrough_at th v' c' (r.fibre.y, r.fibre.z)
    simp only at p1 p2
    refine ⟨fun hl => h.rods_mono r hr (hS2.2 r hr) (hS1.2 r hr) ?_, fun hl => h.rods_mono r hr (hS1.2 r hr) (hS2.2 r hr) ?_⟩ <;>
      rw [p1, p2] <;> exact hl
  -- where all points from the layer upwards have no smaller stress in the first plane
  have hup : (∀ p ∈ plates, ∀ x ∈ p.region, zl ≤ height th x → p.response (planeStrain (planeThrough th 0 v c) x.1 x.2) ≤
        p.response (planeStrain (planeThrough th 0 v' c') x.1 x.2)) →
      (∀ r ∈ rods, r.fibre.resp (planeStrain (planeThrough th 0 v c) r.fibre.y r.fibre.z) ≤
        r.fibre.resp (planeStrain (planeThrough th 0 v' c') r.fibre.y r.fibre.z)) →
      ∃ g, |g| ≤ R ∧ 0 ≤ (g - zl) * D ∧
      (∀ p ∈ plates, ∀ x ∈ p.region, 0 ≤ (p.response (planeStrain (planeThrough th 0 v' c') x.1 x.2) -
        p.response (planeStrain (planeThrough th 0 v c) x.1 x.2)) * (height th x - g)) ∧
      ∀ r ∈ rods, 0 ≤ (r.fibre.resp (planeStrain (planeThrough th 0 v' c') r.fibre.y r.fibre.z) -
        r.fibre.resp (planeStrain (planeThrough th 0 v c) r.fibre.y r.fibre.z)) * (height th (r.fibre.y, r.fibre.z) - g) := by
    intro a1 a2
    have hp0 : ∀ p ∈ plates, ∀ x ∈ p.region, height th x < zl → p.response (planeStrain (planeThrough th 0 v' c') x.1 x.2) = 0 := by
      intro p hp x hx hy
      refine (hno p hp).2 _ ?_
      rw [planeThrough_at]
      nlinarith
    rcases le_or_gt 0 (v + c * zl) with h0 | h0
    · refine ⟨zl, hz, by simp, fun p hp x hx => ?_, fun r hr => ?_⟩
      · rcases lt_or_ge (height th x) zl with hy | hy
        · rw [hp0 p hp x hx hy, (hno p hp).2 (planeStrain (planeThrough th 0 v c) x.1 x.2) (by rw [planeThrough_at]; nlinarith)]
          simp
        · exact mul_nonneg (by linarith [a1 p hp x hx hy]) (by linarith)
      · exact mul_nonneg (by linarith [a2 r hr]) (by linarith [hrods r hr])
    · refine ⟨-R, by rw [abs_neg, abs_of_nonneg hR0], mul_nonneg_of_nonpos_of_nonpos (by linarith) (hDneg h0.le),
        fun p hp x hx => ?_, fun r hr => ?_⟩
      · have := abs_le.1 (hR.1 p hp x hx)
        refine mul_nonneg ?_ (by linarith)
        rcases lt_or_ge (height th x) zl with hy | hy
        · rw [hp0 p hp x hx hy]
          linarith [(hno p hp).1 (planeStrain (planeThrough th 0 v c) x.1 x.2)]
        · linarith [a1 p hp x hx hy]
      · have := abs_le.1 (hR.2 r hr)
        exact mul_nonneg (by linarith [a2 r hr]) (by linarith)
  -- where no point has a larger stress in the first plane
  have hdown : 0 ≤ v + c * zl → (∀ p ∈ plates, ∀ x ∈ p.region, p.response (planeStrain (planeThrough th 0 v' c') x.1 x.2) ≤
        p.response (planeStrain (planeThrough th 0 v c) x.1 x.2)) →
      (∀ r ∈ rods, r.fibre.resp (planeStrain (planeThrough th 0 v' c') r.fibre.y r.fibre.z) ≤
        r.fibre.resp (planeStrain (planeThrough th 0 v c) r.fibre.y r.fibre.z)) →
      ∃ g, |g| ≤ R ∧ 0 ≤ (g - zl) * D ∧
      (∀ p ∈ plates, ∀ x ∈ p.region, 0 ≤ (p.response (planeStrain (planeThrough th 0 v' c') x.1 x.2) -
        p.response (planeStrain (planeThrough th 0 v c) x.1 x.2)) * (height th x - g)) ∧
      ∀ r ∈ rods, 0 ≤ (r.fibre.resp (planeStrain (planeThrough th 0 v' c') r.fibre.y r.fibre.z) -
        r.fibre.resp (planeStrain (planeThrough th 0 v c) r.fibre.y r.fibre.z)) * (height th (r.fibre.y, r.fibre.z) - g) := by
    intro h0 a1 a2
    refine ⟨R, by rw [abs_of_nonneg hR0], mul_nonneg (by linarith) (hDpos h0), fun p hp x hx => ?_, fun r hr => ?_⟩
    · have := abs_le.1 (hR.1 p hp x hx)
      exact mul_nonneg_of_nonpos_of_nonpos (by linarith [a1 p hp x hx]) (by linarith)
    · have := abs_le.1 (hR.2 r hr)
      exact mul_nonneg_of_nonpos_of_nonpos (by linarith [a2 r hr]) (by linarith)
  rcases le_or_gt c c' with hcc | hcc
  · -- the first plane is the less curved one
    rcases le_or_gt (v + c * zl) (v' + c' * zl) with hv | hv
    · refine hup (fun p hp x hx hy => (hpm p hp x hx).2 (by nlinarith)) fun r hr => (hrm r hr).2 (by nlinarith [hrods r hr])
    · rcases hcc.eq_or_lt with rfl | hcc
      · exact hdown (by linarith) (fun p hp x hx => (hpm p hp x hx).1 (by linarith)) fun r hr => (hrm r hr).1 (by linarith)
      · set g := (v - v') / (c' - c) with hg
        have hpos : 0 < c' - c := by linarith
        have hd : ∀ y, (v' + c' * y) - (v + c * y) = (c' - c) * (y - g) := by
          intro y
          rw [hg]; field_simp; ring
        have hgz : zl < g := by
          have := hd zl
          by_contra hcon
          push Not at hcon
          nlinarith
        by_cases hgR : g ≤ R
        · refine ⟨g, abs_le.2 ⟨by linarith, hgR⟩, mul_nonneg (by linarith) (hDpos (by linarith)), fun p hp x hx => ?_, fun r hr => ?_⟩
          · have := hd (height th x)
            rcases le_total (height th x) g with hy | hy
            · exact mul_nonneg_of_nonpos_of_nonpos (by linarith [(hpm p hp x hx).1 (by nlinarith)]) (by linarith)
            · exact mul_nonneg (by linarith [(hpm p hp x hx).2 (by nlinarith)]) (by linarith)
          · have := hd (height th (r.fibre.y, r.fibre.z))
            rcases le_total (height th (r.fibre.y, r.fibre.z)) g with hy | hy
            · exact mul_nonneg_of_nonpos_of_nonpos (by linarith [(hrm r hr).1 (by nlinarith)]) (by linarith)
            · exact mul_nonneg (by linarith [(hrm r hr).2 (by nlinarith)]) (by linarith)
        · push Not at hgR
          refine hdown (by linarith) (fun p hp x hx => (hpm p hp x hx).1 ?_) fun r hr => (hrm r hr).1 ?_
          · have := hd (height th x)
            have := (abs_le.1 (hR.1 p hp x hx)).2
            nlinarith
          · have := hd (height th (r.fibre.y, r.fibre.z))
            have := (abs_le.1 (hR.2 r hr)).2
            nlinarith
  · -- the first plane is the more curved one
    have hcor := admissible_corner hp
    rcases hul with ⟨k, hk, hlim, hex⟩ | ⟨k, hk, hlim, hex⟩
    · have hk' := (hcor k hk).1
      rw [← hlim, planeThrough_at, planeThrough_at] at hk'
      refine hup (fun p hm x hx _ => ?_) fun r hr => ?_
      · rcases le_or_gt (height th x) (height th k.1) with hy | hy
        · exact (hpm p hm x hx).2 (by nlinarith)
        · exact (hex _ hp).1 p hm x hx hy
      · rcases le_or_gt (height th (r.fibre.y, r.fibre.z)) (height th k.1) with hy | hy
        · exact (hrm r hr).2 (by nlinarith)
        · exact (hex _ hp).2 r (List.mem_append_left _ hr) hy
    · have hk' := (hcor k hk).2
      have h0 := hten k hk hlim
      rw [← hlim, planeThrough_at, planeThrough_at] at hk'
      refine hdown h0 (fun p hm x hx => ?_) fun r hr => ?_
      · rcases lt_or_ge (height th x) (height th k.1) with hy | hy
        · exact (hex _ hp).1 p hm x hx hy
        · exact (hpm p hm x hx).1 (by nlinarith)
      · rcases lt_or_ge (height th (r.fibre.y, r.fibre.z)) (height th k.1) with hy | hy
        · exact (hex _ hp).2 r (List.mem_append_left _ hr) hy
        · exact (hrm r hr).1 (by nlinarith)

/-- The ultimate plane of a bending strength, with its curvature. -/
theorem strength_plane' {split : Polygon → ℝ → ℝ → ShapelyResult} {ms th ecu eu H : ℝ} {parts : List ConcretePart} {bars : List Bar}
    {lu : Matrix (Fin 3) (Fin 3) ℝ → (Fin 3 → ℝ) → (Fin 3 → ℝ)}
    (h : OrdinaryRC th parts bars ecu eu H) (hok : ∀ p ∈ parts, p.Ok split th)
    (hid : SameIds (bars.map Bar.law)) (hd : EqualSizes (groupBars bars))
    (hmono : ∀ b ∈ bars, MonotoneOn b.law.law.stress (Set.Icc (b.law.law.ult false).1 (b.law.law.ult false).2))
    (n : ℝ) (ops : List Op) (b : BendingResult)
    (hops : Undisturbed (sectionEngine split (parts.map ConcretePart.solid) bars ms) lu ops .fresh)
    (hrun : (bendingStrength (sectionEngine split (parts.map ConcretePart.solid) bars ms) th n
      (history (sectionEngine split (parts.map ConcretePart.solid) bars ms) lu ops .fresh)).2 = .ok b) :
    ∃ c < 0, ![b.eps_a, b.chi.1, b.chi.2] = planeThrough th 0 b.eps_a c ∧
      (concreteSection parts bars).Admissible (planeThrough th 0 b.eps_a c) ∧
      (concreteSection parts bars).Ultimate th (planeThrough th 0 b.eps_a c) ∧
      (concreteSection parts bars).forces (planeThrough th 0 b.eps_a c) = ![b.n, b.m.1, b.m.2] := by
  have hne : ∀ p ∈ parts, p.polygon.ext ≠ [] := fun p hp => concrete_ne hok _ (List.mem_map_of_mem hp)
  obtain ⟨yn, yp, st, hb, -, -, -, -, -, -, -, hgov⟩ := h.balanced (split := split) (ms := ms) hne
  obtain ⟨C, -, hmain⟩ := C66_reinforced_concrete_partial split parts bars ms th lu hok hid hd h.lim h.flat hb hgov
  obtain ⟨⟨cu, hcu, e⟩, hf, hl, had, -⟩ := hmain n ops b hops hrun
  have hpl : ![b.eps_a, b.chi.1, b.chi.2] = planeThrough th 0 b.eps_a cu := by rw [planeThrough_curvature, e]
  rw [hpl] at hf hl had
  exact ⟨cu, hcu, hpl, had, h.ultimate hok hmono hcu.le had hl, hf⟩

/-- Where a corner is at its limit in tension, the lowest bar is in tension. -/
theorem OrdinaryRC.tension_pivot {th ecu eu H : ℝ} {parts : List ConcretePart} {bars : List Bar}
    (h : OrdinaryRC th parts bars ecu eu H) {v c zl : ℝ} (hc : c ≤ 0) (ha : (concreteSection parts bars).Admissible (planeThrough th 0 v c))
    (hz : ∀ b ∈ bars, zl ≤ height th (b.x, b.y)) {k : (ℝ × ℝ) × ℝ × ℝ} (hk : k ∈ (concreteSection parts bars).corners)
    (hkl : planeStrain (planeThrough th 0 v c) k.1.1 k.1.2 = k.2.2) : 0 ≤ v + c * zl := by
  have hplate : ∀ p ∈ parts, (⟨p.region, p.polygon.ext, p.law.stress, (p.law.ult false).1, (p.law.ult false).2⟩ : Plate) ∈
      (concreteSection parts bars).plates := by
    intro p hp; simp only [concreteSection, List.mem_map]; exact ⟨p, hp, rfl⟩
  have hrod : ∀ b ∈ bars, (⟨b.fibre Law.stress, (b.law.law.ult false).1, (b.law.law.ult false).2⟩ : Rod) ∈
      (concreteSection parts bars).rods := by
    intro b hb; simp only [concreteSection, List.mem_map]; exact ⟨b, hb, rfl⟩
  rcases h.corner_cases hk with ⟨p, hp, hv, hk2⟩ | ⟨b, hb, hk1, hk2, hk3⟩
  · exfalso
    rw [hk2, planeThrough_at] at hkl
    obtain ⟨b, hb, q, hq, w, hw, hd⟩ := h.depth
    have l1 := (ha.2 _ (hrod b hb)).2
    simp only [Bar.fibre, (h.rupture b hb).1] at l1
    have l2 := (ha.1 _ (hplate q hq) w (subset_convexHull ℝ _ hw)).1
    simp only [part_ult, h.crushing q hq] at l2
    have p1 := planeThrough_at th v c (b.x, b.y)
    simp only at p1
    rw [p1] at l1
    rw [planeThrough_at] at l2
    have s1 := h.span _ (OrdinaryRC.bar_corner hb) k hk
    have h1 := h.ecu_range
    have h2 := h.eu_range
    have h3 := h.size.1
    simp only at hkl s1
    have e2 : -c * (height th w - height th (b.x, b.y)) ≤ ecu + eu := by nlinarith
    have e3 : -c * H ≤ 1000 * (ecu + eu) := by nlinarith
    have e4 : -c * (height th (b.x, b.y) - height th k.1) ≤ -c * H := mul_le_mul_of_nonneg_left s1 (by linarith)
    nlinarith
  · have heu : (0:ℝ) ≤ eu := by linarith [h.eu_range.1, show (0:ℝ) < 1e-4 by norm_num]
    rw [hk2, planeThrough_at, hk1] at hkl
    have := hz b hb
    nlinarith

/-- **C79** (bending strength). Further bars in the lowest layer of the reinforcement do not reduce the bending strength when that
layer is not compressed in the first section, up to the difference of the axial forces of the two results times the distance `R` of
the farthest corner from the axis through the origin. -/
theorem C79_strength {split : Polygon → ℝ → ℝ → ShapelyResult} {ms ms' th ecu eu H R zl : ℝ} {parts : List ConcretePart}
    {bars more : List Bar} {lu lu' : Matrix (Fin 3) (Fin 3) ℝ → (Fin 3 → ℝ) → (Fin 3 → ℝ)}
    (h : OrdinaryRC th parts bars ecu eu H) (h' : OrdinaryRC th parts (bars ++ more) ecu eu H) (hok : ∀ p ∈ parts, p.Ok split th)
    (hid : SameIds ((bars ++ more).map Bar.law)) (hd : EqualSizes (groupBars bars)) (hd' : EqualSizes (groupBars (bars ++ more)))
    (hA : ∀ b ∈ bars ++ more, 0 ≤ b.area)
    (hmono : ∀ b ∈ bars ++ more, MonotoneOn b.law.law.stress (Set.Icc (b.law.law.ult false).1 (b.law.law.ult false).2))
    (hsign : ∀ b ∈ more, b.law.law.stress 0 = 0)
    (hR : ∀ p ∈ parts, ∀ v ∈ p.polygon.ext, |height th v| ≤ R)
    (hlow : ∀ b ∈ bars, zl ≤ height th (b.x, b.y)) (low : Bar) (hlb : low ∈ bars) (hlz : height th (low.x, low.y) = zl)
    (hmore : ∀ b ∈ more, height th (b.x, b.y) = zl ∧ b.law.law.ult false = low.law.law.ult false)
    (n n' : ℝ) (ops ops' : List Op) (b b' : BendingResult)
    (hops : Undisturbed (sectionEngine split (parts.map ConcretePart.solid) bars ms) lu ops .fresh)
    (hrun : (bendingStrength (sectionEngine split (parts.map ConcretePart.solid) bars ms) th n
      (history (sectionEngine split (parts.map ConcretePart.solid) bars ms) lu ops .fresh)).2 = .ok b)
    (hops' : Undisturbed (sectionEngine split (parts.map ConcretePart.solid) (bars ++ more) ms') lu' ops' .fresh)
    (hrun' : (bendingStrength (sectionEngine split (parts.map ConcretePart.solid) (bars ++ more) ms') th n'
      (history (sectionEngine split (parts.map ConcretePart.solid) (bars ++ more) ms') lu' ops' .fresh)).2 = .ok b')
    (htens : 0 ≤ planeStrain ![b.eps_a, b.chi.1, b.chi.2] low.x low.y) :
    bendingMoment th ![b.n, b.m.1, b.m.2] ≤ bendingMoment th ![b'.n, b'.m.1, b'.m.2] + R * |b.n - b'.n| := by
  have hsub : ∀ x ∈ bars, x ∈ bars ++ more := fun x hx => List.mem_append_left _ hx
  have hid0 : SameIds (bars.map Bar.law) := by
    intro a ha b hb
    refine hid a ?_ b ?_
    · rw [List.map_append]; exact List.mem_append_left _ ha
    · rw [List.map_append]; exact List.mem_append_left _ hb
  obtain ⟨c, hc, hpl, ha, -, hf⟩ := strength_plane' h hok hid0 hd (fun x hx => hmono x (hsub x hx)) n ops b hops hrun
  obtain ⟨c', hc', -, ha', hu', hf'⟩ := strength_plane' h' hok hid hd' hmono n' ops' b' hops' hrun'
  obtain ⟨hw, hR0⟩ := h.within hok hR
  have hz : |zl| ≤ R := by
    have := hw.2 ⟨low.fibre Law.stress, (low.law.law.ult false).1, (low.law.law.ult false).2⟩
      (by simp only [concreteSection, List.mem_map]; exact ⟨low, hlb, rfl⟩)
    simp only [Bar.fibre] at this
    rwa [hlz] at this
  have hin : ∀ b ∈ more, b.law.law.ult false = low.law.law.ult false ∧ (low.law.law.ult false).1 ≤ 0 ∧ 0 ≤ (low.law.law.ult false).2 := by
    intro b hb
    have := h.lim _ (OrdinaryRC.bar_corner (parts := parts) hlb)
    exact ⟨(hmore b hb).2, this⟩
  set X : List Rod := more.map fun b => ⟨b.fibre Law.stress, (b.law.law.ult false).1, (b.law.law.ult false).2⟩ with hX
  set plates := (concreteSection parts bars).plates with hplates
  set rods := (concreteSection parts bars).rods with hrods
  have hT : concreteSection parts (bars ++ more) = ⟨plates, rods ++ X⟩ := by
    simp only [hplates, hrods, hX, concreteSection, List.map_append]
  have hS : concreteSection parts bars = ⟨plates, rods⟩ := rfl
  have hpl0 : planeStrain (planeThrough th 0 b.eps_a c) low.x low.y = b.eps_a + c * zl := by
    have := planeThrough_at th b.eps_a c (low.x, low.y)
    rw [hlz] at this
    exact this
  rw [hpl, hpl0] at htens
  have hns := concrete_nonSoftening hok (fun x hx => hA x (hsub x hx)) fun x hx => hmono x (hsub x hx)
  rw [hT] at ha' hu' hf'
  have key := strength_added (X := X) (plates := plates) (rods := rods) hns hw hR0 hz (zl := zl) (v := b'.eps_a) (c := c') (v' := b.eps_a)
    (c' := c) (by
      intro r hr
      obtain ⟨m, hm, rfl⟩ := List.mem_map.1 hr
      have h1 := hmono m (List.mem_append_right _ hm)
      have h2 := hin m hm
      simp only [Bar.fibre]
      rw [h2.1] at h1 ⊢
      refine ⟨(hmore m hm).1, hA m (List.mem_append_right _ hm), fun x hx hx2 => ?_, fun x hx hx2 => ?_⟩
      · rw [← hsign m hm]
        exact h1 ⟨h2.2.1, h2.2.2⟩ ⟨by linarith [h2.2.1], hx2⟩ hx
      · rw [← hsign m hm]
        exact h1 ⟨hx2, by linarith [h2.2.2]⟩ ⟨h2.2.1, h2.2.2⟩ hx) (by
      intro p hp
      obtain ⟨q, hq, rfl⟩ := List.mem_map.1 hp
      exact ⟨fun x => (pr_stress_range q.fc q.eps_0 q.eps_u (hok q hq).peak x).2,
        fun x hx => pr_stress_tension q.fc q.eps_0 q.eps_u (hok q hq).peak (hok q hq).plateau hx⟩) (by
      intro r hr
      obtain ⟨m, hm, rfl⟩ := List.mem_map.1 hr
      exact hlow m hm) hc'.le hc.le ha' hu' (by
      refine ⟨ha.1, fun r hr => ?_⟩
      rcases List.mem_append.1 hr with hr | hr
      · exact ha.2 r hr
      · obtain ⟨m, hm, rfl⟩ := List.mem_map.1 hr
        have h1 := ha.2 ⟨low.fibre Law.stress, (low.law.law.ult false).1, (low.law.law.ult false).2⟩
          (by simp only [concreteSection, List.mem_map]; exact ⟨low, hlb, rfl⟩)
        have h2 := planeThrough_at th b.eps_a c (m.x, m.y)
        rw [(hmore m hm).1] at h2
        simp only at h2
        simp only [Bar.fibre] at h1 ⊢
        rw [hpl0] at h1
        rw [h2, (hmore m hm).2]
        exact h1) (by
      intro k hk hkl
      rw [← hT] at hk ha'
      refine h'.tension_pivot hc'.le ha' (fun x hx => ?_) hk hkl
      rcases List.mem_append.1 hx with hx | hx
      · exact hlow x hx
      · exact (hmore x hx).1.ge) htens
  rw [← hS, hf, hf'] at key
  exact key

end SC
