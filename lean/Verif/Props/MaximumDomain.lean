import Verif.Props.MaximumResults
import Verif.Props.DomainForces

/-! # C74: the interaction domain and the bending strength agree -/

set_option autoImplicit false

namespace SC

open Spec MeasureTheory

/-- The profiles of fields 1-5 keep one of the two pivots. -/
theorem profile_labels {bal : Bool → Except PyErr (ℝ × ℝ × (Fin 3 → ℝ))} {minY : ℝ} {rc : Bool}
    {theta : ℝ} {num : Fin 6 → ℤ} {ty : Fin 6 → Spacing} {planes : List (Fin 3 → ℝ)} {labels : List ℕ}
    (h : ultimateProfiles bal minY rc theta num ty = .ok (planes, labels)) {yn yp : ℝ} {s : Fin 3 → ℝ}
    (hb : bal false = .ok (yn, yp, s)) (hlt : yp < yn) {q : (Fin 3 → ℝ) × ℕ} (hq : q ∈ planes.zip labels) (hk : q.2 ≤ 5) :
    (∀ x, planeStrain q.1 (rotPt theta (x, yp)).1 (rotPt theta (x, yp)).2 = planeStrain s 0 yp) ∨
    ∀ x, planeStrain q.1 (rotPt theta (x, yn)).1 (rotPt theta (x, yn)).2 = planeStrain s 0 yn := by
  obtain ⟨f, F, hf, hF, hpl, hlab⟩ := ultimateProfiles_ok h
  have hlen := fun i => (sixFields_length hF i).1
  unfold fieldData at hf
  cases hy : bal true with
  | error e => rw [hy] at hf; cases hf
  | ok r =>
  rw [hy, hb] at hf
  simp only [Except.ok.injEq] at hf
  have f1 : f.y_n = yn := by rw [← hf]
  have f2 : f.y_p = yp := by rw [← hf]
  have f3 : f.eps_p_b = planeStrain s 0 yp := by rw [← hf]; simp [planeStrain]
  have f4 : f.eps_n_b = planeStrain s 0 yn := by rw [← hf]; simp [planeStrain]
  have hfin : (List.finRange 6) = [0, 1, 2, 3, 4, 5] := by decide
  have hz : planes.zip labels = (List.finRange 6).flatMap fun i =>
      ((F i).map (profilePlane f theta)).zip (List.replicate (num i).toNat (i.val + 1)) := by
    rw [hpl, hlab, hfin]
    simp only [List.ofFn_succ, List.ofFn_zero, List.flatten_cons, List.flatten_nil, List.flatMap_cons, List.flatMap_nil, List.append_nil,
      List.map_append]
    rw [List.zip_append (by simp [hlen]), List.zip_append (by simp [hlen]), List.zip_append (by simp [hlen]),
      List.zip_append (by simp [hlen]), List.zip_append (by simp [hlen])]
    rfl
  rw [hz] at hq
  obtain ⟨i, -, hi⟩ := List.mem_flatMap.1 hq
  have hm := List.of_mem_zip (a := q.1) (b := q.2) hi
  obtain ⟨p, hp, e⟩ := List.mem_map.1 hm.1
  have hi5 : i.val ≤ 4 := by
    have := (List.mem_replicate.1 hm.2).2
    omega
  have key : p.2 = f.eps_p_b ∨ p.1 = f.eps_n_b := by
    fin_cases i
    · exact Or.inl ((fieldPos_ok (hF 0)).2.2 p hp).1
    · exact Or.inl ((fieldPos_ok (hF 1)).2.2 p hp).1
    · exact Or.inr ((fieldNeg_ok (hF 2)).2.2 p hp).1
    · exact Or.inr ((fieldNeg_ok (hF 3)).2.2 p hp).1
    · exact Or.inr ((fieldNeg_ok (hF 4)).2.2 p hp).1
    · simp at hi5
  have hlt' : f.y_p < f.y_n := by rw [f1, f2]; exact hlt
  rcases key with k | k
  · left
    intro x
    rw [← e, ← f2, profilePlane_at f theta p x _ hlt', sub_self, zero_div, mul_zero, add_zero, k, f3, f2]
  · right
    intro x
    rw [← e, ← f1, profilePlane_at f theta p x _ hlt', div_self (by linarith), mul_one, add_sub_cancel, k, f4, f1]

/-- A profile as a plane about the inclined axis. -/
theorem profile_plane {bal : Bool → Except PyErr (ℝ × ℝ × (Fin 3 → ℝ))} {minY : ℝ} {rc : Bool} {theta : ℝ}
    {num : Fin 6 → ℤ} {ty : Fin 6 → Spacing} {planes : List (Fin 3 → ℝ)} {labels : List ℕ}
    (h : ultimateProfiles bal minY rc theta num ty = .ok (planes, labels)) {v : Fin 3 → ℝ} (hv : v ∈ planes) :
    v = planeThrough theta 0 (v 0) (v 1 * Real.cos theta + v 2 * Real.sin theta) := by
  have hp := profile_parallel h hv
  have hsq := Real.sin_sq_add_cos_sq theta
  rw [planeThrough_curvature]
  funext i
  fin_cases i
  · rfl
  · simp only [Fin.mk_one, Matrix.cons_val]
    linear_combination (-v 1) * hsq + Real.sin theta * hp
  · simp only [Fin.reduceFinMk, Matrix.cons_val]
    linear_combination (-v 2) * hsq - Real.cos theta * hp

/-- The profiles of an ordinary section are admissible, and those that keep a pivot are at a limit strain. -/
theorem OrdinaryRC.profiles {split : Polygon → ℝ → ℝ → ShapelyResult} {ms th ecu eu H : ℝ} {parts : List ConcretePart} {bars : List Bar}
    (h : OrdinaryRC th parts bars ecu eu H) (hok : ∀ p ∈ parts, p.Ok split th) {rc : Bool} {num : Fin 6 → ℤ} {ty : Fin 6 → Spacing}
    {planes : List (Fin 3 → ℝ)} {labels : List ℕ}
    (hprof : ultimateProfiles ((sectionEngine split (parts.map ConcretePart.solid) bars ms).balanced (-th))
      (sectionMinY (parts.map ConcretePart.polygon) (-th)) rc th num ty = .ok (planes, labels)) {yn yp a b c d : ℝ}
    (hord : Ordinary (sectionEngine split (parts.map ConcretePart.solid) bars ms).balanced parts th yn yp a b c d) :
    (∀ v ∈ planes, v 1 * Real.cos th + v 2 * Real.sin th ≤ 0 ∧ (concreteSection parts bars).Admissible v) ∧
    ∀ q ∈ planes.zip labels, q.2 ≤ 5 → (concreteSection parts bars).AtLimit q.1 := by
  have hne : ∀ p ∈ parts, p.polygon.ext ≠ [] := fun p hp => concrete_ne hok _ (List.mem_map_of_mem hp)
  obtain ⟨yn1, yp1, st, hb, e1, e2, hst2, hs1, hs1', ⟨bp, hbp, ey⟩, ⟨kn, hkn, eyn⟩, hgov⟩ := h.balanced (split := split) (ms := ms) hne
  obtain ⟨s, hb', ea, eb⟩ := hord.ultimate
  rw [hb] at hb'
  simp only [Except.ok.injEq, Prod.mk.injEq] at hb'
  obtain ⟨rfl, rfl, rfl⟩ := hb'
  have ha : a = -ecu := by rw [ea, e2]
  have hbb : b = eu := by rw [eb, e1]
  obtain ⟨yn', yp', s', hy, ec, ed⟩ := hord.yielding
  obtain ⟨o1, o2, o3, o4⟩ := hord.order
  have hlt := hord.below
  have hecu := h.ecu_range
  have heu := h.eu_range
  have hH := h.size
  have bnd := C38_bounds_partial _ _ rc th num ty planes labels hprof yn1 yp1 yn' yp' a b c d st s' hb hy hlt
    ea eb ec ed o1 o2 o3 o4 hord.lowest _ rfl hord.pivot hord.resolved
  have abv := profiles_above _ _ rc th num ty planes labels hprof yn1 yp1 yn' yp' a b c d st s' hb hy hlt
    ea eb ec ed o1 o2 o3 o4 hord.lowest _ rfl hord.pivot hord.resolved
  -- extremes
  have hbars : ∀ r ∈ bars, yp1 ≤ height th (r.x, r.y) ∧ height th (r.x, r.y) ≤ yn1 := by
    have hcor := concrete_corners parts bars
    have hlim := h.lim
    have hgov' := hgov
    rw [← hcor] at hlim hgov'
    have had := search_admissible (chi := st 1) (y0 := yp1) (concrete_ne hok) hlim hb hgov' (Or.inl rfl) le_rfl hs1'
    rw [concrete_admissible] at had
    intro r hr
    constructor
    · have := (had.2 ⟨r.fibre Law.stress, (r.law.law.ult false).1, (r.law.law.ult false).2⟩ (by
        simp only [concreteSection, List.mem_map]; exact ⟨r, hr, rfl⟩)).2
      simp only [Bar.fibre, (h.rupture r hr).1, e1] at this
      have e := planeThrough_height th yp1 eu (st 1) (r.x, r.y)
      simp only at e
      rw [e] at this
      have hneg : st 1 < 0 := by
        simp only [planeStrain, mul_zero, sub_zero] at e1 e2
        norm_num at *
        nlinarith
      by_contra hcon
      push Not at hcon
      nlinarith
    · obtain ⟨p, hp, hin⟩ := h.inside r hr
      obtain ⟨w, hw, hle⟩ := OrdinaryRC.hull_height (th := th) hin
      exact hle.trans (hord.top p hp w hw)
  have hval : ∀ v ∈ planes, ∀ x : ℝ × ℝ, planeStrain v x.1 x.2 = v 0 + (v 1 * Real.cos th + v 2 * Real.sin th) * height th x := by
    intro v hv x
    have := planeThrough_at th (v 0) (v 1 * Real.cos th + v 2 * Real.sin th) x
    rw [← profile_plane hprof hv] at this
    exact this
  have hrot : ∀ x y : ℝ, height th (rotPt th (x, y)) = y := by
    intro x y
    have hsq := Real.sin_sq_add_cos_sq th
    simp only [height, rotPt]
    linear_combination y * hsq
  have hslope : ∀ v ∈ planes, v 1 * Real.cos th + v 2 * Real.sin th ≤ 0 := by
    intro v hv
    have k1 := bnd.1 v hv 0 yp1 le_rfl hlt.le
    have k2 := bnd.1 v hv 0 yn1 hlt.le le_rfl
    have k3 := bnd.2 v hv 0
    simp only [hval v hv, hrot] at k1 k2 k3
    generalize v 1 * Real.cos th + v 2 * Real.sin th = k at *
    by_contra hk
    push Not at hk
    rcases k3 with k3 | k3 | ⟨-, k3, k4⟩
    · nlinarith
    · nlinarith
    · have hnb : a < 0 := by linarith
      have h1 : c / a ≤ 1 := by rw [div_le_one_of_neg hnb]; exact o1
      rcases h1.eq_or_lt with h1 | h1
      · rw [h1, one_mul, add_sub_cancel] at k3
        rw [div_eq_one_iff_eq hnb.ne] at h1
        nlinarith
      · have hm := hord.lowest
        have h2 := mul_pos hk (mul_pos (sub_pos.2 h1) (sub_pos.2 (hm.trans_lt hlt)))
        nlinarith
  refine ⟨fun v hv => ⟨hslope v hv, ?_⟩, fun q hq hk => ?_⟩
  · refine ⟨fun P hP x hx => ?_, fun r hr => ?_⟩
    · simp only [concreteSection, List.mem_map] at hP
      obtain ⟨p, hp, rfl⟩ := hP
      simp only [part_ult, h.crushing p hp]
      refine plane_hull (P := {w | w ∈ p.polygon.ext}) (fun w hw => ?_) x hx
      have l1 := (abv v hv).1 (rotPt (-th) w).1 (rotPt (-th) w).2
          (by rw [rotPt_height]; exact minY_le _ th (List.mem_map_of_mem hp) hw)
          (by rw [rotPt_height]; exact hord.top p hp w hw)
      rw [Prod.mk.eta, rotPt_add, add_neg_cancel, rotPt_zero] at l1
      refine ⟨by rw [← ha]; exact l1, ?_⟩
      have k1 := bnd.1 v hv 0 yp1 le_rfl hlt.le
      have k2 := bnd.1 v hv 0 yn1 hlt.le le_rfl
      simp only [hval v hv, hrot] at k1 k2 ⊢
      have hs := hslope v hv
      obtain ⟨b0, hb0, p0, hp0, v0, hv0, hdep⟩ := h.depth
      have d1 := (hbars b0 hb0).1
      have d2 := hord.top p0 hp0 v0 hv0
      have d3 := h.span _ (bar_corner hbp) _ (h.concrete_corner hp hw)
      simp only [ey] at d3
      generalize v 1 * Real.cos th + v 2 * Real.sin th = k at *
      have m1 : -k * (yn1 - yp1) ≤ ecu + eu := by linarith [ha, hbb]
      have m2 : -k * (yp1 - height th w) ≤ -k * H := mul_le_mul_of_nonneg_left d3 (by linarith)
      have m3 : -k * H ≤ -k * (1000 * (yn1 - yp1)) := mul_le_mul_of_nonneg_left (by linarith) (by linarith)
      norm_num at *
      linarith
    · simp only [concreteSection, List.mem_map] at hr
      obtain ⟨b', hb', rfl⟩ := hr
      have l1 := bnd.1 v hv (rotPt (-th) (b'.x, b'.y)).1 (rotPt (-th) (b'.x, b'.y)).2
          (by rw [rotPt_height]; exact (hbars b' hb').1)
          (by rw [rotPt_height]; exact (hbars b' hb').2)
      rw [Prod.mk.eta, rotPt_add, add_neg_cancel, rotPt_zero] at l1
      have := h.rupture b' hb'
      simp only [Bar.fibre, this.1]
      simp only at l1
      exact ⟨by linarith [this.2, l1.1], by linarith [l1.2]⟩
  · have hv : q.1 ∈ planes := (List.of_mem_zip (a := q.1) (b := q.2) hq).1
    rcases profile_labels hprof hb hlt hq hk with hl | hl
    · refine ⟨_, bar_corner hbp, Or.inr ?_⟩
      have := hl 0
      rw [hval _ hv, hrot, e1] at this
      simp only [hval _ hv (bp.x, bp.y), ey, (h.rupture bp hbp).1]
      exact this
    · have := hl 0
      rw [hval _ hv, hrot, e2] at this
      have hcorner : ∃ p ∈ parts, ∃ w ∈ p.polygon.ext, height th w = yn1 := by
        rcases h.corner_cases hkn with ⟨p, hp, hw, ek⟩ | ⟨b', hb', k1, -, -⟩
        · exact ⟨p, hp, _, hw, eyn⟩
        · obtain ⟨p, hp, hin⟩ := h.inside b' hb'
          obtain ⟨w, hw, hle⟩ := OrdinaryRC.hull_height (th := th) hin
          rw [← k1, eyn] at hle
          exact ⟨p, hp, w, hw, le_antisymm (hord.top p hp w hw) hle⟩
      obtain ⟨p, hp, w, hw, ew⟩ := hcorner
      refine ⟨_, h.concrete_corner hp hw, Or.inl ?_⟩
      rw [hval _ hv, ew, this]

/-- **C74** (interaction domain, partial: sections for which C67 is proved). Every point of the N-M domain lies within the bending
strengths, and the points of fields 1 to 5 lie exactly on them, up to the difference of the axial forces times `R`: the domain and
`calculate_bending_strength` describe the same boundary. -/
theorem C74_domain_partial (split : Polygon → ℝ → ℝ → ShapelyResult) (ms : ℝ) {th ecu eu H R : ℝ} {parts : List ConcretePart}
    {bars : List Bar} (lu : Matrix (Fin 3) (Fin 3) ℝ → (Fin 3 → ℝ) → (Fin 3 → ℝ)) (ops ops' : List Op)
    (hops : Undisturbed (sectionEngine split (parts.map ConcretePart.solid) bars ms) lu ops .fresh)
    (hops' : Undisturbed (sectionEngine split (parts.map ConcretePart.solid) bars ms) lu ops' .fresh)
    (h : OrdinaryRC th parts bars ecu eu H) (hok : ∀ p ∈ parts, p.Ok split th)
    (hid : SameIds (bars.map Bar.law)) (hd : EqualSizes (groupBars bars)) (hA : ∀ b ∈ bars, 0 ≤ b.area)
    (hmono : ∀ b ∈ bars, MonotoneOn b.law.law.stress (Set.Icc (b.law.law.ult false).1 (b.law.law.ult false).2))
    (hR : ∀ p ∈ parts, ∀ v ∈ p.polygon.ext, |height th v| ≤ R)
    (hs : ∀ p ∈ parts, p.Sound) (rc : Bool) (num : Fin 6 → ℤ) (ty : Fin 6 → Spacing) {planes : List (Fin 3 → ℝ)} {labels : List ℕ}
    (hprof : nmProfiles (sectionEngine split (parts.map ConcretePart.solid) bars ms).balanced
      (sectionMinY (parts.map ConcretePart.polygon)) rc th num ty false = .ok (planes, labels))
    {yn yp a b c d : ℝ}
    (hord : Ordinary (sectionEngine split (parts.map ConcretePart.solid) bars ms).balanced parts th yn yp a b c d)
    (hsplit : ∀ p ∈ parts, ∀ v : Fin 3 → ℝ, v 1 * Real.sin th = v 2 * Real.cos th → v 1 ≠ 0 ∨ v 2 ≠ 0 →
      SplitsExactly split (p.polygon.rotate (neutralAngle v)) (rotPt (neutralAngle v) '' p.region))
    (n : ℝ) (r : BendingResult)
    (hrun : (bendingStrength (sectionEngine split (parts.map ConcretePart.solid) bars ms) th n
      (history (sectionEngine split (parts.map ConcretePart.solid) bars ms) lu ops' .fresh)).2 = .ok r) :
    ∃ pts : List (Fin 3 → ℝ), pts.length = labels.length ∧
      (nmDomain (sectionEngine split (parts.map ConcretePart.solid) bars ms)
        ((nmProfiles (sectionEngine split (parts.map ConcretePart.solid) bars ms).balanced
          (sectionMinY (parts.map ConcretePart.polygon)) rc th num ty false).map Prod.fst)
        (history (sectionEngine split (parts.map ConcretePart.solid) bars ms) lu ops .fresh)).2 = .ok (pts.map .forces) ∧
      (∀ f ∈ pts, bendingMoment th f ≤ bendingMoment th ![r.n, r.m.1, r.m.2] + R * |f 0 - r.n|) ∧
      ∀ q ∈ pts.zip labels, q.2 ≤ 5 → |bendingMoment th q.1 - bendingMoment th ![r.n, r.m.1, r.m.2]| ≤ R * |q.1 0 - r.n| := by
  have hdom := C67_nm_partial split parts bars ms th lu ops hops hid hd hs rc num ty false hprof hord (by simp) (yn' := 0) (yp' := 0)
    (a' := 0) (b' := 0) (c' := 0) (d' := 0) hsplit
  have hult : ultimateProfiles ((sectionEngine split (parts.map ConcretePart.solid) bars ms).balanced (-th))
      (sectionMinY (parts.map ConcretePart.polygon) (-th)) rc th num ty = .ok (planes, labels) := by
    simp only [nmProfiles] at hprof
    cases h1 : ultimateProfiles ((sectionEngine split (parts.map ConcretePart.solid) bars ms).balanced (-th))
      (sectionMinY (parts.map ConcretePart.polygon) (-th)) rc th num ty with
    | error er => rw [h1] at hprof; cases hprof
    | ok q => 
      rw [h1] at hprof
      simpa using hprof
  obtain ⟨hadm, hlim⟩ := h.profiles hok hult hord
  have hne : ∀ p ∈ parts, p.polygon.ext ≠ [] := fun p hp => concrete_ne hok _ (List.mem_map_of_mem hp)
  obtain ⟨yn1, yp1, st, hb, -, -, -, -, -, -, -, hgov⟩ := h.balanced (split := split) (ms := ms) hne
  obtain ⟨C, -, hmain⟩ := C66_reinforced_concrete_partial split parts bars ms th lu hok hid hd h.lim h.flat hb hgov
  obtain ⟨⟨cu, hcu, e⟩, hf, -, had, -⟩ := hmain n ops' r hops' hrun
  have hpl : ![r.eps_a, r.chi.1, r.chi.2] = planeThrough th 0 r.eps_a cu := by rw [planeThrough_curvature, e]
  rw [hpl] at hf had
  have hle : ∀ v ∈ planes, bendingMoment th ((concreteSection parts bars).forces v) ≤
      bendingMoment th ![r.n, r.m.1, r.m.2] + R * |(concreteSection parts bars).forces v 0 - r.n| := by
    intro v hv
    have := profile_plane hult hv
    have ha := (hadm v hv).2
    rw [this] at ha ⊢
    exact C74_strength h hok hid hd hA hmono hR n ops' r hops' hrun _ _ ha
  refine ⟨planes.map (concreteSection parts bars).forces, ?_, ?_, ?_, ?_⟩
  · rw [List.length_map]
    exact (C38_count _ _ _ _ _ _ _ _ hult).2.2.2.1.symm
  · rw [hdom, List.map_map]; rfl
  · intro f hf
    obtain ⟨v, hv, rfl⟩ := List.mem_map.1 hf
    exact hle v hv
  · intro q hq hk
    rw [List.zip_map_left] at hq
    obtain ⟨w, hw, rfl⟩ := List.mem_map.1 hq
    simp only [Prod.map] at hk ⊢
    have hv : w.1 ∈ planes := (List.of_mem_zip (a := w.1) (b := w.2) hw).1
    have h1 := hle w.1 hv
    have hl := hlim w hw hk
    obtain ⟨hc, ha⟩ := hadm w.1 hv
    obtain ⟨hwi, hR0⟩ := h.within hok hR
    have hpl := profile_plane hult hv
    rw [hpl] at ha hl
    have h2 := ultimate_maximal (concrete_nonSoftening hok hA hmono) hwi hR0 ha (h.ultimate hok hmono hc ha hl) had
    rw [← hpl, hf] at h2
    simp only [Matrix.cons_val] at h2
    rw [abs_sub_comm] at h2
    rw [abs_le]
    constructor <;> linarith

end SC
