import Verif.Lemmas.LawsBounds

/-!
# C10: `get_tangent` is the derivative of `get_stress`

In the interior of every branch, away from the tolerance bands around the limits.
-/

set_option autoImplicit false

namespace SC

open Classical Spec Filter Topology

theorem C10_elastic (l : Elastic) (e : ℝ) : HasDerivAt l.stress (l.tangent e) e := by
  have h : HasDerivAt (fun y => l.E * y) l.E e := by simpa using (hasDerivAt_id e).const_mul l.E
  exact h

/-- Elastic-plastic law with an ultimate strain: every strain other than yield, and clear of the
ultimate strains. -/
theorem C10_elasticplastic (l : ElasticPlastic) (hE : 0 < l.E) (hfy : 0 ≤ l.fy) (hEh : 0 ≤ l.Eh)
    {e : ℝ} (hy : |e| ≠ l.fy / l.E) (h1 : Clear e (l.ult false).1) (h2 : Clear e (l.ult false).2) :
    HasDerivAt l.stress (l.tangent e) e := by
  have hs0 : 0 ≤ l.eps_sy := div_nonneg hfy hE.le
  change |e| ≠ l.eps_sy at hy
  -- local formula
  by_cases hb : l.beyond e
  · have ht : l.tangent e = 0 := by simp [ElasticPlastic.tangent, hb]
    rw [ht]
    refine hasDerivAt_snapped (f := fun _ => 0) h1 h2 (hasDerivAt_const e 0) ?_
    cases hu : l.eps_su with
    | none => simp [ElasticPlastic.beyond, hu] at hb
    | some u =>
      have hb' : ∀ᶠ x in 𝓝 e, l.beyond x := by
        simp only [ElasticPlastic.beyond, hu] at hb ⊢
        rcases hb with hb | hb
        · filter_upwards [lt_mem_nhds hb] with x hx using .inl hx
        · filter_upwards [gt_mem_nhds hb] with x hx using .inr hx
      filter_upwards [hb'] with x hx
      simp [ElasticPlastic.core, hx]
  · have hb' : ∀ᶠ x in 𝓝 e, ¬ l.beyond x := by
      cases hu : l.eps_su with
      | none => simp [ElasticPlastic.beyond, hu]
      | some u =>
        simp only [ElasticPlastic.beyond, hu] at hb ⊢
        push Not at hb
        simp only [ElasticPlastic.ult, hu, Bool.false_eq_true, if_false] at h1 h2
        have e1 : e < u := lt_of_le_of_ne hb.1 (by
          rintro rfl; unfold Clear at h2; simp at h2; nlinarith [abs_nonneg e])
        have e2 : -u < e := lt_of_le_of_ne hb.2 (by
          rintro rfl; unfold Clear at h1; simp at h1; nlinarith [abs_nonneg u])
        filter_upwards [lt_mem_nhds e2, gt_mem_nhds e1] with x a b
        push Not; exact ⟨b.le, a.le⟩
    rcases lt_or_gt_of_ne hy with hlt | hgt
    · have habs := abs_lt.1 hlt
      have ht : l.tangent e = l.E := by
        simp [ElasticPlastic.tangent, hb, habs.1.le, habs.2.le]
      rw [ht]
      refine hasDerivAt_snapped (f := fun x => l.E * x) h1 h2
        (by simpa using (hasDerivAt_id e).const_mul l.E) ?_
      filter_upwards [hb', lt_mem_nhds habs.1, gt_mem_nhds habs.2] with x hx a b
      rw [l.core_clamp hE hfy hEh hx, min_eq_left b.le, max_eq_right a.le]; ring
    · have ht : l.tangent e = l.Eh := by
        have : ¬ (-l.eps_sy ≤ e ∧ e ≤ l.eps_sy) := by
          rintro ⟨a, b⟩; exact absurd (abs_le.2 ⟨a, b⟩) (not_le.2 hgt)
        simp only [ElasticPlastic.tangent, if_neg hb, if_neg this]
      rw [ht]
      rcases lt_abs.1 hgt with c | c
      · refine hasDerivAt_snapped (f := fun x => l.Eh * x + (l.E - l.Eh) * l.eps_sy) h1 h2
          (by simpa using ((hasDerivAt_id e).const_mul l.Eh).add_const ((l.E - l.Eh) * l.eps_sy)) ?_
        filter_upwards [hb', lt_mem_nhds c] with x hx a
        rw [l.core_clamp hE hfy hEh hx, min_eq_right a.le, max_eq_right (by linarith)]
      · have c' : e < -l.eps_sy := by linarith
        refine hasDerivAt_snapped (f := fun x => l.Eh * x + (l.E - l.Eh) * -l.eps_sy) h1 h2
          (by simpa using ((hasDerivAt_id e).const_mul l.Eh).add_const ((l.E - l.Eh) * -l.eps_sy)) ?_
        filter_upwards [hb', gt_mem_nhds c'] with x hx a
        rw [l.core_clamp hE hfy hEh hx, min_eq_left (by linarith), max_eq_left a.le]

example : let l : ElasticPlastic := ⟨200000, 500, 1000, some 0.025⟩
    |(0.01 : ℝ)| ≠ l.fy / l.E ∧ Clear 0.01 (l.ult false).1 ∧ Clear 0.01 (l.ult false).2 := by
  simp only [ElasticPlastic.ult, Clear, Bool.false_eq_true, if_false]
  norm_num [abs_of_nonneg, abs_of_neg]

/-- Parabola-rectangle law: every strain other than 0, the peak strain and the ultimate strain. -/
theorem C10_parabola_rectangle (fc e0 u n : ℝ) (h0 : 0 < |e0|) (hu : |e0| ≤ |u|) {e : ℝ}
    (hz : e ≠ 0) (hp : e ≠ -|e0|) (h1 : Clear e (-|u|)) (h2 : Clear e 100) :
    HasDerivAt (ParabolaRectangle.new fc e0 u n).stress ((ParabolaRectangle.new fc e0 u n).tangent e)
      e := by
  have key : ∀ (f : ℝ → ℝ) (d : ℝ), HasDerivAt f d e →
      (∀ᶠ x in 𝓝 e, (ParabolaRectangle.new fc e0 u n).core x = f x) →
      HasDerivAt (ParabolaRectangle.new fc e0 u n).stress d e := fun f d a b =>
    hasDerivAt_snapped (lim := (-|u|, 100)) h1 h2 a b
  rcases lt_or_gt_of_ne hz with hz | hz
  · rcases lt_or_gt_of_ne hp with hp | hp
    · have ht : (ParabolaRectangle.new fc e0 u n).tangent e = 0 := by
        have : ¬ -|e0| ≤ e := not_le.2 hp
        simp [ParabolaRectangle.tangent, ParabolaRectangle.new, this]
      rw [ht]
      have hue : e ≠ -|u| := by
        rintro rfl; unfold Clear at h1; simp at h1; nlinarith [abs_nonneg u]
      rcases lt_or_gt_of_ne hue with hue | hue
      · refine key (fun _ => 0) 0 (hasDerivAt_const e 0) ?_
        filter_upwards [gt_mem_nhds hue] with x hx
        have a : ¬ -|u| ≤ x := not_le.2 hx
        have b : ¬ -|e0| ≤ x := by linarith
        simp [ParabolaRectangle.core, ParabolaRectangle.new, a, b]
      · refine key (fun _ => -|fc|) 0 (hasDerivAt_const e _) ?_
        filter_upwards [lt_mem_nhds hue, gt_mem_nhds hp] with x hx hx'
        simp [ParabolaRectangle.core, ParabolaRectangle.new, hx.le, hx']
    · have ht : (ParabolaRectangle.new fc e0 u n).tangent e =
          n * -|fc| / -|e0| * (1 - e / -|e0|) ^ (n - 1) := by
        have c : -|e0| ≤ e ∧ e ≤ 0 := ⟨hp.le, hz.le⟩
        simp only [ParabolaRectangle.tangent, ParabolaRectangle.new, if_pos c]
      rw [ht]
      have hbase : 1 - e / -|e0| ≠ 0 := by
        have : e / -|e0| < 1 := by rw [div_neg, neg_lt, lt_div_iff₀ h0]; linarith
        linarith
      have d1 : HasDerivAt (fun x : ℝ => 1 - x / -|e0|) (-(1 / -|e0|)) e := by
        simpa using ((hasDerivAt_id e).div_const (-|e0|)).const_sub 1
      have d2 := d1.rpow_const (p := n) (.inl hbase)
      have d3 := (d2.const_sub 1).const_mul (-|fc|)
      refine key _ _ (d3.congr_deriv ?_) ?_
      · field_simp
      · filter_upwards [lt_mem_nhds hp, gt_mem_nhds hz] with x a b
        have c : ¬ x < -|e0| := not_lt.2 a.le
        simp [ParabolaRectangle.core, ParabolaRectangle.new, a.le, b.le, c]
  · have ht : (ParabolaRectangle.new fc e0 u n).tangent e = 0 := by
      have : ¬ e ≤ 0 := not_le.2 hz
      simp [ParabolaRectangle.tangent, this]
    rw [ht]
    refine key (fun _ => 0) 0 (hasDerivAt_const e 0) ?_
    filter_upwards [lt_mem_nhds hz] with x hx
    have a : ¬ x ≤ 0 := not_le.2 hx
    have b : ¬ x < -|e0| := by linarith
    simp [ParabolaRectangle.core, ParabolaRectangle.new, a, b]

example : (0 : ℝ) < |0.002| ∧ |(0.002 : ℝ)| ≤ |0.0035| ∧ Clear (-0.001) (-|(0.0035 : ℝ)|) ∧
    Clear (-0.001) 100 := by
  unfold Clear; norm_num [abs_of_nonneg, abs_of_neg]

/-- Bilinear law. -/
theorem C10_bilinear {fc ec u : ℝ} {l : Bilinear} (hl : Bilinear.new? fc ec (some u) = .ok l)
    (hu : |ec| ≤ |u|) {e : ℝ}
    (hz : e ≠ 0) (hp : e ≠ -|ec|) (h1 : Clear e (-|u|)) (h2 : Clear e 100) :
    HasDerivAt l.stress (l.tangent e) e := by
  unfold Bilinear.new? at hl
  by_cases h0 : ec = 0
  · simp [h0] at hl
  simp only [h0, if_false] at hl
  cases hl
  have hec : 0 < |ec| := abs_pos.2 h0
  have hE : (⟨-|fc|, -|ec|, -|u|⟩ : Bilinear).E = |fc| / |ec| := neg_div_neg_eq _ _
  have hEe : |fc| / |ec| * |ec| = |fc| := by field_simp
  have hE0 : 0 ≤ |fc| / |ec| := by positivity
  have key : ∀ (f : ℝ → ℝ) (d : ℝ), HasDerivAt f d e →
      (∀ᶠ x in 𝓝 e, Bilinear.core ⟨-|fc|, -|ec|, -|u|⟩ x = f x) →
      HasDerivAt (Bilinear.stress ⟨-|fc|, -|ec|, -|u|⟩) d e := fun f d a b =>
    hasDerivAt_snapped (lim := (-|u|, 100)) h1 h2 a b
  rcases lt_or_gt_of_ne hz with hz | hz
  · rcases lt_or_gt_of_ne hp with hp | hp
    · have ht : Bilinear.tangent ⟨-|fc|, -|ec|, -|u|⟩ e = 0 := by
        have : ¬ -|ec| < e := not_lt.2 hp.le
        simp [Bilinear.tangent, this]
      rw [ht]
      have hue : e ≠ -|u| := by
        rintro rfl; unfold Clear at h1; simp at h1; nlinarith [abs_nonneg u]
      rcases lt_or_gt_of_ne hue with hue | hue
      · refine key (fun _ => 0) 0 (hasDerivAt_const e 0) ?_
        filter_upwards [gt_mem_nhds hue] with x hx
        simp [Bilinear.core, hx]
      · refine key (fun _ => -|fc|) 0 (hasDerivAt_const e _) ?_
        filter_upwards [lt_mem_nhds hue, gt_mem_nhds hp] with x hx hx'
        have c : ¬ (x > 0 ∨ x < -|u|) := by push Not; constructor <;> linarith
        simp only [Bilinear.core, if_neg c, hE]
        apply max_eq_right
        nlinarith
    · have ht : Bilinear.tangent ⟨-|fc|, -|ec|, -|u|⟩ e = |fc| / |ec| := by
        rw [← hE]
        simp [Bilinear.tangent, hp, hz.le]
      rw [ht]
      refine key (fun x => |fc| / |ec| * x) _ (by simpa using (hasDerivAt_id e).const_mul (|fc| / |ec|)) ?_
      filter_upwards [lt_mem_nhds hp, gt_mem_nhds hz] with x a b
      have c : ¬ (x > 0 ∨ x < -|u|) := by push Not; constructor <;> linarith
      simp only [Bilinear.core, if_neg c, hE]
      apply max_eq_left
      nlinarith
  · have ht : Bilinear.tangent ⟨-|fc|, -|ec|, -|u|⟩ e = 0 := by
      have : ¬ e ≤ 0 := not_le.2 hz
      simp [Bilinear.tangent, this]
    rw [ht]
    refine key (fun _ => 0) 0 (hasDerivAt_const e 0) ?_
    filter_upwards [lt_mem_nhds hz] with x hx
    simp [Bilinear.core, hx]

/-- Sargin law, wherever its denominator does not vanish. -/
theorem C10_sargin (fc e1 u k : ℝ) (h0 : 0 < |e1|) {e : ℝ} (hz : e ≠ 0)
    (h1 : Clear e (-|u|)) (h2 : Clear e 100) (hd : (Sargin.new fc e1 u k).den e ≠ 0) :
    HasDerivAt (Sargin.new fc e1 u k).stress ((Sargin.new fc e1 u k).tangent e) e := by
  have key : ∀ (f : ℝ → ℝ) (d : ℝ), HasDerivAt f d e →
      (∀ᶠ x in 𝓝 e, (Sargin.new fc e1 u k).core x = f x) →
      HasDerivAt (Sargin.new fc e1 u k).stress d e := fun f d a b =>
    hasDerivAt_snapped (lim := (-|u|, 100)) h1 h2 a b
  have hue : e ≠ -|u| := by
    rintro rfl; unfold Clear at h1; simp at h1; nlinarith [abs_nonneg u]
  rcases lt_or_gt_of_ne hz with hz | hz
  · rcases lt_or_gt_of_ne hue with hue | hue
    · have ht : (Sargin.new fc e1 u k).tangent e = 0 := by simp [Sargin.tangent, hue]
      rw [ht]
      refine key (fun _ => 0) 0 (hasDerivAt_const e 0) ?_
      filter_upwards [gt_mem_nhds hue] with x hx
      simp [Sargin.core, hx]
    · have c : ¬ (e < -|u| ∨ e > 0) := by push Not; constructor <;> linarith
      have ht : (Sargin.new fc e1 u k).tangent e = -|fc| / -|e1| *
          ((2 - k) * (e / -|e1|) ^ 2 - 2 * (e / -|e1|) + k) / (1 + (k - 2) * (e / -|e1|)) ^ 2 := by
        simp only [Sargin.tangent, Sargin.new, if_neg c]
      rw [ht]
      have hd' : 1 + (k - 2) * (e / -|e1|) ≠ 0 := hd
      have he1 : -|e1| ≠ 0 := by linarith
      have d0 : HasDerivAt (fun x : ℝ => x / -|e1|) (1 / -|e1|) e := (hasDerivAt_id e).div_const _
      have dn : HasDerivAt (fun x : ℝ => -|fc| * (k * (x / -|e1|) - (x / -|e1|) ^ 2))
          (-|fc| * (k * (1 / -|e1|) - 2 * (e / -|e1|) * (1 / -|e1|))) e := by
        have := ((d0.const_mul k).sub (d0.pow 2)).const_mul (-|fc|)
        simpa using this
      have dd : HasDerivAt (fun x : ℝ => 1 + (k - 2) * (x / -|e1|)) ((k - 2) * (1 / -|e1|)) e :=
        (d0.const_mul (k - 2)).const_add 1
      refine key _ _ ((dn.div dd hd').congr_deriv ?_) ?_
      · congr 1
        generalize -|e1| = a at *
        field_simp
        ring
      · filter_upwards [lt_mem_nhds hue, gt_mem_nhds hz] with x a b
        have c : ¬ (x < -|u| ∨ x > 0) := by push Not; constructor <;> linarith
        simp only [Sargin.core, Sargin.new, if_neg c]
        rfl
  · have ht : (Sargin.new fc e1 u k).tangent e = 0 := by simp [Sargin.tangent, hz]
    rw [ht]
    refine key (fun _ => 0) 0 (hasDerivAt_const e 0) ?_
    filter_upwards [lt_mem_nhds hz] with x hx
    simp [Sargin.core, hx]

example : (Sargin.new 30 0.002 0.0035 2).den (-0.001) ≠ 0 := by
  norm_num [Sargin.den]

/-- Popovics law. -/
theorem C10_popovics (fc ec u Ec : ℝ) {l : Popovics} (hl : Popovics.new? fc ec u (some Ec) = .ok l)
    (hE : |fc| / |ec| < Ec) {e : ℝ} (hz : e ≠ 0) (hfc : 0 < |fc|)
    (h1 : Clear e (-|u|)) (h2 : Clear e 100) :
    HasDerivAt l.stress (l.tangent e) e := by
  unfold Popovics.new? at hl
  simp only [Option.getD_some] at hl
  split_ifs at hl with g1 g2 g3
  cases hl
  have hec : 0 < |ec| := lt_of_le_of_ne (abs_nonneg _) (by intro h; apply g2; rw [← h]; simp)
  rw [neg_div_neg_eq] at *
  have hn : 1 < Ec / (Ec - |fc| / |ec|) := by
    rw [lt_div_iff₀ (by linarith)]
    have : 0 < |fc| / |ec| := by positivity
    linarith
  generalize Ec / (Ec - |fc| / |ec|) = n at hn
  have hsn : snap (-|u|, 100) e = e := snap_of_clear h1 h2
  have key : ∀ (f : ℝ → ℝ) (d : ℝ), HasDerivAt f d e →
      (∀ᶠ x in 𝓝 e, Popovics.core ⟨-|fc|, -|ec|, -|u|, n⟩ x = f x) →
      HasDerivAt (Popovics.stress ⟨-|fc|, -|ec|, -|u|, n⟩) d e := fun f d a b =>
    hasDerivAt_snapped (lim := (-|u|, 100)) h1 h2 a b
  have htan : Popovics.tangent ⟨-|fc|, -|ec|, -|u|, n⟩ e = Popovics.tcore ⟨-|fc|, -|ec|, -|u|, n⟩ e := by
    simp only [Popovics.tangent, Popovics.ult, Bool.false_eq_true, if_false, hsn]
  rw [htan]
  have hue : e ≠ -|u| := by
    rintro rfl; unfold Clear at h1; simp at h1; nlinarith [abs_nonneg u]
  rcases lt_or_gt_of_ne hz with hz | hz
  · rcases lt_or_gt_of_ne hue with hue | hue
    · have ht : Popovics.tcore ⟨-|fc|, -|ec|, -|u|, n⟩ e = 0 := by simp [Popovics.tcore, hue]
      rw [ht]
      refine key (fun _ => 0) 0 (hasDerivAt_const e 0) ?_
      filter_upwards [gt_mem_nhds hue] with x hx
      simp [Popovics.core, hx]
    · have c : ¬ (e < -|u| ∨ e > 0) := by push Not; constructor <;> linarith
      have ht : Popovics.tcore ⟨-|fc|, -|ec|, -|u|, n⟩ e =
          (1 - (e / -|ec|) ^ n) / (n - 1 + (e / -|ec|) ^ n) ^ 2 * n * (n - 1) * -|fc| / -|ec| := by
        simp only [Popovics.tcore, if_neg c]
      rw [ht]
      have he1 : -|ec| ≠ 0 := by linarith
      have hx0 : 0 < e / -|ec| := div_pos_of_neg_of_neg hz (by linarith)
      have hd' : n - 1 + (e / -|ec|) ^ n ≠ 0 := by
        have := Real.rpow_nonneg hx0.le n; linarith
      have d0 : HasDerivAt (fun x : ℝ => x / -|ec|) (1 / -|ec|) e := (hasDerivAt_id e).div_const _
      have dn : HasDerivAt (fun x : ℝ => -|fc| * (x / -|ec|) * n) (-|fc| * (1 / -|ec|) * n) e :=
        (d0.const_mul (-|fc|)).mul_const n
      have dp := d0.rpow_const (p := n) (.inl hx0.ne')
      have dd := dp.const_add (n - 1)
      refine key _ _ ((dn.div dd hd').congr_deriv ?_) ?_
      · have hpow : (e / -|ec|) ^ n = (e / -|ec|) ^ (n - 1) * (e / -|ec|) := by
          rw [← Real.rpow_add_one hx0.ne']; congr 1; ring
        generalize e / -|ec| = x at *
        generalize -|ec| = a at *
        generalize hq : x ^ n = q at *
        generalize x ^ (n - 1) = r at *
        field_simp
        rw [hpow]; ring
      · filter_upwards [lt_mem_nhds hue, gt_mem_nhds hz] with x a b
        have c : ¬ (x < -|u| ∨ x > 0) := by push Not; constructor <;> linarith
        simp only [Popovics.core, if_neg c]
        rfl
  · have ht : Popovics.tcore ⟨-|fc|, -|ec|, -|u|, n⟩ e = 0 := by simp [Popovics.tcore, hz]
    rw [ht]
    refine key (fun _ => 0) 0 (hasDerivAt_const e 0) ?_
    filter_upwards [lt_mem_nhds hz] with x hx
    simp [Popovics.core, hx]

/-- The initial-strain wrapper with strain compatibility inherits the property. -/
theorem C10_initial_strain (l : InitialStrain) (hc : l.compat = true) {e : ℝ}
    (h : HasDerivAt l.wrapped.stress (l.wrapped.tangent (e + l.eps0)) (e + l.eps0)) :
    HasDerivAt l.stress (l.tangent e) e := by
  have h1 : l.stress = fun x => l.wrapped.stress (x + l.eps0) := by
    funext x; simp [InitialStrain.stress, hc]
  have h2 : l.tangent e = l.wrapped.tangent (e + l.eps0) := by simp [InitialStrain.tangent, hc]
  rw [h1, h2]
  exact HasDerivAt.comp_add_const e l.eps0 h

/-- Without strain compatibility the stress is constant, so its derivative is 0, while
`get_tangent` returns `1e-6` times the initial tangent of the wrapped law: the claim is false
there for every wrapped law with a non-zero initial tangent. -/
theorem C10_initial_strain_violated (l : InitialStrain) (hc : l.compat = false)
    (ht : l.wrapped.tangent 0 ≠ 0) (e : ℝ) :
    HasDerivAt l.stress 0 e ∧ ¬ HasDerivAt l.stress (l.tangent e) e := by
  have h1 : l.stress = fun _ => l.initialStress := by
    funext x; simp [InitialStrain.stress, hc]
  have h2 : l.tangent e = l.wrapped.tangent 0 * 1e-6 := by simp [InitialStrain.tangent, hc]
  have h0 : HasDerivAt l.stress 0 e := by rw [h1]; exact hasDerivAt_const e _
  refine ⟨h0, fun h => ?_⟩
  have := h.unique h0
  rw [h2] at this
  rcases mul_eq_zero.1 this with h | h
  · exact ht h
  · norm_num at h

end SC
