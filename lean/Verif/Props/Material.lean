import Verif.Model.Material
import Verif.Lemmas.Loop
import Verif.Props.LawsBounds

/-! # C15: materials created with an initial strain or stress -/

set_option autoImplicit false

namespace SC

open Spec

/-- The Newton loop for the initial stress stops after at most 100 steps, for every law and every
requested stress. -/
theorem C15_loop_stops (law : Law) (target : ℝ) :
    ∃ r k, pyWhile newtonCond (newtonBody law target) (newtonStart law target) = some (r, k) ∧
      k ≤ 100 := by
  have := pyWhile_terminates (cond := newtonCond) (body := newtonBody law target)
    (fun _ => True) (fun s => 100 - s.numIter) ?_ ?_ (s := newtonStart law target) trivial
  · simpa [newtonStart] using this
  · intro s s' _ hc hb
    simp only [newtonBody] at hb
    split_ifs at hb
    cases hb
    refine ⟨trivial, ?_⟩
    have := hc.2
    simp only
    omega
  · intro s _ hc
    have := hc.2
    omega

/-- Construction always stops: it returns a material or raises. -/
theorem C15_stops (density : ℝ) (e0 s0 : Option ℝ) (c : Option Bool) (law : Law) :
    ∃ r, Material.create density e0 s0 c law = some r := by
  unfold Material.create
  cases h : Material.init density e0 s0 c law with
  | error e => exact ⟨_, rfl⟩
  | ok m =>
    simp only
    unfold Material.applyInitialStrain
    cases m.initialStress with
    | none => exact ⟨_, rfl⟩
    | some t =>
      obtain ⟨r, k, hr, -⟩ := C15_loop_stops m.law t
      simp only [initialStrainFromStress, hr]
      exact ⟨_, rfl⟩

theorem initialStrainFromStress_ok {law : Law} {target e : ℝ}
    (h : initialStrainFromStress law target = some (.ok e)) : |target - law.stress e| ≤ 1e-12 := by
  unfold initialStrainFromStress at h
  simp only [Option.map_eq_some_iff] at h
  obtain ⟨r, hr, hm⟩ := h
  have hI := pyWhile_inv (fun s : NewtonState => s.dStress = target - law.stress s.strain)
    (s := newtonStart law target) ?_ rfl hr
  · rcases hI with ⟨s', h1, h2, -⟩ | ⟨s', e', h1, -⟩
    · rw [h1] at hm
      simp only at hm
      split_ifs at hm with hgt
      cases hm
      rw [← h2]
      exact not_lt.1 hgt
    · rw [h1] at hm
      cases hm
  · intro s s' _ _ hb
    simp only [newtonBody] at hb
    split_ifs at hb
    cases hb
    rfl

/-- **C15.** A material created with `initial_stress = σ` (for any law): if construction succeeds,
the strain it reports gives a stress of the original law within `1e-12` of `σ`, the material at
zero applied strain carries exactly that stress, it reports `initial_stress = σ`, and its ultimate
strains are those of the law measured from the initial strain; whatever `strain_compatibility`. -/
theorem C15_initial_stress (density σ : ℝ) (c : Option Bool) (law : Law) (m : Material)
    (h : Material.create density none (some σ) c law = some (.ok m)) :
    ∃ e, m.initialStrain = some e ∧ |σ - law.stress e| ≤ 1e-12 ∧ m.law.stress 0 = law.stress e ∧
      |m.law.stress 0 - σ| ≤ 1e-12 ∧ m.initialStress = some σ ∧ m.density = |density| ∧
      ∀ yl, m.law.ult yl = ((law.ult yl).1 - e, (law.ult yl).2 - e) := by
  simp only [Material.create, Material.init, Option.isSome_none, Bool.false_eq_true, false_and,
    if_false, Material.applyInitialStrain, Option.map_eq_some_iff] at h
  obtain ⟨r, hr, hm⟩ := h
  cases r with
  | error e => cases hm
  | ok e =>
    simp only [Except.ok.injEq] at hm
    have hb := initialStrainFromStress_ok hr
    subst hm
    have hz : (Material.wrap ⟨|density|, some e, some σ, c, law⟩).law.stress 0 = law.stress e := by
      cases hc : c.getD true <;>
        simp [Material.wrap, InitialStrain.law, InitialStrain.stress, InitialStrain.initialStress, hc]
    refine ⟨e, rfl, hb, hz, ?_, rfl, rfl, fun yl => rfl⟩
    rw [hz, abs_sub_comm]
    exact hb

/-- A material created with `initial_strain = e` (for any law) always succeeds, carries the law's
stress at `e` when unstrained, and reports exactly that stress. -/
theorem C15_initial_strain (density e : ℝ) (c : Option Bool) (law : Law) :
    ∃ m, Material.create density (some e) none c law = some (.ok m) ∧
      m.initialStrain = some e ∧ m.initialStress = some (law.stress e) ∧
      m.law.stress 0 = law.stress e := by
  refine ⟨_, rfl, rfl, rfl, ?_⟩
  cases hc : c.getD true <;>
    simp [Material.wrap, InitialStrain.law, InitialStrain.stress, InitialStrain.initialStress, hc]

/-- With an initial strain `e`, the stress of the material at strain `x` is that of its base law at `x + e` if it
deforms with the geometry, which is also the default, and stays at the initial stress if it does not. -/
theorem C15_compat (density e : ℝ) (c : Option Bool) (law : Law) (m : Material)
    (h : Material.create density (some e) none c law = some (.ok m)) (x : ℝ) :
    (c ≠ some false → m.law.stress x = law.stress (x + e)) ∧ (c = some false → m.law.stress x = law.stress e) := by
  have : Material.create density (some e) none c law = some (.ok (Material.wrap ⟨|density|, some e, none, c, law⟩)) := rfl
  rw [this] at h
  simp only [Option.some.injEq, Except.ok.injEq] at h
  subst h
  constructor
  · intro hc
    have : c.getD true = true := by
      rcases c with _ | _ | _ <;> simp_all
    simp [Material.wrap, InitialStrain.law, InitialStrain.stress, this]
  · rintro rfl
    simp [Material.wrap, InitialStrain.law, InitialStrain.stress, InitialStrain.initialStress]

/-- Without initial strain or stress the law is left as it is. -/
theorem C15_none (density : ℝ) (c : Option Bool) (law : Law) :
    Material.create density none none c law =
      some (.ok ⟨|density|, none, none, c, law⟩) := rfl

/-- With both given, construction raises `ValueError`, whatever the law. -/
theorem C15_both_rejected (density e σ : ℝ) (c : Option Bool) (law : Law) :
    Material.create density (some e) (some σ) c law = some (.error .valueError) := rfl

/-- An unattainable stress is never accepted: if the law stays further than `1e-12` from the
request, construction raises (`ValueError` for a vanishing tangent, else `RuntimeError`). -/
theorem C15_unattainable (density σ : ℝ) (c : Option Bool) (law : Law)
    (hfar : ∀ e, 1e-12 < |σ - law.stress e|) :
    Material.create density none (some σ) c law = some (.error .valueError) ∨
    Material.create density none (some σ) c law = some (.error .runtimeError) := by
  have hr : initialStrainFromStress law σ = some (.error .valueError) ∨
      initialStrainFromStress law σ = some (.error .runtimeError) := by
    obtain ⟨r, k, hk, -⟩ := C15_loop_stops law σ
    have hI := pyWhile_inv (fun s : NewtonState => s.dStress = σ - law.stress s.strain)
      (s := newtonStart law σ) ?_ rfl hk
    · rcases hI with ⟨s', h1, h2, -⟩ | ⟨s', e', h1, _, _, h3⟩
      · right
        have h4 := hfar s'.strain
        rw [← h2] at h4
        simp [initialStrainFromStress, hk] at *
        rw [h1]
        simp [h4]
      · left
        simp only [newtonBody] at h3
        split_ifs at h3
        cases h3
        simp [initialStrainFromStress, hk] at *
        rw [h1]
    · intro s s' _ _ hb
      simp only [newtonBody] at hb
      split_ifs at hb
      cases hb
      rfl
  rcases hr with hr | hr
  · left; simp [Material.create, Material.init, Material.applyInitialStrain, hr]
  · right; simp [Material.create, Material.init, Material.applyInitialStrain, hr]

/-- On a law that is linear with slope `E ≠ 0` at the origin and at `σ/E`, the Newton iteration
takes one step and finds `σ/E` exactly. -/
theorem C15_one_step (law : Law) (σ E : ℝ) (hE : E ≠ 0) (h0 : law.stress 0 = 0)
    (ht : law.tangent 0 = E) (hs : law.stress (σ / E) = σ) (hσ : 1e-12 < |σ|) :
    initialStrainFromStress law σ = some (.ok (σ / E)) := by
  have hb : newtonBody law σ (newtonStart law σ) = .ok ⟨σ / E, 0, 1⟩ := by
    simp [newtonBody, newtonStart, ht, hE, h0, hs]
  have hc : newtonCond (newtonStart law σ) := by
    simp only [newtonCond, newtonStart, h0, sub_zero]
    exact ⟨hσ, by norm_num⟩
  have hn : ¬ newtonCond ⟨σ / E, 0, 1⟩ := by
    simp only [newtonCond, abs_zero]
    norm_num
  simp only [initialStrainFromStress, pyWhile_step hc hb, pyWhile_stop hn]
  norm_num

/-- `ElasticMaterial` with any non-zero modulus accepts every stress above the tolerance. -/
theorem C15_elastic (l : Elastic) (hE : l.E ≠ 0) (σ density : ℝ) (c : Option Bool)
    (hσ : 1e-12 < |σ|) :
    ∃ m, Material.create density none (some σ) c l.law = some (.ok m) ∧
      m.initialStrain = some (σ / l.E) ∧ m.law.stress 0 = σ := by
  have h := C15_one_step l.law σ l.E hE (by simp [Elastic.law, Elastic.stress]) rfl
    (by simp [Elastic.law, Elastic.stress]; field_simp) hσ
  refine ⟨Material.wrap ⟨|density|, some (σ / l.E), some σ, c, l.law⟩,
    by simp [Material.create, Material.init, Material.applyInitialStrain, h], rfl, ?_⟩
  cases hc : c.getD true <;>
    simp [Material.wrap, InitialStrain.law, InitialStrain.stress, InitialStrain.initialStress, hc,
      Elastic.law, Elastic.stress] <;> field_simp

/-- A steel law never accepts an initial stress above its strength (the stress at its ultimate
strain): the material is not created with a stress it cannot carry. -/
theorem C15_steel_rejected {l : ElasticPlastic} {u : ℝ} (hl : EPOk l u) (σ density : ℝ)
    (c : Option Bool) (hσ : l.fy + l.Eh * (u - l.fy / l.E) + 1e-12 < |σ|) (m : Material) :
    Material.create density none (some σ) c l.law ≠ some (.ok m) := by
  intro h
  obtain ⟨e, -, h2, -⟩ := C15_initial_stress _ _ _ _ _ h
  have := abs_sub_abs_le_abs_sub σ (l.law.stress e)
  have : |l.law.stress e| ≤ _ := C11_bounded hl e
  linarith

theorem clear_of_lt {e u : ℝ} (hu : 2e-6 ≤ u) (h0 : 0 ≤ e) (h1 : e + (1e-6 + 1e-5 * u) < u) :
    Clear e u ∧ Clear e (-u) := by
  unfold Clear
  rw [abs_neg, abs_of_pos (by linarith : 0 < u), abs_of_neg (by linarith), abs_of_pos (by linarith)]
  constructor <;> linarith

/-- Prestressing steel, elastic range: any stress `0 < σ <= fy` is reached exactly. -/
theorem C15_steel_elastic {l : ElasticPlastic} {u : ℝ} (hl : EPOk l u) (σ : ℝ)
    (hσ : 1e-12 < σ) (hy : σ ≤ l.fy) (hc : σ / l.E + (1e-6 + 1e-5 * u) < u) :
    initialStrainFromStress l.law σ = some (.ok (σ / l.E)) := by
  have hE := hl.E
  have hp : 0 ≤ σ / l.E := div_nonneg (by linarith) hE.le
  have hs0 : 0 ≤ l.fy / l.E := div_nonneg hl.fy hE.le
  have c0 := clear_of_lt hl.hu le_rfl (by linarith : (0:ℝ) + (1e-6 + 1e-5 * u) < u)
  have c1 := clear_of_lt hl.hu hp hc
  have hu := hl.hu
  refine C15_one_step l.law σ l.E hE.ne' ?_ ?_ ?_ ?_
  · have := (C11_values hl c0.1 c0.2).1 le_rfl hs0
    simpa [ElasticPlastic.law] using this
  · simp only [ElasticPlastic.law, ElasticPlastic.tangent, ElasticPlastic.beyond, hl.su]
    have hsy : l.eps_sy = l.fy / l.E := rfl
    rw [if_neg (by push Not; constructor <;> linarith), if_pos ⟨by linarith, by linarith⟩]
  · have := (C11_values hl c1.1 c1.2).1 hp (by gcongr)
    simp only [ElasticPlastic.law, this]
    field_simp
  · rwa [abs_of_pos (by linarith)]

/-- Prestressing steel, hardening range: any stress above `fy` and below the strength is accepted
(in at most two Newton steps). -/
theorem C15_steel_hardening {l : ElasticPlastic} {u : ℝ} (hl : EPOk l u) (hh : 0 < l.Eh)
    (hhE : l.Eh ≤ l.E) (σ : ℝ) (hfy : 1e-12 < l.fy) (hy : l.fy < σ)
    (hc : l.fy / l.E + (σ - l.fy) / l.Eh + (1e-6 + 1e-5 * u) < u) :
    ∃ e, initialStrainFromStress l.law σ = some (.ok e) ∧ |l.law.stress e - σ| ≤ 1e-12 := by
  suffices H : ∃ e, initialStrainFromStress l.law σ = some (.ok e) by
    obtain ⟨e, he⟩ := H
    exact ⟨e, he, by rw [abs_sub_comm]; exact initialStrainFromStress_ok he⟩
  have hE := hl.E
  have hu := hl.hu
  have hs0 : 0 ≤ l.fy / l.E := div_nonneg hl.fy hE.le
  have hd : (σ - l.fy) / l.E ≤ (σ - l.fy) / l.Eh := by
    apply div_le_div_of_nonneg_left _ hh hhE
    linarith
  have hd0 : 0 < (σ - l.fy) / l.E := div_pos (by linarith) hE
  have hsum : σ / l.E = l.fy / l.E + (σ - l.fy) / l.E := by ring
  have c0 := clear_of_lt hl.hu le_rfl (by linarith : (0:ℝ) + (1e-6 + 1e-5 * u) < u)
  have c1 := clear_of_lt hl.hu (by linarith : 0 ≤ σ / l.E) (by linarith)
  have c2 := clear_of_lt hl.hu (by linarith : 0 ≤ l.fy / l.E + (σ - l.fy) / l.Eh) hc
  have s0 : l.law.stress 0 = 0 := by
    have := (C11_values hl c0.1 c0.2).1 le_rfl hs0
    simpa [ElasticPlastic.law] using this
  have s1 : l.law.stress (σ / l.E) = l.fy + l.Eh * (σ / l.E - l.fy / l.E) :=
    (C11_values hl c1.1 c1.2).2.1 (by linarith) (by linarith)
  have s2 : l.law.stress (l.fy / l.E + (σ - l.fy) / l.Eh) = σ := by
    have := (C11_values hl c2.1 c2.2).2.1 (by linarith) (by linarith)
    simp only [ElasticPlastic.law, this]
    field_simp
    ring
  have t0 : l.law.tangent 0 = l.E := by
    simp only [ElasticPlastic.law, ElasticPlastic.tangent, ElasticPlastic.beyond, hl.su]
    have hsy : l.eps_sy = l.fy / l.E := rfl
    rw [if_neg (by push Not; constructor <;> linarith), if_pos ⟨by linarith, by linarith⟩]
  have t1 : l.law.tangent (σ / l.E) = l.Eh := by
    simp only [ElasticPlastic.law, ElasticPlastic.tangent, ElasticPlastic.beyond, hl.su]
    have hsy : l.eps_sy = l.fy / l.E := rfl
    rw [if_neg (by push Not; constructor <;> linarith), if_neg]
    push Not
    intro _
    linarith
  have hb0 : newtonBody l.law σ (newtonStart l.law σ)
      = .ok ⟨σ / l.E, σ - l.law.stress (σ / l.E), 1⟩ := by
    simp [newtonBody, newtonStart, t0, hE.ne', s0]
  have hc0 : newtonCond (newtonStart l.law σ) := by
    simp only [newtonCond, newtonStart, s0, sub_zero]
    refine ⟨?_, by norm_num⟩
    rw [abs_of_pos (by linarith)]
    linarith
  by_cases hc1 : newtonCond ⟨σ / l.E, σ - l.law.stress (σ / l.E), 1⟩
  · have hx : σ / l.E + (σ - l.law.stress (σ / l.E)) / l.Eh = l.fy / l.E + (σ - l.fy) / l.Eh := by
      rw [s1]; field_simp; ring
    have hb1 : newtonBody l.law σ ⟨σ / l.E, σ - l.law.stress (σ / l.E), 1⟩
        = .ok ⟨l.fy / l.E + (σ - l.fy) / l.Eh, 0, 2⟩ := by
      simp only [newtonBody, t1]
      rw [if_neg hh.ne', hx, s2]
      simp
    have hn : ¬ newtonCond ⟨l.fy / l.E + (σ - l.fy) / l.Eh, 0, 2⟩ := by
      simp only [newtonCond, abs_zero]
      norm_num
    refine ⟨l.fy / l.E + (σ - l.fy) / l.Eh, ?_⟩
    simp only [initialStrainFromStress, pyWhile_step hc0 hb0, pyWhile_step hc1 hb1, pyWhile_stop hn]
    norm_num
  · have hle : ¬ |σ - l.law.stress (σ / l.E)| > 1e-12 := by
      simp only [newtonCond, not_and_or] at hc1
      rcases hc1 with h | h
      · exact h
      · norm_num at h
    refine ⟨σ / l.E, ?_⟩
    simp only [initialStrainFromStress, pyWhile_step hc0 hb0, pyWhile_stop hc1, Option.map_some,
      if_neg hle]

/-- A typical prestressing steel meets the hypotheses: `E = 195000`, `fpy = 1400`, hardening to
`0.02`, tensioned to 1450. -/
example : ∃ e, initialStrainFromStress (ElasticPlastic.law ⟨195000, 1400, 10000, some 0.02⟩) 1450
    = some (.ok e) ∧
      |(ElasticPlastic.law ⟨195000, 1400, 10000, some 0.02⟩).stress e - 1450| ≤ 1e-12 :=
  C15_steel_hardening (u := 0.02)
    ⟨by norm_num, by norm_num, by norm_num, rfl, by norm_num, by norm_num⟩
    (by norm_num) (by norm_num) 1450 (by norm_num) (by norm_num) (by norm_num)

example : ∃ m, Material.create 7850 none (some 1000) none (Elastic.law ⟨200000, none⟩) = some (.ok m)
    ∧ m.initialStrain = some 0.005 := by
  obtain ⟨m, h1, h2, -⟩ := C15_elastic ⟨200000, none⟩ (by norm_num) 1000 7850 none
    (by norm_num)
  refine ⟨m, h1, ?_⟩
  rw [h2]
  norm_num

end SC
