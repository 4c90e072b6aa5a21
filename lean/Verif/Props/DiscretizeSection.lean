import Verif.Props.Discretize
import Verif.Props.MarinSurfaces

/-!
# C65, section level: Marin integration of a surface whose law has no Marin expressions
-/

set_option autoImplicit false

namespace SC

open Spec MeasureTheory

/-- The polygon through the eleven points of `f` on `[-u, 0]`, zero elsewhere (no tolerance at the ends). -/
noncomputable def polygonal (f : ℝ → ℝ) (u e : ℝ) : ℝ := interp e (nodes f u) 0 0

/-- The Marin description of the discretised law is exact for the polygon, at every strain. -/
theorem polygonal_pieces (f : ℝ → ℝ) {u : ℝ} (hu : 0 < u) (e0 e1 : ℝ) (he : e1 ≠ 0) :
    ∃ rs, (UserDefined.marin ⟨nodes f u, -u, 0⟩ e0 e1).1.ranges = some rs ∧
      PiecesMatch (polygonal f u) e0 e1 (fun _ => True) rs
        (UserDefined.marin ⟨nodes f u, -u, 0⟩ e0 e1).1.coeffs := by
  have hs := nodes_increasing f hu
  have h2 : 2 ≤ (nodes f u).length := by simp [nodes]
  simp only [UserDefined.marin, if_neg he]
  refine ⟨_, rfl, (marinRanges_lengths e0 e1 (nodes f u)).1, (marinRanges_tiling _ hs).1, ?_, ?_⟩
  · intro rc hrc y _ hlo hhi
    obtain ⟨pre, p, q, post, hp, r1, r2⟩ := zip_marin e0 e1 (nodes f u) rc hrc
    rw [r1] at hlo hhi
    have hs' := hs
    rw [hp] at hs'
    rw [polygonal, hp, interp_segment pre p q post hs' hlo hhi, r2]
    simp only [evalPoly, chord]; ring
  · intro y _ hout
    unfold polygonal
    cases hp : nodes f u with
    | nil => rw [hp] at h2; simp at h2
    | cons p pts =>
      have hs' := hs
      rw [hp] at hs'
      rcases locate p pts (e0 + e1 * y) hs' with h | h | ⟨h, -⟩ | ⟨pre, a, b, post, hab, g1, g2⟩
      · exact interp_left p pts h 0 0
      · exact interp_right _ h 0 0
      · rw [hp, h] at h2; simp at h2
      · exfalso
        have := hout (a.1, b.1) (by rw [hp, hab]; exact mem_marinRanges _ _ _ _)
        simp only at this
        rcases this with h | h <;> linarith

theorem polygonal_chord (f : ℝ → ℝ) {u : ℝ} (hu : 0 < u) (i : ℕ) (hi : i < 10) (t : ℝ) (h0 : 0 ≤ t) (h1 : t ≤ 1) :
    polygonal f u (tenth u i + t * (u / 10)) = (1 - t) * f (tenth u i) + t * f (tenth u (i + 1)) := by
  obtain ⟨pre, post, hp⟩ := nodes_split f u i hi
  have hs := nodes_increasing f hu
  rw [hp] at hs
  rw [polygonal, hp, interp_segment pre _ _ post hs (show tenth u i ≤ _ by nlinarith)
    (show _ ≤ tenth u (i + 1) by rw [tenth_succ]; nlinarith)]
  simp only [chord]
  rw [tenth_succ, add_sub_cancel_left, add_sub_cancel_left]
  field_simp; ring

theorem polygonal_outside (f : ℝ → ℝ) {u e : ℝ} (hu : 0 < u) (h : e < -u ∨ 0 < e) : polygonal f u e = 0 := by
  rcases h with h | h
  · obtain ⟨p, pts, hp⟩ : ∃ p pts, nodes f u = p :: pts := by
      cases hn : nodes f u with
      | nil => simp [nodes] at hn
      | cons p pts => exact ⟨p, pts, rfl⟩
    have hmem : p ∈ nodes f u := by rw [hp]; exact List.mem_cons_self
    obtain ⟨i, hi, rfl⟩ := List.mem_map.1 hmem
    rw [polygonal, hp]
    exact interp_left _ pts (lt_of_lt_of_le h (tenth_mem hu (by have := List.mem_range.1 hi; omega)).1) 0 0
  · refine interp_right _ (fun p hp => ?_) 0 0
    obtain ⟨i, hi, rfl⟩ := List.mem_map.1 hp
    exact lt_of_le_of_lt (tenth_mem hu (by have := List.mem_range.1 hi; omega)).2 h

/-- The polygon against the law, away from the ultimate strain: chord errors only. -/
theorem polygonal_compare {f g : ℝ → ℝ} {u fc : ℝ} {S : Set ℝ} (hu : 2e-5 ≤ u) (hf : CompressionOnly f fc u)
    (hfg : ∀ e, f e = g (snap (-u, 100) e)) (hS : 0 ∈ S)
    (hch : ∀ i < 10, ∀ t, 0 ≤ t → t ≤ 1 →
      (1 - t) * g (tenth u i) + t * g (tenth u (i + 1)) - g (tenth u i + t * (u / 10)) ∈ S)
    {e : ℝ} (hc : Clear e (-u)) : polygonal f u e - f e ∈ S := by
  have hpos : 0 < u := by linarith
  have hnode : ∀ i ≤ 10, f (tenth u i) = g (tenth u i) := fun i hi => by rw [hfg, tenth_snap hu i hi]
  rcases lt_or_ge 0 e with h | h
  · rw [polygonal_outside f hpos (.inr h), hf.no_tension e h]; simpa using hS
  rcases lt_or_ge e (-u) with h' | h'
  · rw [polygonal_outside f hpos (.inl h'), hf.failed e h' hc]; simpa using hS
  have hfe : f e = g e := by rw [hfg, snap_of_clear hc (clear_hundred_of_nonpos h)]
  rw [hfe]
  obtain ⟨i, hi, t, h0, h1, rfl⟩ := tenth_cover hpos h' h
  rw [polygonal_chord f hpos i hi t h0 h1, hnode i (by omega), hnode (i + 1) (by omega)]
  exact hch i hi t h0 h1

theorem measurable_planeStrain (e : Fin 3 → ℝ) : Measurable fun x : ℝ × ℝ => planeStrain e x.1 x.2 := by
  unfold planeStrain; fun_prop

theorem integrable_law {f : ℝ → ℝ} {fc : ℝ} (hm : Measurable f) (hb : ∀ e, -fc ≤ f e ∧ f e ≤ 0) (e : Fin 3 → ℝ)
    {R : Set (ℝ × ℝ)} (hR : Bornology.IsBounded R) {w : ℝ × ℝ → ℝ} (hw : Continuous w) :
    IntegrableOn (fun x => f (planeStrain e x.1 x.2) * w x) R := by
  have hwi := continuous_integrableOn hw hR
  refine Integrable.bdd_mul (c := fc) hwi ((hm.comp (measurable_planeStrain e)).aestronglyMeasurable) ?_
  refine Filter.Eventually.of_forall fun x => ?_
  have := hb (planeStrain e x.1 x.2)
  rw [Real.norm_eq_abs, abs_le]
  constructor <;> linarith

theorem polygonal_bounded {f : ℝ → ℝ} {u fc : ℝ} (hu : 0 < u) (hf : CompressionOnly f fc u) (e : ℝ) :
    -fc ≤ polygonal f u e ∧ polygonal f u e ≤ 0 := by
  have hfc : 0 ≤ fc := by linarith [(hf.bounded 0).1, (hf.bounded 0).2]
  by_cases h : e < -u ∨ 0 < e
  · rw [polygonal_outside f hu h]; exact ⟨by linarith, le_rfl⟩
  · push Not at h
    obtain ⟨i, hi, t, h0, h1, rfl⟩ := tenth_cover hu h.1 h.2
    rw [polygonal_chord f hu i hi t h0 h1]
    have a := hf.bounded (tenth u i)
    have b := hf.bounded (tenth u (i + 1))
    constructor <;> nlinarith

theorem measurable_interpGo (pts : List (ℝ × ℝ)) (r : ℝ) : Measurable fun x => interpGo x r pts := by
  induction pts with
  | nil => exact measurable_const
  | cons p pts ih =>
    cases pts with
    | nil =>
      simp only [interpGo]
      exact Measurable.ite (measurableSet_singleton p.1) measurable_const measurable_const
    | cons q pts =>
      simp only [interpGo]
      exact Measurable.ite measurableSet_Iio (by fun_prop) ih

theorem measurable_polygonal (f : ℝ → ℝ) (u : ℝ) : Measurable (polygonal f u) := by
  unfold polygonal
  cases h : nodes f u with
  | nil => exact measurable_const
  | cons p pts =>
    simp only [interp]
    exact Measurable.ite measurableSet_Iio measurable_const (measurable_interpGo _ _)

/-- **C65** at section level.  A surface of any law without Marin expressions (compression-only, stress `f`, discretised as in
`C65_nodes`), with holes, and any bars, under a strain plane with curvature and strains clear of the ultimate strain: the Marin
integrator returns the exact resultants of the inscribed polygon plus the bars.  If the polygon differs from the law by at most `δ`,
the axial force is off by at most `δ` times the area and a moment by at most `δ` times the first absolute moment of the area; if
moreover the polygon is never stronger than the law, compression is not overestimated.  (Partial: equally large groups of bars, see
`C20_ragged_violated`; strains clear of the ultimate strain.) -/
theorem C65_section_partial (split : Polygon → ℝ → ℝ → ShapelyResult) {f : ℝ → ℝ} {u fc δ : ℝ} (hu : 2e-5 ≤ u)
    (hf : CompressionOnly f fc u) (hm : Measurable f)
    (hδ : ∀ e, Clear e (-u) → |polygonal f u e - f e| ≤ δ)
    (p : Polygon) (R : Set (ℝ × ℝ)) (henc : Encloses p.ext p.ints R) (bars : List Bar) (d : List Group)
    (hd : EqualSizes d) (e : Fin 3 → ℝ) (hg : e 1 ≠ 0 ∨ e 2 ≠ 0)
    (hsplit : SplitsExactly split (p.rotate (neutralAngle e)) (rotPt (neutralAngle e) '' R))
    (hok : ∀ x ∈ R, Clear (planeStrain e x.1 x.2) (-u)) :
    ∃ F : Fin 3 → ℝ,
      marinIntegrate split [Surf.ofMarin p (UserDefined.marin ⟨nodes f u, -u, 0⟩)
        (UserDefined.marinT ⟨nodes f u, -u, 0⟩)] bars e .stress (some d) =
        .ok (.forces (F + resultants (fibres Law.stress d) e), d) ∧
      F = regionResultants R (polygonal f u) e ∧
      |F 0 - regionResultants R f e 0| ≤ δ * areaMoment 0 0 R ∧
      |F 1 - regionResultants R f e 1| ≤ δ * ∫ x in R, |x.2| ∧
      |F 2 - regionResultants R f e 2| ≤ δ * ∫ x in R, |x.1| ∧
      ((∀ e, Clear e (-u) → f e ≤ polygonal f u e) → regionResultants R f e 0 ≤ F 0) := by
  have hpos : 0 < u := by linarith
  have hp := gradient_pos hg
  have hb := henc.bounded
  refine ⟨regionResultants R (polygonal f u) e, ?_, rfl, ?_⟩
  · have := C50_forces_partial split [⟨Surf.ofMarin p (UserDefined.marin ⟨nodes f u, -u, 0⟩)
        (UserDefined.marinT ⟨nodes f u, -u, 0⟩), R, polygonal f u⟩] bars d hd e (by
      intro s hs
      rw [List.mem_singleton.1 hs]
      obtain ⟨rs, hrs, hm⟩ := polygonal_pieces f hpos (e 0) (gradient e) hp.ne'
      exact (good_of_pieces split e hg p R henc hsplit _ _ (polygonal f u) (fun _ => True) (fun _ _ => trivial)
        (by intro a b hb; simp [UserDefined.marin, hb]) (by intro a b hb; simp [UserDefined.marinT, hb])).1
        ⟨rs, hrs, piecesMatch_interior hm⟩)
    simpa using this
  · have hdiff : ∀ (w : ℝ × ℝ → ℝ), Continuous w →
        (∫ x in R, polygonal f u (planeStrain e x.1 x.2) * w x) - (∫ x in R, f (planeStrain e x.1 x.2) * w x) =
          ∫ x in R, (polygonal f u (planeStrain e x.1 x.2) - f (planeStrain e x.1 x.2)) * w x := by
      intro w hw
      rw [← integral_sub (integrable_law (measurable_polygonal f u) (polygonal_bounded hpos hf) e hb hw)
        (integrable_law hm hf.bounded e hb hw)]
      congr 1; funext x; ring
    have hint : ∀ (w : ℝ × ℝ → ℝ), Continuous w → IntegrableOn
        (fun x => (polygonal f u (planeStrain e x.1 x.2) - f (planeStrain e x.1 x.2)) * w x) R := by
      intro w hw
      have := (integrable_law (measurable_polygonal f u) (polygonal_bounded hpos hf) e hb hw).sub
        (integrable_law hm hf.bounded e hb hw)
      refine this.congr (Filter.Eventually.of_forall fun x => ?_)
      simp only [Pi.sub_apply]; ring
    have habs : ∀ (w : ℝ × ℝ → ℝ), Continuous w →
        |∫ x in R, (polygonal f u (planeStrain e x.1 x.2) - f (planeStrain e x.1 x.2)) * w x| ≤
          δ * ∫ x in R, |w x| := by
      intro w hw
      rw [← integral_const_mul, ← Real.norm_eq_abs]
      refine (norm_integral_le_integral_norm _).trans ?_
      refine setIntegral_mono_on (hint w hw).norm ((continuous_integrableOn hw.abs hb).const_mul δ)
        henc.measurable fun x hx => ?_
      have h2 := hδ _ (hok x hx)
      rw [norm_mul, Real.norm_eq_abs, Real.norm_eq_abs]
      exact mul_le_mul_of_nonneg_right h2 (abs_nonneg _)
    have hN := hdiff (fun _ => 1) continuous_const
    have hM := hdiff (fun x => x.2) continuous_snd
    have hM' := hdiff (fun x => -x.1) continuous_fst.neg
    have aN := habs (fun _ => 1) continuous_const
    have aM := habs (fun x => x.2) continuous_snd
    have aM' := habs (fun x => -x.1) continuous_fst.neg
    have harea : ∫ x in R, |(1 : ℝ)| = areaMoment 0 0 R := by simp [areaMoment]
    rw [harea, ← hN] at aN
    rw [← hM] at aM
    rw [← hM'] at aM'
    simp only [abs_neg] at aM'
    refine ⟨aN, aM, aM', fun hsafe => ?_⟩
    have hpn : 0 ≤ ∫ x in R, (polygonal f u (planeStrain e x.1 x.2) - f (planeStrain e x.1 x.2)) * (1 : ℝ) :=
      setIntegral_nonneg henc.measurable fun x hx => by
        rw [mul_one]; exact sub_nonneg.2 (hsafe _ (hok x hx))
    rw [← hN] at hpn
    exact sub_nonneg.1 hpn


/-! ## The three laws -/

theorem measurable_snap (lim : ℝ × ℝ) : Measurable (snap lim) := by
  have h : ∀ b : ℝ, MeasurableSet {a : ℝ | isclose a b} := fun b => by
    unfold isclose
    exact measurableSet_le (by fun_prop) measurable_const
  unfold snap
  exact Measurable.ite (h _) measurable_const (Measurable.ite (h _) measurable_const measurable_id)

theorem measurable_sargin (l : Sargin) : Measurable l.stress := by
  refine Measurable.comp (g := l.core) ?_ (measurable_snap _)
  unfold Sargin.core
  refine Measurable.ite ?_ measurable_const (by fun_prop)
  exact (measurableSet_Iio).union measurableSet_Ioi

theorem measurable_popovics (l : Popovics) : Measurable l.stress := by
  refine Measurable.comp (g := l.core) ?_ (measurable_snap _)
  unfold Popovics.core
  refine Measurable.ite ?_ measurable_const (by fun_prop)
  exact (measurableSet_Iio).union measurableSet_Ioi

theorem measurable_parabola (l : ParabolaRectangle) : Measurable l.stress := by
  refine Measurable.comp (g := l.core) ?_ (measurable_snap _)
  unfold ParabolaRectangle.core
  refine Measurable.ite ?_ measurable_const (Measurable.ite ?_ (by fun_prop) measurable_const)
  · exact measurableSet_Ici.inter measurableSet_Iio
  · exact measurableSet_Icc

/-- **C65**, a section of Sargin concrete in the Marin integrator, against the law itself (what the fibre integrator uses): the
axial force differs by at most `fc (k - 1)^2 (u / e1)^2 / (400 m^3)` times the area and the compression is never overestimated. -/
theorem C65_sargin_section_partial (split : Polygon → ℝ → ℝ → ShapelyResult) (fc e1 u k m : ℝ) (h0 : 0 < |e1|)
    (hu : 2e-5 ≤ |u|) (hk : 1 < k) (hku : |u| ≤ k * |e1|) (hm : 0 < m) (hm1 : m ≤ 1)
    (hmu : m ≤ 1 + (k - 2) * (|u| / |e1|)) (hne : (Sargin.new fc e1 u k).stress (-|u|) ≠ 0)
    (hrel : |fc| * 1e-6 ≤ -(Sargin.new fc e1 u k).stress (-|u|))
    (p : Polygon) (R : Set (ℝ × ℝ)) (henc : Encloses p.ext p.ints R) (bars : List Bar) (d : List Group)
    (hd : EqualSizes d) (e : Fin 3 → ℝ) (hg : e 1 ≠ 0 ∨ e 2 ≠ 0)
    (hsplit : SplitsExactly split (p.rotate (neutralAngle e)) (rotPt (neutralAngle e) '' R))
    (hok : ∀ x ∈ R, Clear (planeStrain e x.1 x.2) (-|u|)) :
    ∃ law F, (Sargin.new fc e1 u k).discretized = .ok law ∧
      marinIntegrate split [Surf.ofMarin p law.marin law.marinT] bars e .stress (some d) =
        .ok (.forces (F + resultants (fibres Law.stress d) e), d) ∧
      regionResultants R (Sargin.new fc e1 u k).stress e 0 ≤ F 0 ∧
      F 0 ≤ regionResultants R (Sargin.new fc e1 u k).stress e 0 +
        |fc| * ((k - 1) ^ 2 * (|u| / |e1|) ^ 2 / (400 * m ^ 3)) * areaMoment 0 0 R ∧
      |F 1 - regionResultants R (Sargin.new fc e1 u k).stress e 1| ≤
        |fc| * ((k - 1) ^ 2 * (|u| / |e1|) ^ 2 / (400 * m ^ 3)) * ∫ x in R, |x.2| := by
  have hpos : 0 < |u| := by linarith
  have hco := C08_sargin_partial fc e1 u k h0 (by linarith) hk hku
  have hz : (Sargin.new fc e1 u k).stress 0 = 0 := by
    have hs0 : snap (-|u|, 100) 0 = 0 := by
      have := tenth_snap hu 10 le_rfl
      rwa [tenth_ten] at this
    rw [Sargin.stress, show (Sargin.new fc e1 u k).ult false = (-|u|, 100) from rfl, hs0]
    simp [Sargin.core]
  have hcmp : ∀ x, Clear x (-|u|) → polygonal (Sargin.new fc e1 u k).stress |u| x - (Sargin.new fc e1 u k).stress x ∈
      Set.Icc 0 (|fc| * ((k - 1) ^ 2 * (|u| / |e1|) ^ 2 / (400 * m ^ 3))) := fun x hx =>
    polygonal_compare (g := (Sargin.new fc e1 u k).core)
      (S := Set.Icc 0 (|fc| * ((k - 1) ^ 2 * (|u| / |e1|) ^ 2 / (400 * m ^ 3)))) hu hco (fun _ => rfl)
      ⟨le_rfl, mul_nonneg (abs_nonneg _) (by positivity)⟩ (sargin_part fc e1 u k m h0 hpos hm hm1 hmu) hx
  obtain ⟨F, hF, -, hN, hM, -, hsafe⟩ := C65_section_partial split hu hco (measurable_sargin _)
    (fun x hx => by rw [abs_of_nonneg (hcmp x hx).1]; exact (hcmp x hx).2) p R henc bars d hd e hg hsplit hok
  refine ⟨_, F, C65_nodes (sargin_samples fc e1 u k) hco hz hu hne hrel, hF,
    hsafe fun x hx => sub_nonneg.1 (hcmp x hx).1, ?_, hM⟩
  linarith [(abs_le.1 hN).2]

/-- **C65**, a section of parabola-rectangle concrete with exponent other than 2. -/
theorem C65_parabola_section_partial (split : Polygon → ℝ → ℝ → ShapelyResult) (fc e0 u n : ℝ) (hfc : fc ≠ 0)
    (h0 : 0 < |e0|) (hu0 : |e0| ≤ |u|) (hu : 2e-5 ≤ |u|) (hn : 1 ≤ n)
    (p : Polygon) (R : Set (ℝ × ℝ)) (henc : Encloses p.ext p.ints R) (bars : List Bar) (d : List Group)
    (hd : EqualSizes d) (e : Fin 3 → ℝ) (hg : e 1 ≠ 0 ∨ e 2 ≠ 0)
    (hsplit : SplitsExactly split (p.rotate (neutralAngle e)) (rotPt (neutralAngle e) '' R))
    (hok : ∀ x ∈ R, Clear (planeStrain e x.1 x.2) (-|u|)) :
    ∃ law F, (ParabolaRectangle.new fc e0 u n).discretized = .ok law ∧
      marinIntegrate split [Surf.ofMarin p law.marin law.marinT] bars e .stress (some d) =
        .ok (.forces (F + resultants (fibres Law.stress d) e), d) ∧
      regionResultants R (ParabolaRectangle.new fc e0 u n).stress e 0 ≤ F 0 ∧
      F 0 ≤ regionResultants R (ParabolaRectangle.new fc e0 u n).stress e 0 +
        n * |fc| / |e0| * |u| / 20 * areaMoment 0 0 R ∧
      |F 1 - regionResultants R (ParabolaRectangle.new fc e0 u n).stress e 1| ≤
        n * |fc| / |e0| * |u| / 20 * ∫ x in R, |x.2| := by
  have hpos : 0 < |u| := by linarith
  have hco := C08_parabola_rectangle fc e0 u n h0 hu0 (by linarith) (by linarith)
  have hL : 0 ≤ n * |fc| / |e0| := by positivity
  obtain ⟨law, hlaw, -, -, -, -⟩ := C65_parabola_rectangle fc e0 u n hfc h0 hu0 hu hn
  have hz : (ParabolaRectangle.new fc e0 u n).stress 0 = 0 :=
    (C09_parabola_rectangle fc e0 u n h0 hu0 (by linarith) (by linarith)).2
  have hcmp : ∀ x, Clear x (-|u|) →
      polygonal (ParabolaRectangle.new fc e0 u n).stress |u| x - (ParabolaRectangle.new fc e0 u n).stress x ∈
      Set.Icc 0 (n * |fc| / |e0| * |u| / 20) := fun x hx =>
    polygonal_compare (g := (ParabolaRectangle.new fc e0 u n).core)
      (S := Set.Icc 0 (n * |fc| / |e0| * |u| / 20)) hu hco (fun _ => rfl)
      ⟨le_rfl, by positivity⟩ (fun i hi t h1 h2 => ⟨chord_convex hpos (parabola_core_convex fc e0 u n h0 hn) i hi t h1 h2,
        (le_abs_self _).trans (chord_lip hpos hL (fun a b => parabola_lip fc e0 u n h0 hn) i hi t h1 h2)⟩) hx
  obtain ⟨F, hF, -, hN, hM, -, hsafe⟩ := C65_section_partial split hu hco (measurable_parabola _)
    (fun x hx => by rw [abs_of_nonneg (hcmp x hx).1]; exact (hcmp x hx).2) p R henc bars d hd e hg hsplit hok
  have hval : (ParabolaRectangle.new fc e0 u n).stress (-|u|) = -|fc| := by
    have hend : snap (-|u|, 100) (-|u|) = -|u| := by
      have := tenth_snap hu 0 (by norm_num)
      rwa [tenth_zero] at this
    rw [ParabolaRectangle.stress, show (ParabolaRectangle.new fc e0 u n).ult false = (-|u|, 100) from rfl, hend,
      parabola_core fc e0 u n h0 hn le_rfl (by linarith)]
    have : 1 + -|u| / |e0| ≤ 0 := by
      have : -|u| / |e0| ≤ -1 := by rw [div_le_iff₀ h0]; linarith
      linarith
    rw [max_eq_left this, Real.zero_rpow (by linarith)]; ring
  have hfc0 : 0 < |fc| := abs_pos.2 hfc
  refine ⟨_, F, C65_nodes (parabola_samples fc e0 u n hu0) hco hz hu (by rw [hval]; linarith)
      (by rw [hval, neg_neg]; nlinarith), hF, hsafe fun x hx => sub_nonneg.1 (hcmp x hx).1, ?_, hM⟩
  linarith [(abs_le.1 hN).2]

/-- The hypotheses hold for a 300 x 500 rectangle of Sargin concrete (fc = 30, 0.002 / 0.0035, k = 2) at `e0 = -0.001`,
curvature `4e-6` (neutral axis inside the section); the bound on the axial force is then 0.77 % of `fc A`. -/
example :
    ∃ law F, (Sargin.new 30 0.002 0.0035 2).discretized = .ok law ∧
      marinIntegrate (rectSplit 0 300 0 500) [Surf.ofMarin ⟨rectRing 0 300 0 500, []⟩ law.marin law.marinT] [] ![-0.001, 4e-6, 0]
        .stress (some []) = .ok (.forces (F + resultants (fibres Law.stress []) ![-0.001, 4e-6, 0]), []) ∧
      regionResultants (Set.Icc 0 300 ×ˢ Set.Icc 0 500) (Sargin.new 30 0.002 0.0035 2).stress ![-0.001, 4e-6, 0] 0 ≤ F 0 := by
  have hv : (Sargin.new 30 0.002 0.0035 2).stress (-|0.0035|) = -13.125 := by
    have h : snap (-|0.0035|, 100) (-|(0.0035 : ℝ)|) = -|0.0035| := by
      have := tenth_snap (u := |0.0035|) (by norm_num [abs_of_pos]) 0 (by norm_num)
      rwa [tenth_zero] at this
    rw [Sargin.stress, show (Sargin.new 30 0.002 0.0035 2).ult false = (-|0.0035|, 100) from rfl, h]
    norm_num [Sargin.core, abs_of_pos]
  have h1 : 0 < (![-0.001, 4e-6, 0] : Fin 3 → ℝ) 1 := by norm_num
  have ha : neutralAngle ![-0.001, 4e-6, 0] = 0 := neutralAngle_up h1 rfl
  obtain ⟨law, F, a, b, c, -⟩ := C65_sargin_section_partial (rectSplit 0 300 0 500) 30 0.002 0.0035 2 1
    (by norm_num) (by norm_num [abs_of_pos]) (by norm_num) (by norm_num [abs_of_pos]) (by norm_num) (by norm_num)
    (by norm_num) (by rw [hv]; norm_num) (by rw [hv]; norm_num [abs_of_pos]) ⟨rectRing 0 300 0 500, []⟩
    (Set.Icc 0 300 ×ˢ Set.Icc 0 500) (encloses_rect (by norm_num) (by norm_num)) [] [] (by intro x hx; simp at hx)
    ![-0.001, 4e-6, 0] (Or.inl h1.ne') (by
      rw [ha]
      have : rotPt 0 = id := by funext x; exact rotPt_zero x
      rw [this, Set.image_id]
      exact rectSplit_exact (by norm_num) _) (by
      rintro ⟨x, y⟩ ⟨hx, hy⟩
      simp only [Set.mem_Icc] at hy
      have hs : planeStrain ![-0.001, 4e-6, 0] x y = -0.001 + 4e-6 * y := by simp [planeStrain]
      simp only [hs, Clear]
      rw [lt_abs]; left
      norm_num [abs_of_pos]
      linarith)
  exact ⟨law, F, a, b, c⟩

/-! ## What does not hold -/

/-- **C65 violated**: the two integrators do not use the same law.  For Sargin concrete (fc = 30, 0.002 / 0.0035, k = 2) the law reaches
`-30` at the peak strain, the law of the Marin integrator does not. -/
theorem C65_same_law_violated :
    ∃ d, (Sargin.new 30 0.002 0.0035 2).discretized = .ok d ∧ (Sargin.new 30 0.002 0.0035 2).stress (-0.002) = -30 ∧
      d.stress (-0.002) > -30 := by
  have hu : (2e-5 : ℝ) ≤ |0.0035| := by norm_num [abs_of_pos]
  have hev : ∀ x : ℝ, Clear x (-|0.0035|) → -0.0035 ≤ x → x ≤ 0 →
      (Sargin.new 30 0.002 0.0035 2).stress x = -(30 * (2 * (-x / 0.002) - (-x / 0.002) ^ 2)) := by
    intro x hc h1 h2
    rw [Sargin.stress, show (Sargin.new 30 0.002 0.0035 2).ult false = (-|0.0035|, 100) from rfl,
      snap_of_clear hc (clear_hundred_of_nonpos h2), sargin_core _ _ _ _ (by norm_num [abs_of_pos]; linarith) h2]
    norm_num [abs_of_pos]
  have hv : (Sargin.new 30 0.002 0.0035 2).stress (-|0.0035|) = -13.125 := by
    have h : snap (-|0.0035|, 100) (-|(0.0035 : ℝ)|) = -|0.0035| := by
      have := tenth_snap hu 0 (by norm_num)
      rwa [tenth_zero] at this
    rw [Sargin.stress, show (Sargin.new 30 0.002 0.0035 2).ult false = (-|0.0035|, 100) from rfl, h]
    norm_num [Sargin.core, abs_of_pos]
  obtain ⟨d, hd, hin, -, -⟩ := C65_sargin 30 0.002 0.0035 2 1 (by norm_num) hu (by norm_num)
    (by norm_num [abs_of_pos]) (by norm_num) (by norm_num) (by norm_num) (by rw [hv]; norm_num)
    (by rw [hv]; norm_num [abs_of_pos])
  refine ⟨d, hd, ?_, ?_⟩
  · rw [hev _ (by norm_num [Clear, abs_of_pos]) (by norm_num) (by norm_num)]; norm_num
  · have hx : (-0.002 : ℝ) = tenth |0.0035| 4 + (2 / 7) * (|0.0035| / 10) := by norm_num [tenth, abs_of_pos]
    rw [hx, hin.straight 4 (by norm_num) (2 / 7) (by norm_num) (by norm_num) (by rw [← hx]; norm_num [Clear, abs_of_pos])
      (by rw [← hx]; norm_num [Clear, abs_of_pos]),
      hev _ (by norm_num [Clear, tenth, abs_of_pos]) (by norm_num [tenth, abs_of_pos]) (by norm_num [tenth, abs_of_pos]),
      hev _ (by norm_num [Clear, tenth, abs_of_pos]) (by norm_num [tenth, abs_of_pos]) (by norm_num [tenth, abs_of_pos])]
    norm_num [tenth, abs_of_pos]

/-- **C65 violated** (combined laws): a `Parallel` law that contains a Sargin or a Popovics law anywhere, all laws before it behaving,
cannot be integrated by the Marin integrator: `__marin__` raises TypeError, whatever the strains, because `Parallel` passes the
strain positionally and the inherited method takes keywords only. -/
theorem C65_parallel_violated (weights : List ℝ) (before after : List MarinMethod) (m : MarinMethod)
    (hb : ∀ b ∈ before, ∀ x y, ∃ r, b.call .positional x y = .ok r)
    (hm : (∃ l : Sargin, m = l.marinMethod) ∨ ∃ l : Popovics, m = l.marinMethod) (e0 e1 : ℝ) :
    parallelMarin weights (before ++ m :: after) e0 e1 = .error .typeError := by
  have key : ∀ (before : List MarinMethod) (e0 : ℝ), (∀ b ∈ before, ∀ x y, ∃ r, b.call .positional x y = .ok r) →
      collectCalls (before ++ m :: after) e0 e1 = .error .typeError := by
    intro before
    induction before with
    | nil =>
      intro e0 _
      rcases hm with ⟨l, rfl⟩ | ⟨l, rfl⟩ <;> rfl
    | cons b bs ih =>
      intro e0 h
      obtain ⟨r, hr⟩ := h b (by simp) e0 e1
      rw [List.cons_append, collectCalls, hr]
      simp only
      rw [ih r.2 fun b hb => h b (by simp [hb])]
  rw [parallelMarin, key before e0 hb]

/-- The same law alone, called as the integrator does, works: the call does not raise TypeError as such. -/
theorem C65_single_call (fc e1 u k : ℝ) {d : UserDefined} (hd : (Sargin.new fc e1 u k).discretized = .ok d) (a b : ℝ) :
    (Sargin.new fc e1 u k).marinMethod.call .keyword a b = .ok (d.marin a b) := by
  have h : discretize (fun n => (Sargin.new fc e1 u k).getStressCall (ι := Fin n)) ((Sargin.new fc e1 u k).ult false) = .ok d := hd
  simp only [Sargin.marinMethod, MarinMethod.call, baseMarin, h]; rfl

end SC
