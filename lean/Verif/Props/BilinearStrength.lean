import Verif.Props.PolyDesign

/-! # C85: the strength of sections of concrete with the bilinear diagram -/

set_option autoImplicit false

namespace SC

open Spec MeasureTheory

variable {lower : String → String}

section Law

variable {fc ec u : ℝ} {l : Bilinear}

theorem bilinear_new (hl : Bilinear.new? fc ec (some u) = .ok l) : ec ≠ 0 ∧ l = ⟨-|fc|, -|ec|, -|u|⟩ := by
  unfold Bilinear.new? at hl
  by_cases h0 : ec = 0
  · simp [h0] at hl
  simp only [h0, if_false] at hl
  cases hl
  exact ⟨h0, rfl⟩

theorem bilinear_spec (hl : Bilinear.new? fc ec (some u) = .ok l) {e : ℝ} (he : -|u| ≤ e) : l.core e = bilinearDiagram |fc| |ec| e := by
  obtain ⟨h0, rfl⟩ := bilinear_new hl
  have hec : 0 < |ec| := abs_pos.2 h0
  simp only [Bilinear.core, Bilinear.E, neg_div_neg_eq, bilinearDiagram]
  rcases le_or_gt e 0 with h | h
  · rw [if_neg (by push Not; exact ⟨h, he⟩), max_eq_left (show (0:ℝ) ≤ -e by linarith)]
    rcases le_total (-e) |ec| with h' | h'
    · rw [min_eq_left h', max_eq_left]
      · field_simp
      · have : |fc| / |ec| * (-e) ≤ |fc| / |ec| * |ec| := mul_le_mul_of_nonneg_left h' (by positivity)
        rw [div_mul_cancel₀ _ hec.ne'] at this
        linarith
    · rw [min_eq_right h', div_self hec.ne', max_eq_right, mul_one]
      have : |fc| / |ec| * |ec| ≤ |fc| / |ec| * (-e) := mul_le_mul_of_nonneg_left h' (by positivity)
      rw [div_mul_cancel₀ _ hec.ne'] at this
      linarith
  · rw [if_pos (Or.inl h), max_eq_right (show -e ≤ (0:ℝ) by linarith), min_eq_left hec.le]; simp

theorem measurable_bilinear_core (l : Bilinear) : Measurable l.core := by
  unfold Bilinear.core
  refine Measurable.ite ?_ measurable_const (by fun_prop)
  exact (measurableSet_lt measurable_const measurable_id).union (measurableSet_lt measurable_id measurable_const)

theorem bilinearDiagram_range {e0 : ℝ} (h0 : 0 < e0) (hf : 0 ≤ fc) (e : ℝ) :
    -fc ≤ bilinearDiagram fc e0 e ∧ bilinearDiagram fc e0 e ≤ 0 := by
  have a1 : 0 ≤ min (max (-e) 0) e0 / e0 := div_nonneg (le_min (le_max_right _ _) h0.le) h0.le
  have a2 : min (max (-e) 0) e0 / e0 ≤ 1 := by rw [div_le_one h0]; exact min_le_right _ _
  simp only [bilinearDiagram]
  constructor <;> nlinarith

theorem bilinear_core_range (hl : Bilinear.new? fc ec (some u) = .ok l) (e : ℝ) : -|fc| ≤ l.core e ∧ l.core e ≤ 0 := by
  have h0 := (bilinear_new hl).1
  rcases lt_or_ge e (-|u|) with h | h
  · obtain ⟨-, rfl⟩ := bilinear_new hl
    simp only [Bilinear.core]
    rw [if_pos (Or.inr h)]
    simp
  · rw [bilinear_spec hl h]
    exact bilinearDiagram_range (abs_pos.2 h0) (abs_nonneg _) e

theorem bilinear_steps {e0 x y : ℝ} (h0 : 0 < e0) (hf : 0 ≤ fc) (hxy : x ≤ y) :
    bilinearDiagram fc e0 x ≤ bilinearDiagram fc e0 y ∧ bilinearDiagram fc e0 y - bilinearDiagram fc e0 x ≤ fc / e0 * (y - x) := by
  have a1 : min (max (-y) 0) e0 ≤ min (max (-x) 0) e0 := min_le_min_right _ (max_le_max_right _ (by linarith))
  have a2 : min (max (-x) 0) e0 - min (max (-y) 0) e0 ≤ y - x := by
    rcases le_total (-x) 0 with h1 | h1 <;> rcases le_total (-y) 0 with h2 | h2 <;> simp only [h1, h2, max_eq_left, max_eq_right] <;>
    rcases le_total (-x) e0 with h3 | h3 <;> rcases le_total (-y) e0 with h4 | h4 <;> simp only [h3, h4, h0.le, min_eq_left, min_eq_right] <;> linarith
  have e1 : ∀ t, bilinearDiagram fc e0 t = -(fc / e0 * min (max (-t) 0) e0) := by intro t; simp only [bilinearDiagram]; ring
  have hk : 0 ≤ fc / e0 := div_nonneg hf h0.le
  rw [e1, e1]
  constructor
  · linarith [mul_le_mul_of_nonneg_left a1 hk]
  · linarith [mul_le_mul_of_nonneg_left a2 hk]

theorem bilinear_core_pieces (hl : Bilinear.new? fc ec (some u) = .ok l) (hu : |ec| ≤ |u|) (e0 e1 : ℝ) (he : e1 ≠ 0) :
    ∃ rs, (l.marin e0 e1).1.ranges = some rs ∧ PiecesMatch l.core e0 e1 (fun _ => True) rs (l.marin e0 e1).1.coeffs := by
  obtain ⟨h0, rfl⟩ := bilinear_new hl
  have hec : 0 < |ec| := abs_pos.2 h0
  have hE : (⟨-|fc|, -|ec|, -|u|⟩ : Bilinear).E = |fc| / |ec| := neg_div_neg_eq _ _
  have hEe : |fc| / |ec| * |ec| = |fc| := by field_simp
  have hE0 : 0 ≤ |fc| / |ec| := by positivity
  simp only [Bilinear.marin, if_neg he]
  refine ⟨_, rfl, rfl, ⟨by simp; grind, by simp <;> grind⟩, ?_, ?_⟩
  · intro rc hrc y hok hlo hhi
    simp only [List.zip_cons_cons, List.zip_nil_right, List.mem_cons, List.not_mem_nil, or_false] at hrc
    simp only [Bilinear.core, hE]
    rcases hrc with rfl | rfl <;> simp only [] at hlo hhi
    · have d : ¬ (e0 + e1 * y > 0 ∨ e0 + e1 * y < -|u|) := by push Not; constructor <;> linarith
      rw [if_neg d, max_eq_left (by nlinarith)]
      simp only [evalPoly]; rw [hE]; ring
    · have d : ¬ (e0 + e1 * y > 0 ∨ e0 + e1 * y < -|u|) := by push Not; constructor <;> linarith
      rw [if_neg d, max_eq_right (by nlinarith)]; simp [evalPoly]
  · intro y hok hout
    have a := hout (-|ec|, 0) (by simp)
    have b := hout (-|u|, -|ec|) (by simp)
    simp only [Bilinear.core]
    simp only at a b
    generalize e0 + e1 * y = x at *
    have c : x > 0 ∨ x < -|u| := by
      rcases b with b | b
      · exact .inr b
      · rcases a with a | a
        · linarith
        · exact .inl a
    rw [if_pos c]

end Law

/-- The surfaces of a section of one concrete with a bilinear law: what the Marin integrator reads
(section_integrators/_marin_integrator.py:95-113), and the law without the snapping of strains. -/
noncomputable def bilinearSolids (l : Bilinear) (shapes : List (Polygon × Set (ℝ × ℝ))) : List Solid :=
  shapes.map fun s => ⟨⟨Surf.ofMarin s.1 l.marin l.marinT, s.2, l.core⟩, true, l.ult⟩

section Strength

variable {fc ec u : ℝ} {l : Bilinear}

theorem bilinear_section (l : Bilinear) (shapes : List (Polygon × Set (ℝ × ℝ))) (bars : List Bar) :
    crossSection (bilinearSolids l shapes) bars = plateSection shapes bars l.core (-l.eps_cu) := by
  simp only [crossSection, plateSection, bilinearSolids, List.map_map, Function.comp_def, Bilinear.ult, neg_neg, Bool.false_eq_true,
    if_false]
  rfl

/-- Diagrams that agree down to the ultimate strain give the same forces in every admissible plane. -/
theorem plate_congr {shapes : List (Polygon × Set (ℝ × ℝ))} {bars : List Bar} {f g : ℝ → ℝ} {u : ℝ}
    (henc : ∀ p ∈ shapes, Encloses p.1.ext p.1.ints p.2) (hull : ∀ p ∈ shapes, p.2 ⊆ convexHull ℝ {v | v ∈ p.1.ext})
    (hfg : ∀ e, -u ≤ e → f e = g e) {e : Fin 3 → ℝ} (ha : (plateSection shapes bars f u).Admissible e) :
    (plateSection shapes bars f u).forces e = (plateSection shapes bars g u).forces e := by
  simp only [CrossSection.forces, plateSection, List.map_map, Function.comp_def]
  congr 2
  refine List.map_congr_left fun p hp => ?_
  funext i
  simp only [regionResultants]
  refine setIntegral_congr_fun (henc p hp).measurable fun x hx => ?_
  show f _ * _ = g _ * _
  rw [hfg]
  refine (ha.1 ⟨p.2, p.1.ext, f, -u, 100⟩ ?_ x (hull p hp hx)).1
  simp only [plateSection, List.mem_map]
  exact ⟨p, hp, rfl⟩

theorem bilinear_fits {split : Polygon → ℝ → ℝ → ShapelyResult} {th eu L : ℝ} {shapes : List (Polygon × Set (ℝ × ℝ))}
    (hl : Bilinear.new? fc ec (some u) = .ok l)
    (henc : ∀ p ∈ shapes, Encloses p.1.ext p.1.ints p.2) (hull : ∀ p ∈ shapes, p.2 ⊆ convexHull ℝ {v | v ∈ p.1.ext})
    (hsplit : ∀ p ∈ shapes,
      SplitsExactly split ((p.1.rotate (-th)).rotate (-Real.pi)) (rotPt (-Real.pi) '' (rotPt (-th) '' p.2)))
    (hu0 : |ec| ≤ |u|) (hu : 1e-3 ≤ |u|) (heu : 1e-4 ≤ eu) (heu' : eu ≤ 1) (hL : |fc| / |ec| ≤ L) :
    ∀ s ∈ bilinearSolids l shapes, s.Fits split th |u| eu L ∧ s.Grows |u| := by
  intro s hs
  obtain ⟨q, hq, rfl⟩ := List.mem_map.1 hs
  have h0 : 0 < |ec| := abs_pos.2 (bilinear_new hl).1
  have hlu : l.ult false = (-|u|, 100) := by rw [(bilinear_new hl).2]; rfl
  have hpos : 0 < |u| := by linarith [show (0:ℝ) < 1e-3 by norm_num]
  have hsnap : ∀ e, e = -|u| ∨ e = eu → snap (-|u|, 100) e = e := by
    rintro e (rfl | rfl)
    · have := tenth_snap (u := |u|) (by norm_num at *; linarith) 0 (by norm_num)
      rwa [tenth_zero] at this
    · refine snap_of_clear ?_ ?_
      · simp only [Clear, abs_neg, abs_abs]
        rw [lt_abs]; left
        norm_num at *; linarith
      · simp only [Clear]
        rw [lt_abs, abs_of_pos (by norm_num : (0:ℝ) < 100)]; right
        norm_num at *; linarith
  have e2 : ∀ e0 e1, e1 ≠ 0 → (l.marin e0 e1).2 = e0 := by
    intro a b hb; simp [Bilinear.marin, hb]
  have e2' : ∀ e0 e1, e1 ≠ 0 → (l.marinT e0 e1).2 = e0 := by
    intro a b hb; simp [Bilinear.marinT, hb]
  have hunif : ∀ e, e = -|u| ∨ e = eu → SurfSpec.Good split .stress ![e, 0, 0] ⟨Surf.ofMarin q.1 l.marin l.marinT, q.2, l.core⟩ := by
    intro e he
    have hs := hsnap e he
    have hgrad : gradient ![e, 0, 0] = 0 := by simp [gradient]
    have hy : ∀ y, _ := fun y => C13_bilinear_uniform hl hu0 e y
    have hr := (hy 0).1
    have h2 : (l.marin e 0).2 = e := by
      simp only [Bilinear.marin, if_true, hlu, hs]
      split_ifs <;> rfl
    have hst : l.stress e = l.core e := by rw [Bilinear.stress, hlu, hs]
    refine ⟨henc q hq, ?_, ?_⟩
    · rintro ⟨m, rs, hm, hrs⟩
      exfalso
      have : m = (l.marin e 0).1 := by
        rw [hgrad] at hm
        simp only [Surf.ofMarin, Surf.coefficients, Matrix.cons_val, Except.ok.injEq] at hm
        exact hm.symm
      rw [this, hr] at hrs
      cases hrs
    · rw [hgrad]
      refine ⟨h2, (l.marin e 0).1, rfl, Or.inl ⟨hr, ?_⟩⟩
      obtain ⟨c, hc, -⟩ := (hy 0).2
      refine ⟨c, hc, fun y _ => ?_⟩
      obtain ⟨c', hc', h⟩ := (hy y).2
      rw [hc] at hc'
      cases hc'
      simp only [Matrix.cons_val, zero_mul, add_zero]
      rw [h, hst]
  refine ⟨⟨henc q hq, hull q hq, fun e chi hchi => ?_, ⟨hunif _ (Or.inl rfl), hunif _ (Or.inr rfl)⟩, hlu, measurable_bilinear_core l,
    ⟨|fc|, bilinear_core_range hl⟩, fun e he => ?_, fun x y hx hy => ?_⟩, fun x y hx hxy => ?_⟩
  · have hg : (![e, chi, 0] : Fin 3 → ℝ) 1 ≠ 0 ∨ (![e, chi, 0] : Fin 3 → ℝ) 2 ≠ 0 := Or.inl hchi.ne
    have hp := gradient_pos hg
    obtain ⟨rs, hrs, hm⟩ := bilinear_core_pieces hl hu0 ((![e, chi, 0] : Fin 3 → ℝ) 0) (gradient ![e, chi, 0]) hp.ne'
    exact (good_of_pieces split ![e, chi, 0] hg (q.1.rotate (-th)) (rotPt (-th) '' q.2)
      (encloses_rot (-th) (henc q hq)) (by rw [neutralAngle_neg hchi]; exact hsplit q hq) l.marin l.marinT l.core _
      (fun _ _ => trivial) e2 e2').1 ⟨rs, hrs, piecesMatch_interior hm⟩
  · show l.core e = 0
    rw [bilinear_spec hl (by linarith)]
    simp [bilinearDiagram, max_eq_right (show -e ≤ 0 by linarith), min_eq_left h0.le]
  · show |l.core x - l.core y| ≤ L * |x - y|
    rw [bilinear_spec hl hx, bilinear_spec hl hy]
    refine le_trans ?_ (mul_le_mul_of_nonneg_right hL (abs_nonneg _))
    rcases le_total x y with h | h
    · have := bilinear_steps (fc := |fc|) h0 (abs_nonneg _) h
      rw [abs_sub_comm, abs_sub_comm x, abs_of_nonneg (sub_nonneg.2 this.1), abs_of_nonneg (sub_nonneg.2 h)]
      exact this.2
    · have := bilinear_steps (fc := |fc|) h0 (abs_nonneg _) h
      rw [abs_of_nonneg (sub_nonneg.2 this.1), abs_of_nonneg (sub_nonneg.2 h)]
      exact this.2
  · show l.core x ≤ l.core y
    rw [bilinear_spec hl hx, bilinear_spec hl (hx.trans hxy)]
    exact (bilinear_steps h0 (abs_nonneg _) hxy).1

/-- **C85** (strength). Sections of concrete with the bilinear law and bars of one steel: with `T` the section as designed, the limit
loads are those of `T`; loads outside are refused and loads inside answered; the answer is an admissible plane of `T` at its limit,
with exactly the forces of `T`, and no admissible plane of `T` with the same load has a larger moment.
Partial: the equilibrium of the answer with the load holds for all loads but countably many, and answers are shown to exist for
loads inside the limits by `δ · 1e-13`. -/
theorem C85_strength_partial (split : Polygon → ℝ → ℝ → ShapelyResult) (ms : ℝ) (lu : Matrix (Fin 3) (Fin 3) ℝ → (Fin 3 → ℝ) → (Fin 3 → ℝ))
    (shapes : List (Polygon × Set (ℝ × ℝ))) (bars : List Bar) {el eu K L H H0 R th δ : ℝ}
    (hl : Bilinear.new? fc ec (some u) = .ok l) (hu0 : |ec| ≤ |u|) (hu : 1e-3 ≤ |u| ∧ |u| ≤ 5e-3)
    {M : LawObj} (hbars : ∀ b ∈ bars, b.law = M) (hult : M.law.ult false = (-el, eu)) (heu : |u| ≤ el ∧ 1e-4 ≤ eu ∧ eu ≤ 0.09)
    (hK : ∀ x ∈ Set.Icc (-el) eu, ∀ y ∈ Set.Icc (-el) eu, |M.law.stress x - M.law.stress y| ≤ K * |x - y|)
    (hmono : MonotoneOn M.law.stress (Set.Icc (-el) eu)) (hA : ∀ b ∈ bars, 0 ≤ b.area)
    (henc : ∀ p ∈ shapes, Encloses p.1.ext p.1.ints p.2) (hull : ∀ p ∈ shapes, p.2 ⊆ convexHull ℝ {v | v ∈ p.1.ext})
    (hsplit : ∀ p ∈ shapes,
      SplitsExactly split ((p.1.rotate (-th)).rotate (-Real.pi)) (rotPt (-Real.pi) '' (rotPt (-th) '' p.2)))
    (hg0 : RCGeometry 0 shapes (bars.map fun b => (b.x, b.y)) H0) (hg : RCGeometry th shapes (bars.map fun b => (b.x, b.y)) H)
    (hR : ∀ p ∈ shapes, ∀ v ∈ p.1.ext, |height th v| ≤ R) (hL : L = max (|fc| / |ec|) K)
    (hδ : δ = L * (grossArea shapes + (bars.map fun b => |b.area|).sum) * H) (hsmall : δ ≤ 1e22)
    {T : CrossSection} (hT : T = plateSection shapes bars (bilinearDiagram |fc| |ec|) |u|)
    {E : Engine} (hE : E = sectionEngine split (bilinearSolids l shapes) bars ms) :
    (limits E .fresh).2 = .ok (T.forces ![-|u|, 0, 0] 0, T.forces ![eu, 0, 0] 0) ∧
    (∃ C : Set ℝ, C.Countable ∧ ∀ (n : ℝ) (ops : List Op), Undisturbed E lu ops .fresh →
      (n < T.forces ![-|u|, 0, 0] 0 ∨ T.forces ![eu, 0, 0] 0 < n →
        (bendingStrength E th n (history E lu ops .fresh)).2 = .error .valueError) ∧
      (T.forces ![-|u|, 0, 0] 0 + δ * 1e-13 < n → n < T.forces ![eu, 0, 0] 0 - δ * 1e-13 →
        ∃ b : BendingResult, (bendingStrength E th n (history E lu ops .fresh)).2 = .ok b ∧ (n ∉ C → |b.n - n| ≤ 1e-2))) ∧
    ∀ (n : ℝ) (ops : List Op) (b : BendingResult), Undisturbed E lu ops .fresh →
      (bendingStrength E th n (history E lu ops .fresh)).2 = .ok b → ∃ c < 0, ∃ e, e = planeThrough th 0 b.eps_a c ∧
        ![b.eps_a, b.chi.1, b.chi.2] = e ∧ T.Admissible e ∧ T.AtLimit e ∧ T.forces e = ![b.n, b.m.1, b.m.2] ∧
        ∀ v c, T.Admissible (planeThrough th 0 v c) → bendingMoment th (T.forces (planeThrough th 0 v c)) ≤
          bendingMoment th ![b.n, b.m.1, b.m.2] + R * |T.forces (planeThrough th 0 v c) 0 - b.n| := by
  have hpos : 0 < |u| := by linarith [hu.1, show (0:ℝ) < 1e-3 by norm_num]
  have h0 : 0 < |ec| := abs_pos.2 (bilinear_new hl).1
  have hL1 : |fc| / |ec| ≤ L := by rw [hL]; exact le_max_left _ _
  have hL2 : K ≤ L := by rw [hL]; exact le_max_right _ _
  have hLn : 0 ≤ L := le_trans (by positivity) hL1
  have hfit := bilinear_fits (split := split) (th := th) (eu := eu) (L := L) hl henc hull hsplit hu0 hu.1
    heu.2.1 (by have := heu.2.2; norm_num at *; linarith) hL1
  have hf := fun s hs => (hfit s hs).1
  have hgr := fun s hs => (hfit s hs).2
  have hcu : l.eps_cu = -|u| := by rw [(bilinear_new hl).2]
  have hmapS : (bilinearSolids l shapes).map Solid.shadow =
      shapes.map fun s => Solid.shadow ⟨⟨Surf.ofMarin s.1 l.marin l.marinT, s.2, l.core⟩, true, l.ult⟩ := by
    simp only [bilinearSolids, List.map_map, Function.comp_def]
  have hsh : ∀ s ∈ shapes, (Solid.shadow ⟨⟨Surf.ofMarin s.1 l.marin l.marinT, s.2, l.core⟩, true, l.ult⟩).polygon = s.1 ∧
      |(Solid.shadow ⟨⟨Surf.ofMarin s.1 l.marin l.marinT, s.2, l.core⟩, true, l.ult⟩).eps_u| = |u| := by
    intro s hs
    refine ⟨rfl, ?_⟩
    show |l.eps_cu| = |u|
    rw [hcu, abs_neg, abs_abs]
  have o0 := hg0.solids hbars hult hu heu.1 heu.2.1 heu.2.2 _ hsh
  have o := hg.solids hbars hult hu heu.1 heu.2.1 heu.2.2 _ hsh
  rw [← hmapS] at o0 o
  have hK' : ∀ b ∈ bars, ∀ x ∈ Set.Icc (b.law.law.ult false).1 (b.law.law.ult false).2,
      ∀ y ∈ Set.Icc (b.law.law.ult false).1 (b.law.law.ult false).2, |b.law.law.stress x - b.law.law.stress y| ≤ L * |x - y| := by
    intro b hb
    rw [hbars b hb, hult]
    intro x hx y hy
    exact (hK x hx y hy).trans (mul_le_mul_of_nonneg_right hL2 (abs_nonneg _))
  have hmono' : ∀ b ∈ bars, MonotoneOn b.law.law.stress (Set.Icc (b.law.law.ult false).1 (b.law.law.ult false).2) := by
    intro b hb
    rw [hbars b hb, hult]
    exact hmono
  have hmod : Solid.totalModulus (bilinearSolids l shapes) bars L * H = δ := by
    rw [hδ, Solid.totalModulus, grossArea]
    simp only [bilinearSolids, List.map_map, Function.comp_def]
  have hS := bilinear_section l shapes bars
  rw [hcu, neg_neg] at hS
  have u1 : (plateSection shapes bars l.core |u|).forces ![-|u|, 0, 0] = T.forces ![-|u|, 0, 0] := by
    rw [hT]
    exact plate_uniform (bilinear_spec hl le_rfl)
  have u2 : (plateSection shapes bars l.core |u|).forces ![eu, 0, 0] = T.forces ![eu, 0, 0] := by
    rw [hT]
    exact plate_uniform (bilinear_spec hl (by have := heu.2.1; norm_num at *; linarith))
  have hstr := Solid.strength split _ bars ms lu hf o0 o (single_ids hbars) (single_sizes hbars) hLn hK' (by rw [hmod]; exact hsmall)
    rfl hmod.symm hE
  rw [hS, u1, u2] at hstr
  refine ⟨hstr.1, hstr.2, ?_⟩
  intro n ops b hops hrun
  rw [hE] at hops hrun
  have hcmp : ∀ e, (plateSection shapes bars l.core |u|).Admissible e → (plateSection shapes bars l.core |u|).forces e = T.forces e := by
    intro e ha
    rw [hT]
    exact plate_congr henc hull (fun e he => bilinear_spec hl he) ha
  obtain ⟨c, hc, e1, ha, hlim, hfor⟩ := Solid.strength_plane hf o (single_ids hbars) (single_sizes hbars) n ops b hops hrun
  rw [hS] at ha hlim hfor
  rw [hcmp _ ha] at hfor
  have had : ∀ e, T.Admissible e ↔ (plateSection shapes bars l.core |u|).Admissible e := by
    intro e; rw [hT]; exact plate_admissible _ _ e
  refine ⟨c, hc, _, rfl, e1, (had _).2 ha, ?_, hfor, ?_⟩
  · rw [hT]; exact (plate_limit _ _ _).1 hlim
  intro v c' ha'
  have ha'' := (had _).1 ha'
  have hlar := Solid.largest hf hgr o (single_ids hbars) (single_sizes hbars) hA hmono' (R := R) (by
    intro s hs w hw
    obtain ⟨q, hq, rfl⟩ := List.mem_map.1 hs
    exact hR q hq w hw) n ops b hops hrun v c' (by rw [hS]; exact ha'')
  rw [hS, hcmp _ ha''] at hlar
  exact hlar

end Strength

end SC
