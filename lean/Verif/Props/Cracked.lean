import Verif.Model.Cracked
import Verif.Lemmas.Cracked
import Verif.Lemmas.CrackedBody
import Verif.Props.SplitMore
import Verif.Props.GrossMore
import Verif.Props.Geometry

/-! # C63: elastic cracked properties -/

set_option autoImplicit false

namespace SC

open Spec MeasureTheory

noncomputable section

/-! ### The temporary section -/

theorem rotatePt_origin (a : ℝ) : rotatePt a (0, 0) true = rotPt a := by
  funext x
  simp [rotatePt]

theorem turnPoly_eq (a : ℝ) (p : Polygon) : turnPoly a p = p.rotate a := by
  simp only [turnPoly, Polygon.map, Polygon.rotate, rotatePt_origin]

theorem height_rot (theta : ℝ) (x : ℝ × ℝ) : (rotPt (-theta) x).2 = height theta x := by
  simp only [rotPt, height, Real.sin_neg, Real.cos_neg]
  ring

theorem rot_back (theta : ℝ) (x : ℝ × ℝ) : rotPt theta (rotPt (-theta) x) = x := by
  have := rotPt_neg (-theta) x
  rwa [neg_neg] at this

theorem turn_back (theta : ℝ) (p : Polygon) : (p.rotate (-theta)).rotate theta = p := by
  have : (rotPt theta ∘ rotPt (-theta)) = id := funext (rot_back theta)
  cases p
  simp [Polygon.rotate, this]

theorem rotate_rotate (a b : ℝ) (p : Polygon) : (p.rotate b).rotate a = p.rotate (a + b) := by
  have : (rotPt a ∘ rotPt b) = rotPt (a + b) := funext (rotPt_add a b)
  cases p
  simp [Polygon.rotate, this]

/-- The law a surface has in the temporary section. -/
def workingLaw (s : RSurf) : CrackLaw :=
  if s.concrete then .concrete ⟨[(-100, -100 * initialModulus s.mat), (0, 0)], -100, 0⟩
  else .other ⟨initialModulus s.mat, none⟩

theorem crackLaw_ok {s : RSurf} (h : 0 < initialModulus s.mat) : crackLaw s = .ok (workingLaw s) := by
  unfold crackLaw workingLaw
  cases s.concrete with
  | true =>
    simp [UserDefined.new?, UserDefined.mirror, UserDefined.extend, Except.map]
  | false =>
    simp [Elastic.mk?, not_le.2 h, Except.map]

/-- The surfaces of the temporary section. -/
def tempSurf (theta : ℝ) (s : RSurf) : CSurf := ⟨s.poly.rotate (-theta), workingLaw s, s.mat.density⟩

/-- Its bars. -/
def tempBar (theta : ℝ) (b : GBar × ℕ) : CBar :=
  ⟨⟨rotPt (-theta) b.1.pt, b.1.area, ⟨initialModulus b.1.mat, none⟩, b.2⟩, b.1.mat.density⟩

theorem mapM_all {α β : Type} {f : α → Except PyErr β} {g : α → β} :
    ∀ l : List α, (∀ a ∈ l, f a = .ok (g a)) → l.mapM f = .ok (l.map g) := by
  intro l
  induction l with
  | nil => intro _; rfl
  | cons a l ih =>
    intro h
    rw [List.mapM_cons, h a List.mem_cons_self, ih fun b hb => h b (List.mem_cons_of_mem _ hb)]
    rfl

theorem crackSection_ok (theta : ℝ) {surfs : List RSurf} {bars : List GBar}
    (hs : ∀ s ∈ surfs, 0 < initialModulus s.mat) (hb : ∀ b ∈ bars, 0 < initialModulus b.mat) :
    crackSection theta surfs bars = .ok (surfs.map (tempSurf theta), bars.zipIdx.map (tempBar theta)) := by
  have h1 : (surfs.mapM fun s => (crackLaw s).map fun l => (⟨turnPoly (-theta) s.poly, l, s.mat.density⟩ : CSurf)) =
      .ok (surfs.map (tempSurf theta)) := by
    refine mapM_all _ fun s h => ?_
    rw [crackLaw_ok (hs s h), turnPoly_eq]
    rfl
  have h2 : (bars.zipIdx.mapM fun b => (elasticOf b.1.mat).map fun l =>
      (⟨⟨rotatePt (-theta) (0, 0) true b.1.pt, b.1.area, l, b.2⟩, b.1.mat.density⟩ : CBar)) =
      .ok (bars.zipIdx.map (tempBar theta)) := by
    refine mapM_all _ fun b h => ?_
    have := hb b.1 (List.fst_mem_of_mem_zipIdx h)
    simp only [elasticOf, Elastic.mk?, if_neg (not_le.2 this), rotatePt_origin]
    rfl
  simp only [crackSection, h1, h2, bind, Except.bind, pure, Except.pure]

/-! ### Axial force -/

/-- Stress of the concrete of the temporary section. -/
def compression (E eps : ℝ) : ℝ := open Classical in if -100 ≤ eps ∧ eps ≤ 0 then E * eps else 0

/-- The compression-only law has the Marin description of `compression`, for every strain plane. -/
theorem compression_pieces (E e0 e1 : ℝ) (he : e1 ≠ 0) :
    ∃ rs, ((⟨[(-100, -100 * E), (0, 0)], -100, 0⟩ : UserDefined).marin e0 e1).1.ranges = some rs ∧
      PiecesMatchInterior (compression E) e0 e1 (fun _ => True) rs
        ((⟨[(-100, -100 * E), (0, 0)], -100, 0⟩ : UserDefined).marin e0 e1).1.coeffs := by
  simp only [UserDefined.marin, if_neg he, UserDefined.marinRanges, UserDefined.marinCoeffs]
  refine ⟨_, rfl, rfl, ⟨by simp, by simp⟩, ?_, ?_⟩
  · intro rc hrc y _ h1 h2
    simp only [List.zip_cons_cons, List.zip_nil_right, List.mem_singleton] at hrc
    subst hrc
    simp only at h1 h2
    rw [compression, if_pos ⟨h1.le, h2.le⟩]
    simp only [evalPoly]
    ring
  · intro y _ h
    have := h (-100, 0) (by simp)
    rw [compression, if_neg]
    rintro ⟨h1, h2⟩
    rcases this with h | h
    · exact absurd h (not_lt.2 h1)
    · exact absurd h (not_lt.2 h2)

theorem neutralAngle_down (e : ℝ) : neutralAngle ![e, -1e-5, 0] = -Real.pi := by
  have : (⟨-1e-5, 0⟩ : ℂ) = ((-1e-5 : ℝ) : ℂ) := by apply Complex.ext <;> simp
  simp only [neutralAngle, atan2, Matrix.cons_val, this]
  rw [Complex.arg_ofReal_of_neg (by norm_num)]

/-- The member a surface is. -/
def RSurf.member (s : RSurf) (R : Set (ℝ × ℝ)) : Member := ⟨initialModulus s.mat, s.concrete, R⟩

/-- Response of a surface of the temporary section. -/
def workingStress (s : RSurf) : ℝ → ℝ :=
  if s.concrete then compression (initialModulus s.mat) else fun eps => initialModulus s.mat * eps

/-- Rigidity and position of a bar. -/
def GBar.rigidPoint (b : GBar) : ℝ × (ℝ × ℝ) := (initialModulus b.mat * b.area, b.pt)

theorem temp_good {split : Polygon → ℝ → ℝ → ShapelyResult} (theta e : ℝ) {s : RSurf} {R : Set (ℝ × ℝ)}
    (henc : Encloses s.poly.ext s.poly.ints R)
    (hclip : s.concrete = true → SplitsExactly split (s.poly.rotate (-Real.pi - theta)) (rotPt (-Real.pi - theta) '' R)) :
    SurfSpec.Good split .stress ![e, -1e-5, 0] ⟨(tempSurf theta s).surf, rotPt (-theta) '' R, workingStress s⟩ := by
  have henc' : Encloses (s.poly.rotate (-theta)).ext (s.poly.rotate (-theta)).ints (rotPt (-theta) '' R) :=
    encloses_rot (-theta) henc
  have hg : (![e, -1e-5, 0] : Fin 3 → ℝ) 1 ≠ 0 ∨ (![e, -1e-5, 0] : Fin 3 → ℝ) 2 ≠ 0 := Or.inl (by norm_num)
  unfold tempSurf workingLaw workingStress CSurf.surf
  cases hc : s.concrete with
  | true =>
    simp only [if_true]
    have hsp : SplitsExactly split ((s.poly.rotate (-theta)).rotate (neutralAngle ![e, -1e-5, 0]))
        (rotPt (neutralAngle ![e, -1e-5, 0]) '' (rotPt (-theta) '' R)) := by
      rw [neutralAngle_down, rotate_rotate, Set.image_image]
      simp only [rotPt_add]
      exact hclip hc
    refine (good_of_pieces split _ hg _ _ henc' hsp
      (UserDefined.marin ⟨[(-100, -100 * initialModulus s.mat), (0, 0)], -100, 0⟩)
      (UserDefined.marinT ⟨[(-100, -100 * initialModulus s.mat), (0, 0)], -100, 0⟩) _ (fun _ => True)
      (fun _ _ => trivial) ?_ ?_).1 (compression_pieces _ _ _ (gradient_pos hg).ne')
    · intro a b hb; simp [UserDefined.marin, hb]
    · intro a b hb; simp [UserDefined.marinT, hb]
  | false =>
    simp only [Bool.false_eq_true, if_false]
    exact (elastic_good split ⟨initialModulus s.mat, none⟩ _ _ henc' _).1

theorem list_map_sum_apply {α : Type} (l : List α) (f : α → Fin 3 → ℝ) (i : Fin 3) :
    (l.map f).sum i = (l.map fun a => f a i).sum := by
  induction l with
  | nil => rfl
  | cons a l ih => simp only [List.map_cons, List.sum_cons, Pi.add_apply, ih]

/-- The axial force of the temporary section is the imbalance about the axis at height `1e5 * e`. -/
theorem cracked_axial {split : Polygon → ℝ → ℝ → ShapelyResult} (theta : ℝ) {parts : List (RSurf × Set (ℝ × ℝ))}
    {bars : List GBar} (henc : ∀ p ∈ parts, Encloses p.1.poly.ext p.1.poly.ints p.2)
    (hclip : ∀ p ∈ parts, p.1.concrete = true →
      SplitsExactly split (p.1.poly.rotate (-Real.pi - theta)) (rotPt (-Real.pi - theta) '' p.2))
    {e : ℝ} (hh : ∀ p ∈ parts, p.1.concrete = true → ∀ x ∈ p.2, -100 ≤ e - 1e-5 * height theta x) :
    (marinCrack split).axial ((parts.map Prod.fst).map (tempSurf theta)) (bars.zipIdx.map (tempBar theta)) e (-1e-5) =
      -1e-5 * axisImbalance theta (parts.map fun p => p.1.member p.2) (bars.map GBar.rigidPoint) (1e5 * e) := by
  set ebars := (bars.zipIdx.map (tempBar theta)).map fun b => b.bar.bar with heb
  have hids : (ebars.map fun b => b.law.id).Nodup := by
    rw [heb, List.map_map, List.map_map]
    change (bars.zipIdx.map Prod.snd).Nodup
    rw [List.zipIdx_map_snd]
    exact List.nodup_range'
  have hsame : SameIds (ebars.map Bar.law) := by
    intro a ha b hb hab
    rw [List.mem_map] at ha hb
    obtain ⟨x, hx, rfl⟩ := ha
    obtain ⟨y, hy, rfl⟩ := hb
    rw [List.inj_on_of_nodup_map hids hx hy hab]
  have h := C50_forces_partial split
    (parts.map fun p => ⟨(tempSurf theta p.1).surf, rotPt (-theta) '' p.2, workingStress p.1⟩) ebars (groupBars ebars)
    (equalSizes_nodup _ hids) ![e, -1e-5, 0] (by
      intro s hs
      obtain ⟨p, hp, rfl⟩ := List.mem_map.1 hs
      exact temp_good theta e (henc p hp) (hclip p hp))
  have hsurf : ((parts.map Prod.fst).map (tempSurf theta)).map CSurf.surf = (parts.map fun p =>
      (⟨(tempSurf theta p.1).surf, rotPt (-theta) '' p.2, workingStress p.1⟩ : SurfSpec)).map SurfSpec.surf := by
    simp only [List.map_map, Function.comp_def]
  have hres : resultants (fibres Law.stress (groupBars ebars)) ![e, -1e-5, 0] =
      resultants (ebars.map (Bar.fibre Law.stress)) ![e, -1e-5, 0] := by
    funext i
    exact ((C18_grouping Law.stress ebars hsame).map _).sum_eq
  simp only [marinCrack, axialForce]
  rw [hsurf, C20_first_call, h, hres]
  simp only [Pi.add_apply, List.map_map, Function.comp_def]
  rw [list_map_sum_apply, axisImbalance, mul_add, ← List.sum_map_mul_left, ← List.sum_map_mul_left]
  congr 2
  · rw [List.map_map]
    refine List.map_congr_left fun p hp => ?_
    simp only [Function.comp_def]
    rw [working_integral (henc p hp).measurable]
    simp only [regionResultants, RSurf.member]
    rw [integral_rot _ (henc p hp).measurable, ← integral_const_mul, ← integral_const_mul]
    refine setIntegral_congr_fun (henc p hp).measurable fun x hx => ?_
    have hpl : planeStrain ![e, -1e-5, 0] (rotPt (-theta) x).1 (rotPt (-theta) x).2 = e - 1e-5 * height theta x := by
      simp only [planeStrain, Matrix.cons_val, height_rot]
      ring
    simp only [hpl, lever, Matrix.cons_val, mul_one]
    unfold workingStress pull
    cases hc : p.1.concrete with
    | false =>
      simp only [Bool.false_eq_true, if_false]
      ring
    | true =>
      simp only [if_true]
      have h1 := hh p hp hc x hx
      by_cases h2 : e - 1e-5 * height theta x ≤ 0
      · rw [compression, if_pos ⟨h1, h2⟩, max_eq_left (by linarith)]
        ring
      · rw [compression, if_neg (fun h => h2 h.2), max_eq_right (by linarith)]
        ring
  · have key : ∀ (l : List GBar) (k : ℕ), (l.zipIdx k).map
        (fun x => (Bar.fibre Law.stress (tempBar theta x).bar.bar).A *
              (Bar.fibre Law.stress (tempBar theta x).bar.bar).resp
                (planeStrain ![e, -1e-5, 0] (Bar.fibre Law.stress (tempBar theta x).bar.bar).y
                  (Bar.fibre Law.stress (tempBar theta x).bar.bar).z) *
            lever (Bar.fibre Law.stress (tempBar theta x).bar.bar).y (Bar.fibre Law.stress (tempBar theta x).bar.bar).z
              0) =
        l.map fun b => -1e-5 * (b.rigidPoint.1 * (height theta b.rigidPoint.2 - 1e5 * e)) := by
      intro l
      induction l with
      | nil => intro k; rfl
      | cons b l ih =>
        intro k
        simp only [List.zipIdx_cons, List.map_cons, ih]
        congr 1
        simp only [tempBar, EBar.bar, Bar.fibre, Elastic.law, Elastic.stress, planeStrain, lever, Matrix.cons_val,
          height_rot, GBar.rigidPoint]
        ring
    simp only [resultants, List.map_map, Function.comp_def, heb]
    rw [key]

/-! ### The neutral axis -/

/-- A reinforced concrete section to which the theorems apply. -/
structure CrackInput (split : Polygon → ℝ → ℝ → ShapelyResult) (sh : Shapely) (theta : ℝ)
    (parts : List (RSurf × Set (ℝ × ℝ))) (bars : List GBar) : Prop where
  /-- every polygon bounds its region, which has an area -/
  bounds : ∀ p ∈ parts, Bounds p.1.poly p.2
  /-- initial moduli are positive -/
  modulus : ∀ p ∈ parts, 0 < initialModulus p.1.mat
  bar_modulus : ∀ b ∈ bars, 0 < initialModulus b.mat
  bar_area : ∀ b ∈ bars, 0 ≤ b.area
  /-- there is reinforcement -/
  steel : 0 < (bars.map fun b => initialModulus b.mat * b.area).sum
  /-- what the integrator's clipper cuts from the turned concrete surfaces is right -/
  clip : ∀ p ∈ parts, p.1.concrete = true →
    SplitsExactly split (p.1.poly.rotate (-Real.pi - theta)) (rotPt (-Real.pi - theta) '' p.2)
  /-- shapely cuts the turned surfaces rightly along horizontal lines that span them -/
  cut : ∀ p ∈ parts, ∀ a b : ℝ × ℝ, a.1 < b.1 → a.2 = b.2 →
    (∀ v ∈ (p.1.poly.rotate (-theta)).ext, a.1 < v.1 ∧ v.1 < b.1) →
    CutsWell sh (p.1.poly.rotate (-theta)) (rotPt (-theta) '' p.2) a b
  /-- the section is within a kilometre of the axis through the origin, lengths in mm -/
  size : ∀ p ∈ parts, ∀ x ∈ p.2, |height theta x| ≤ 1e6
  bar_size : ∀ b ∈ bars, |height theta b.pt| ≤ 1e6
  rigid : rigidity (parts.map fun p => p.1.member p.2) (bars.map GBar.rigidPoint) ≤ 1e24
  /-- no trial height of the search is exactly the axis (the bisection would lose it, `C23_fixed_curvature_violated`) -/
  generic : ∀ s : ℝ, (s = 1 ∨ s = -1) → ∀ p m : ℕ, 0 < p →
    axisImbalance theta (parts.map fun p => p.1.member p.2) (bars.map GBar.rigidPoint) (s * 100 * p / 2 ^ m) ≠ 0

variable {split : Polygon → ℝ → ℝ → ShapelyResult} {sh : Shapely} {theta : ℝ}
  {parts : List (RSurf × Set (ℝ × ℝ))} {bars : List GBar}

theorem CrackInput.members (h : CrackInput split sh theta parts bars) :
    GoodMembers (parts.map fun p => p.1.member p.2) (bars.map GBar.rigidPoint) where
  measurable := by
    intro m hm
    obtain ⟨p, hp, rfl⟩ := List.mem_map.1 hm
    exact (h.bounds p hp).1.measurable
  bounded := by
    intro m hm
    obtain ⟨p, hp, rfl⟩ := List.mem_map.1 hm
    exact (h.bounds p hp).1.bounded
  modulus := by
    intro m hm
    obtain ⟨p, hp, rfl⟩ := List.mem_map.1 hm
    exact (h.modulus p hp).le
  rigid := by
    intro m hm
    obtain ⟨b, hb, rfl⟩ := List.mem_map.1 hm
    exact mul_nonneg (h.bar_modulus b hb).le (h.bar_area b hb)

theorem CrackInput.sizes (h : CrackInput split sh theta parts bars) :
    (∀ m ∈ parts.map fun p => p.1.member p.2, ∀ x ∈ m.region, |height theta x| ≤ 1e6) ∧
    (∀ b ∈ bars.map GBar.rigidPoint, |height theta b.2| ≤ 1e6) ∧
    0 < ((bars.map GBar.rigidPoint).map Prod.fst).sum := by
  refine ⟨?_, ?_, ?_⟩
  · intro m hm
    obtain ⟨p, hp, rfl⟩ := List.mem_map.1 hm
    exact h.size p hp
  · intro m hm
    obtain ⟨b, hb, rfl⟩ := List.mem_map.1 hm
    exact h.bar_size b hb
  · rw [List.map_map]
    exact h.steel

/-- The search ends at a height with an imbalance of at most 1000. -/
theorem cracked_axis (h : CrackInput split sh theta parts bars) :
    ∃ z, crackAxis ((marinCrack split).axial ((parts.map Prod.fst).map (tempSurf theta))
        (bars.zipIdx.map (tempBar theta))) = .ok z ∧
      |axisImbalance theta (parts.map fun p => p.1.member p.2) (bars.map GBar.rigidPoint) z| ≤ 1000 := by
  set F := axisImbalance theta (parts.map fun p => p.1.member p.2) (bars.map GBar.rigidPoint) with hF
  set N := (marinCrack split).axial ((parts.map Prod.fst).map (tempSurf theta)) (bars.zipIdx.map (tempBar theta)) with hN
  set N' : ℝ → ℝ → ℝ := fun e _ => -1e-5 * F (1e5 * e) with hN'
  obtain ⟨hm1, hm2, hm3⟩ := h.sizes
  obtain ⟨sg1, sg2⟩ := axisImb_sign h.members theta hm1 hm2 hm3
  have hanti : Antitone F := axisImb_antitone h.members theta
  have hmono : Monotone fun e => N' e (-1e-5) := by
    intro x y hxy
    have := hanti (mul_le_mul_of_nonneg_left hxy (by norm_num : (0 : ℝ) ≤ 1e5))
    simp only [hN']
    linarith
  have hag : ∀ e, |e| ≤ 1e-3 * 2 ^ 14 → N e (-1e-5) = N' e (-1e-5) := by
    intro e he
    refine cracked_axial theta (fun p hp => (h.bounds p hp).1) h.clip fun p hp _ x hx => ?_
    have h1 := (abs_le.1 he).1
    have h2 := (abs_le.1 (h.size p hp x hx)).2
    norm_num at h1 h2 ⊢
    linarith
  have hreach : ∀ j : ℕ, 14 ≤ j → N' (-(1e-3 * 2 ^ j)) (-1e-5) < 0 ∧ 0 < N' (1e-3 * 2 ^ j) (-1e-5) := by
    intro j hj
    have hp : (2 : ℝ) ^ 14 ≤ 2 ^ j := pow_le_pow_right₀ (by norm_num) hj
    norm_num at hp
    have a1 := sg1 (1e5 * (-(1e-3 * 2 ^ j))) (by norm_num; linarith)
    have a2 := sg2 (1e5 * (1e-3 * 2 ^ j)) (by norm_num; linarith)
    simp only [hN']
    constructor <;> linarith
  have hloc := fixedCurvature_local N N' 0 (-1e-5) 14 hmono (hreach 14 le_rfl) hag
  have hsmall : ∀ e, |N' e (-1e-5)| ≤ 1e-2 → |F (1e5 * e)| ≤ 1000 := by
    intro e he
    simp only [hN', abs_mul] at he
    rw [show |(-1e-5 : ℝ)| = 1e-5 by norm_num] at he
    norm_num at he ⊢
    linarith
  have hz : ∀ e : ℝ, -e / -1e-5 = 1e5 * e := by intro e; norm_num; ring
  by_cases h0 : |N' 0 (-1e-5)| ≤ 1e-2
  · have : fixedCurvature N' 0 (-1e-5) 0 = some (.ok (0, -1e-5, 0), 1) := by
      unfold fixedCurvature
      simp only [sub_zero]
      rw [if_pos h0]
    refine ⟨1e5 * 0, ?_, hsmall 0 h0⟩
    simp only [crackAxis, hloc, this, hz]
  · obtain ⟨e, k, hf, hres⟩ := C23_monotone_partial N' 0 (-1e-5) 0
      (rigidity (parts.map fun p => p.1.member p.2) (bars.map GBar.rigidPoint)) hmono
      (by
        intro x y
        have := axisImb_lipschitz h.members theta (1e5 * x) (1e5 * y)
        simp only [hN']
        rw [← mul_sub, abs_mul, show |(-1e-5 : ℝ)| = 1e-5 by norm_num]
        rw [← mul_sub, abs_mul, show |(1e5 : ℝ)| = 1e5 by norm_num] at this
        have e := mul_le_mul_of_nonneg_left this (by norm_num : (0 : ℝ) ≤ 1e-5)
        refine e.trans (le_of_eq ?_)
        ring) h.rigid
      (by
        have := hreach 19 (by norm_num)
        simp only [zero_sub, zero_add]
        exact this)
      (by
        intro s hs p m hEq
        simp only [zero_add, hN'] at hEq
        rcases Nat.eq_zero_or_pos p with rfl | hp
        · apply h0
          simp only [hN']
          simp only [Nat.cast_zero, mul_zero, zero_div] at hEq
          rw [mul_zero, hEq]
          norm_num
        · refine h.generic s hs p m hp ?_
          have e : s * 100 * p / 2 ^ m = 1e5 * (s * 1e-3 * p / 2 ^ m) := by ring
          rw [e]
          have : (-1e-5 : ℝ) ≠ 0 := by norm_num
          exact (mul_eq_zero.1 hEq).resolve_left this)
    refine ⟨1e5 * e, ?_, hsmall e (by simpa using hres)⟩
    simp only [crackAxis, hloc, hf, hz]

/-! ### The cracked geometry -/

theorem bounds_rot (a : ℝ) {q : Polygon} {S : Set (ℝ × ℝ)} (h : Bounds q S) : Bounds (q.rotate a) (rotPt a '' S) := by
  refine ⟨encloses_rot a h.1, ?_⟩
  have h2 := h.2
  simp only [areaMoment, pow_zero, one_mul] at h2 ⊢
  rw [integral_rot a h.1.measurable]
  exact h2

theorem forall₂_zip {α β : Type} {P : α → β → Prop} {l : List α} {l' : List β} (h : List.Forall₂ P l l') :
    ∃ L : List (α × β), L.map Prod.fst = l ∧ L.map Prod.snd = l' ∧ ∀ x ∈ L, P x.1 x.2 := by
  induction h with
  | nil => exact ⟨[], rfl, rfl, by simp⟩
  | cons hp _ ih =>
    obtain ⟨L, h1, h2, h3⟩ := ih
    refine ⟨(_, _) :: L, by rw [List.map_cons, h1], by rw [List.map_cons, h2], ?_⟩
    intro x hx
    rcases List.mem_cons.1 hx with rfl | hx
    · exact hp
    · exact h3 x hx

/-- Material of the cracked geometry: the initial modulus is kept, the density is that of the material without sign. -/
def crackedMaterial (s : RSurf) : Material := crackMaterial s.mat.density (workingLaw s).law

theorem crackedMaterial_spec (s : RSurf) :
    initialModulus (crackedMaterial s) = initialModulus s.mat ∧ (crackedMaterial s).density = |s.mat.density| := by
  refine ⟨?_, rfl⟩
  unfold crackedMaterial crackMaterial workingLaw
  generalize initialModulus s.mat = E
  cases s.concrete with
  | true =>
    simp only [if_true, CrackLaw.law, UserDefined.law, initialModulus, UserDefined.tangent, UserDefined.slopeAt,
      UserDefined.slopes]
    norm_num [searchsorted]
  | false =>
    simp [CrackLaw.law, Elastic.law, initialModulus, Elastic.tangent]

/-- What remains of one surface. -/
theorem cracked_part {s : RSurf} {R : Set (ℝ × ℝ)} (hb : Bounds s.poly R) (z : ℝ)
    (hcut : ∀ a b : ℝ × ℝ, a.1 < b.1 → a.2 = b.2 → (∀ v ∈ (s.poly.rotate (-theta)).ext, a.1 < v.1 ∧ v.1 < b.1) →
      CutsWell sh (s.poly.rotate (-theta)) (rotPt (-theta) '' R) a b) :
    ∃ pieces : List (GSurf × Set (ℝ × ℝ)),
      (crackSurface sh z (tempSurf theta s)).map (fun g => (⟨turnPoly theta g.poly, g.mat⟩ : GSurf)) =
        pieces.map Prod.fst ∧
      (∀ p ∈ pieces, Bounds p.1.poly p.2 ∧ p.1.mat = crackedMaterial s ∧ p.2 ⊆ upperSide theta z) ∧
      ∀ f : ℝ × ℝ → ℝ, Continuous f →
        (pieces.map fun p => ∫ x in p.2, f x).sum = ∫ x in R ∩ upperSide theta z, f x := by
  have hb' := bounds_rot (-theta) hb
  have hne := bounds_ext_ne hb'.1
  obtain ⟨As, Bs, h1, h2, h3, h4, h5⟩ := C64_split_partial (sh := sh) hb' (0, z) 0
    (by rw [Real.cos_zero]; norm_num) (by
      intro a b hab _ hs
      simp only [Real.sin_zero, mul_zero, Real.cos_zero, mul_one] at hs
      obtain ⟨v, hv⟩ := List.exists_mem_of_ne_nil _ hne
      have := hab v hv
      exact hcut a b (by linarith [this.1, this.2]) (by linarith) hab)
  have hline : ∀ x, x ∈ aboveLine (0, z) (Real.tan 0) ↔ z ≤ x.2 := by
    intro x
    simp [aboveLine]
  obtain ⟨L, l1, l2, l3⟩ := forall₂_zip h1
  refine ⟨L.map fun x => (⟨x.1.rotate theta, crackedMaterial s⟩, rotPt theta '' x.2), ?_, ?_, ?_⟩
  · simp only [crackSurface, tempSurf, turnPoly_eq, List.map_map, Function.comp_def]
    rw [← l1, List.map_map]
    rfl
  · intro p hp
    obtain ⟨x, hx, rfl⟩ := List.mem_map.1 hp
    refine ⟨bounds_rot theta (l3 x hx), rfl, ?_⟩
    rintro _ ⟨y, hy, rfl⟩
    have hS : x.2 ∈ As := l2 ▸ List.mem_map_of_mem hx
    have := (hline y).1 (h3 _ hS hy)
    simp only [upperSide, Set.mem_ofPred_eq]
    rw [← height_rot, rotPt_neg]
    exact this
  · intro f hf
    have hmA : ∀ S ∈ As, MeasurableSet S ∧ Bornology.IsBounded S := by
      intro S hS
      obtain ⟨q, -, hq⟩ := forall₂_mem h1 S hS
      exact ⟨hq.1.measurable, hq.1.bounded⟩
    have hmB : ∀ S ∈ Bs, MeasurableSet S ∧ Bornology.IsBounded S := by
      intro S hS
      obtain ⟨q, -, hq⟩ := forall₂_mem h2 S hS
      exact ⟨hq.1.measurable, hq.1.bounded⟩
    have hrc : Continuous (rotPt theta) := by unfold rotPt; fun_prop
    have := above_integral hb'.1.measurable hmA hmB h3 h4 h5 (g := fun x => f (rotPt theta x)) (hf.comp hrc)
    rw [List.map_map]
    have e1 : (L.map ((fun p : GSurf × Set (ℝ × ℝ) => ∫ x in p.2, f x) ∘
        fun x : Polygon × Set (ℝ × ℝ) => (⟨x.1.rotate theta, crackedMaterial s⟩, rotPt theta '' x.2))) =
        As.map fun S => ∫ x in S, f (rotPt theta x) := by
      rw [← l2, List.map_map]
      refine List.map_congr_left fun x hx => ?_
      simp only [Function.comp_def]
      exact integral_rot theta (l3 x hx).1.measurable f
    rw [e1, this]
    have e2 : rotPt (-theta) '' R ∩ aboveLine (0, z) (Real.tan 0) = rotPt (-theta) '' (R ∩ upperSide theta z) := by
      ext x
      rw [Set.mem_inter_iff, hline]
      constructor
      · rintro ⟨⟨y, hy, rfl⟩, hx⟩
        refine ⟨y, ⟨hy, ?_⟩, rfl⟩
        simp only [upperSide, Set.mem_ofPred_eq]
        rwa [height_rot] at hx
      · rintro ⟨y, ⟨hy, hz⟩, rfl⟩
        refine ⟨⟨y, hy, rfl⟩, ?_⟩
        rw [height_rot]
        exact hz
    rw [e2, integral_rot _ (hb.1.measurable.inter (upperSide_measurable theta z))]
    simp only [rot_back]

/-- The cracked body: the parts of the surfaces on the compression side of the axis at height `z`, with the given weight
(a function of the initial modulus and of the density) per unit area, and all bars. -/
def crackedBody (w : ℝ → ℝ → ℝ) (theta z : ℝ) (parts : List (RSurf × Set (ℝ × ℝ))) (bars : List GBar) : Body :=
  ⟨parts.map fun p => (w (initialModulus p.1.mat) |p.1.mat.density|, p.2 ∩ upperSide theta z),
    bars.map fun b => (w (initialModulus b.mat) |b.mat.density| * b.area, b.pt)⟩

/-- The geometry `g` is that body. -/
structure IsCracked (theta z : ℝ) (parts : List (RSurf × Set (ℝ × ℝ))) (bars : List GBar) (g : GSection)
    (pieces : List (GSurf × Set (ℝ × ℝ))) : Prop where
  surfs : g.surfs = pieces.map Prod.fst
  bounds : ∀ p ∈ pieces, Bounds p.1.poly p.2
  side : ∀ p ∈ pieces, p.2 ⊆ upperSide theta z
  placed : g.bars.map (fun b => (b.pt, b.area)) = bars.map fun b => (b.pt, b.area)
  modulus : ∀ p ∈ pieces, ∃ q ∈ parts, initialModulus p.1.mat = initialModulus q.1.mat
  bar_modulus : g.bars.map (fun b => initialModulus b.mat) = bars.map fun b => initialModulus b.mat
  integral : ∀ (w : ℝ → ℝ → ℝ) (f : ℝ × ℝ → ℝ), Continuous f →
    (sectionBody (fun m => w (initialModulus m) m.density) pieces g.bars).integral f =
      (crackedBody w theta z parts bars).integral f

theorem cracked_pieces (z : ℝ) : ∀ parts : List (RSurf × Set (ℝ × ℝ)), (∀ p ∈ parts, Bounds p.1.poly p.2) →
    (∀ p ∈ parts, ∀ a b : ℝ × ℝ, a.1 < b.1 → a.2 = b.2 →
      (∀ v ∈ (p.1.poly.rotate (-theta)).ext, a.1 < v.1 ∧ v.1 < b.1) →
      CutsWell sh (p.1.poly.rotate (-theta)) (rotPt (-theta) '' p.2) a b) →
    ∃ pieces : List (GSurf × Set (ℝ × ℝ)),
      ((((parts.map Prod.fst).map (tempSurf theta)).flatMap (crackSurface sh z)).map
        fun g => (⟨turnPoly theta g.poly, g.mat⟩ : GSurf)) = pieces.map Prod.fst ∧
      (∀ p ∈ pieces, Bounds p.1.poly p.2 ∧ p.2 ⊆ upperSide theta z ∧
        ∃ q ∈ parts, initialModulus p.1.mat = initialModulus q.1.mat) ∧
      ∀ (w : ℝ → ℝ → ℝ) (f : ℝ × ℝ → ℝ), Continuous f →
        (pieces.map fun p => w (initialModulus p.1.mat) p.1.mat.density * ∫ x in p.2, f x).sum =
          (parts.map fun p => w (initialModulus p.1.mat) |p.1.mat.density| *
            ∫ x in p.2 ∩ upperSide theta z, f x).sum := by
  intro parts
  induction parts with
  | nil => intro _ _; exact ⟨[], by simp, by simp, by simp⟩
  | cons p parts ih =>
    intro hb hc
    obtain ⟨P, i1, i2, i3⟩ := ih (fun q hq => hb q (List.mem_cons_of_mem _ hq)) fun q hq => hc q (List.mem_cons_of_mem _ hq)
    obtain ⟨Q, j1, j2, j3⟩ := cracked_part (hb p List.mem_cons_self) z (hc p List.mem_cons_self)
    refine ⟨Q ++ P, ?_, ?_, ?_⟩
    · rw [List.map_cons, List.map_cons, List.flatMap_cons, List.map_append, i1, j1, List.map_append]
    · intro x hx
      rcases List.mem_append.1 hx with hx | hx
      · obtain ⟨a, b, c⟩ := j2 x hx
        exact ⟨a, c, p, List.mem_cons_self, by rw [b, (crackedMaterial_spec p.1).1]⟩
      · obtain ⟨a, b, q, hq, e⟩ := i2 x hx
        exact ⟨a, b, q, List.mem_cons_of_mem _ hq, e⟩
    · intro w f hf
      rw [List.map_append, List.sum_append, i3 w f hf, List.map_cons, List.sum_cons]
      congr 1
      rw [← j3 f hf, ← List.sum_map_mul_left]
      refine congrArg List.sum (List.map_congr_left fun x hx => ?_)
      rw [(j2 x hx).2.1, (crackedMaterial_spec p.1).1, (crackedMaterial_spec p.1).2]

/-- **C63 (geometry).** Under the hypotheses of `CrackInput`, the search for the neutral axis succeeds and the cracked geometry
is, turned back into place, exactly the part of the surfaces on the compression side of that axis (any integral over it with any
weight is the integral over those parts) and all the bars at their original positions, each with its initial modulus; the axis
`z` is within `1000 / Σ E A_bars` of the only axis `z0` about which the cracked section is in equilibrium. -/
theorem C63_geometry_partial (h : CrackInput split sh theta parts bars) :
    ∃ g z z0 pieces, crackedGeometry (marinCrack split) sh theta (parts.map Prod.fst) bars = .ok g ∧
      IsCracked theta z parts bars g pieces ∧
      |axisImbalance theta (parts.map fun p => p.1.member p.2) (bars.map GBar.rigidPoint) z| ≤ 1000 ∧
      (∀ z', axisImbalance theta (parts.map fun p => p.1.member p.2) (bars.map GBar.rigidPoint) z' = 0 ↔ z' = z0) ∧
      |z - z0| * (bars.map fun b => initialModulus b.mat * b.area).sum ≤ 1000 := by
  obtain ⟨z, hz, himb⟩ := cracked_axis h
  obtain ⟨hm1, hm2, hm3⟩ := h.sizes
  obtain ⟨z0, hz0, -, hroot⟩ := axisImb_root h.members theta hm1 hm2 hm3
  have hst : ((bars.map GBar.rigidPoint).map Prod.fst).sum = (bars.map fun b => initialModulus b.mat * b.area).sum := by
    rw [List.map_map]; rfl
  rw [hst] at hroot hm3
  obtain ⟨pieces, p1, p2, p3⟩ := cracked_pieces (sh := sh) (theta := theta) z parts h.bounds h.cut
  have hsec := crackSection_ok theta (surfs := parts.map Prod.fst) (bars := bars)
    (by
      intro s hs
      obtain ⟨p, hp, rfl⟩ := List.mem_map.1 hs
      exact h.modulus p hp) h.bar_modulus
  have hbars : ∀ (l : List GBar) (k : ℕ), ((l.zipIdx k).map (tempBar theta)).map (fun b =>
      (⟨rotatePt theta (0, 0) true b.bar.pt, b.bar.area, crackMaterial b.density b.bar.law.law⟩ : GBar)) =
      l.map fun b => ⟨b.pt, b.area, crackMaterial b.mat.density (Elastic.law ⟨initialModulus b.mat, none⟩)⟩ := by
    intro l
    induction l with
    | nil => intro k; rfl
    | cons b l ih =>
      intro k
      simp only [List.zipIdx_cons, List.map_cons, ih]
      congr 1
      simp only [tempBar, rotatePt_origin, rot_back]
  refine ⟨⟨pieces.map Prod.fst, bars.map fun b =>
    ⟨b.pt, b.area, crackMaterial b.mat.density (Elastic.law ⟨initialModulus b.mat, none⟩)⟩⟩, z, z0, pieces, ?_, ?_, himb, ?_, (hroot z).trans himb⟩
  · simp only [crackedGeometry, hsec, bind, Except.bind, hz, pure, Except.pure, p1, hbars]
  · have hEb : ∀ b : GBar, initialModulus (crackMaterial b.mat.density (Elastic.law ⟨initialModulus b.mat, none⟩)) =
        initialModulus b.mat := by
      intro b; simp [crackMaterial, initialModulus, Elastic.law, Elastic.tangent]
    refine ⟨rfl, fun p hp => (p2 p hp).1, fun p hp => (p2 p hp).2.1, ?_, fun p hp => (p2 p hp).2.2, ?_, ?_⟩
    · simp only [List.map_map, Function.comp_def]
    · simp only [List.map_map, Function.comp_def, hEb]
    · intro w f hf
      simp only [Body.integral, sectionBody, crackedBody, List.map_map, Function.comp_def, p3 w f hf, hEb]
      rfl
  · intro z'
    constructor
    · intro hz'
      have := hroot z'
      rw [hz', abs_zero] at this
      have h1 : |z' - z0| = 0 := by
        refine le_antisymm ?_ (abs_nonneg _)
        by_contra hn
        have := mul_pos (not_le.1 hn) hm3
        linarith
      exact sub_eq_zero.1 (abs_eq_zero.1 h1)
    · rintro rfl; exact hz0

end

end SC
