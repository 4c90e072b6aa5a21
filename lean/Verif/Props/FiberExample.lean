import Verif.Props.FiberLaws
import Verif.Props.Profile

/-! # C57: a mesher that meets the assumptions, and a concrete section -/

set_option autoImplicit false

namespace SC

open Spec MeasureTheory

theorem volume_diagonal (c : ℝ) : volume {x : ℝ × ℝ | x.2 = x.1 + c} = 0 := by
  rw [Measure.volume_eq_prod, Measure.measure_prod_null (measurableSet_eq_fun measurable_snd (by fun_prop))]
  refine Filter.Eventually.of_forall fun x => ?_
  have : Prod.mk x ⁻¹' {y : ℝ × ℝ | y.2 = y.1 + c} = {x + c} := by ext y; simp
  simp only [this, Pi.zero_apply, measure_singleton]

/-- Rectangle `[a, a + w] x [b, b + h]`. -/
def box (a b w h : ℝ) : Set (ℝ × ℝ) := Set.Icc a (a + w) ×ˢ Set.Icc b (b + h)

/-- A square cell cut along its diagonal. -/
def cell (a b s : ℝ) : List ((ℝ × ℝ) × (ℝ × ℝ) × (ℝ × ℝ)) :=
  [((a, b), (a + s, b), (a + s, b + s)), ((a, b), (a + s, b + s), (a, b + s))]

theorem lower_triangle (a b s : ℝ) (hs : 0 < s) : triangle (a, b) (a + s, b) (a + s, b + s) =
    {x | b ≤ x.2 ∧ x.2 - b ≤ x.1 - a ∧ x.1 ≤ a + s} := by
  rw [triangle_eq_image]
  ext ⟨y, z⟩
  simp only [Set.mem_image, simplex, triMap, Set.mem_ofPred_eq, Prod.mk.injEq, Prod.exists]
  constructor
  · rintro ⟨p, q, ⟨hp, hq, hpq⟩, rfl, rfl⟩
    have h1 := mul_nonneg hp hs.le
    have h2 := mul_nonneg hq hs.le
    have h3 := mul_le_mul_of_nonneg_right hpq hs.le
    refine ⟨by nlinarith, by nlinarith, by nlinarith⟩
  · rintro ⟨h1, h2, h3⟩
    refine ⟨(y - a - (z - b)) / s, (z - b) / s, ⟨div_nonneg (by linarith) hs.le, div_nonneg (by linarith) hs.le, ?_⟩, ?_, ?_⟩
    · rw [← add_div, div_le_one hs]; linarith
    · field_simp; ring
    · field_simp; ring

theorem upper_triangle (a b s : ℝ) (hs : 0 < s) : triangle (a, b) (a + s, b + s) (a, b + s) =
    {x | a ≤ x.1 ∧ x.1 - a ≤ x.2 - b ∧ x.2 ≤ b + s} := by
  rw [triangle_eq_image]
  ext ⟨y, z⟩
  simp only [Set.mem_image, simplex, triMap, Set.mem_ofPred_eq, Prod.mk.injEq, Prod.exists]
  constructor
  · rintro ⟨p, q, ⟨hp, hq, hpq⟩, rfl, rfl⟩
    have h1 := mul_nonneg hp hs.le
    have h2 := mul_nonneg hq hs.le
    have h3 := mul_le_mul_of_nonneg_right hpq hs.le
    refine ⟨by nlinarith, by nlinarith, by nlinarith⟩
  · rintro ⟨h1, h2, h3⟩
    refine ⟨(y - a) / s, (z - b - (y - a)) / s, ⟨div_nonneg (by linarith) hs.le, div_nonneg (by linarith) hs.le, ?_⟩, ?_, ?_⟩
    · rw [← add_div, div_le_one hs]; linarith
    · field_simp; ring
    · field_simp; ring

theorem cell_triangulates (a b s : ℝ) (hs : 0 < s) : Triangulates (cell a b s) (box a b s s) := by
  have hin1 : triangle (a, b) (a + s, b) (a + s, b + s) ⊆ box a b s s := by
    rw [lower_triangle a b s hs]
    rintro ⟨y, z⟩ ⟨h1, h2, h3⟩
    simp only at h1 h2 h3
    exact ⟨⟨by simp only; linarith, h3⟩, ⟨h1, by simp only; linarith⟩⟩
  have hin2 : triangle (a, b) (a + s, b + s) (a, b + s) ⊆ box a b s s := by
    rw [upper_triangle a b s hs]
    rintro ⟨y, z⟩ ⟨h1, h2, h3⟩
    simp only at h1 h2 h3
    exact ⟨⟨h1, by simp only; linarith⟩, ⟨by simp only; linarith, h3⟩⟩
  refine ⟨?_, ?_, ?_⟩
  · intro t ht
    simp only [cell, List.mem_cons, List.not_mem_nil, or_false] at ht
    rcases ht with rfl | rfl
    · simp [cross]; exact hs.ne'
    · simp [cross]; exact hs.ne'
  · intro t ht
    simp only [cell, List.mem_cons, List.not_mem_nil, or_false] at ht
    rcases ht with rfl | rfl
    · exact hin1
    · exact hin2
  · unfold CoversOnce
    filter_upwards [measure_eq_zero_iff_ae_notMem.1 (volume_diagonal (b - a))] with x hx
    obtain ⟨y, z⟩ := x
    simp only [Set.mem_ofPred_eq] at hx
    simp only [cell, List.map_cons, List.map_nil, List.sum_cons, List.sum_nil, add_zero]
    rw [lower_triangle a b s hs, upper_triangle a b s hs]
    simp only [Set.indicator_apply, Set.mem_ofPred_eq, box, Set.mem_prod, Set.mem_Icc]
    rcases lt_or_gt_of_ne (show z - b ≠ y - a from fun h => hx (by linarith)) with h | h
    · have n2 : ¬ (a ≤ y ∧ y - a ≤ z - b ∧ z ≤ b + s) := fun ⟨_, h2, _⟩ => by linarith
      rw [if_neg n2, add_zero]
      refine if_congr ⟨fun ⟨h1, h2, h3⟩ => ⟨⟨by linarith, h3⟩, h1, by linarith⟩, fun ⟨⟨h1, h2⟩, h3, h4⟩ => ⟨h3, by linarith, h2⟩⟩ rfl rfl
    · have n1 : ¬ (b ≤ z ∧ z - b ≤ y - a ∧ y ≤ a + s) := fun ⟨_, h2, _⟩ => by linarith
      rw [if_neg n1, zero_add]
      refine if_congr ⟨fun ⟨h1, h2, h3⟩ => ⟨⟨h1, by linarith⟩, by linarith, h3⟩, fun ⟨⟨h1, h2⟩, h3, h4⟩ => ⟨h1, by linarith, h4⟩⟩ rfl rfl

/-- Two meshes side by side. -/
theorem triangulates_append {m1 m2 : List ((ℝ × ℝ) × (ℝ × ℝ) × (ℝ × ℝ))} {R1 R2 R : Set (ℝ × ℝ)} (h1 : Triangulates m1 R1)
    (h2 : Triangulates m2 R2) (hR : R = R1 ∪ R2) (h0 : volume (R1 ∩ R2) = 0) : Triangulates (m1 ++ m2) R := by
  subst hR
  refine ⟨?_, ?_, ?_⟩
  · intro t ht
    rcases List.mem_append.1 ht with h | h
    · exact h1.proper t h
    · exact h2.proper t h
  · intro t ht
    rcases List.mem_append.1 ht with h | h
    · exact (h1.inside t h).trans Set.subset_union_left
    · exact (h2.inside t h).trans Set.subset_union_right
  · unfold CoversOnce
    filter_upwards [h1.covers, h2.covers, measure_eq_zero_iff_ae_notMem.1 h0] with x c1 c2 c0
    rw [List.map_append, List.map_append, List.sum_append, c1, c2]
    by_cases a1 : x ∈ R1 <;> by_cases a2 : x ∈ R2 <;> simp_all

/-- `k` cells in a row. -/
def cellRow (a b s : ℝ) : ℕ → List ((ℝ × ℝ) × (ℝ × ℝ) × (ℝ × ℝ))
  | 0 => cell a b s
  | k + 1 => cellRow a b s k ++ cell (a + (k + 1) * s) b s

/-- `k` rows of `n` cells. -/
def cellGrid (a b s : ℝ) (n : ℕ) : ℕ → List ((ℝ × ℝ) × (ℝ × ℝ) × (ℝ × ℝ))
  | 0 => cellRow a b s n
  | k + 1 => cellGrid a b s n k ++ cellRow a (b + (k + 1) * s) s n

theorem cellRow_triangulates (a b s : ℝ) (hs : 0 < s) (k : ℕ) : Triangulates (cellRow a b s k) (box a b ((k + 1) * s) s) := by
  induction k with
  | zero => simpa [cellRow] using cell_triangulates a b s hs
  | succ k ih =>
    refine triangulates_append ih (cell_triangulates (a + (k + 1) * s) b s hs) ?_ ?_
    · have hk : (0:ℝ) ≤ (k + 1) * s := by positivity
      ext ⟨y, z⟩
      simp only [box, Set.mem_prod, Set.mem_Icc, Set.mem_union]
      push_cast
      constructor
      · rintro ⟨⟨h1, h2⟩, h3⟩
        rcases le_total y (a + (k + 1) * s) with h | h
        · exact Or.inl ⟨⟨h1, h⟩, h3⟩
        · exact Or.inr ⟨⟨h, by nlinarith⟩, h3⟩
      · rintro (⟨⟨h1, h2⟩, h3⟩ | ⟨⟨h1, h2⟩, h3⟩)
        · exact ⟨⟨h1, by nlinarith⟩, h3⟩
        · exact ⟨⟨by linarith, by nlinarith⟩, h3⟩
    · refine measure_mono_null ?_ (volume_vline (a + (k + 1) * s))
      rintro ⟨y, z⟩ ⟨h1, h2⟩
      exact le_antisymm h1.1.2 h2.1.1

theorem cellGrid_triangulates (a b s : ℝ) (hs : 0 < s) (n k : ℕ) :
    Triangulates (cellGrid a b s n k) (box a b ((n + 1) * s) ((k + 1) * s)) := by
  induction k with
  | zero => simpa [cellGrid] using cellRow_triangulates a b s hs n
  | succ k ih =>
    refine triangulates_append ih (cellRow_triangulates a (b + (k + 1) * s) s hs n) ?_ ?_
    · have hk : (0:ℝ) ≤ (k + 1) * s := by positivity
      ext ⟨y, z⟩
      simp only [box, Set.mem_prod, Set.mem_Icc, Set.mem_union]
      push_cast
      constructor
      · rintro ⟨h3, ⟨h1, h2⟩⟩
        rcases le_total z (b + (k + 1) * s) with h | h
        · exact Or.inl ⟨h3, ⟨h1, h⟩⟩
        · exact Or.inr ⟨h3, ⟨h, by nlinarith⟩⟩
      · rintro (⟨h3, ⟨h1, h2⟩⟩ | ⟨h3, ⟨h1, h2⟩⟩)
        · exact ⟨h3, ⟨h1, by nlinarith⟩⟩
        · exact ⟨h3, ⟨by linarith, by nlinarith⟩⟩
    · refine measure_mono_null ?_ (volume_line (b + (k + 1) * s))
      rintro ⟨y, z⟩ ⟨h1, h2⟩
      exact le_antisymm h1.2.2 h2.2.1

theorem cell_quality (a b s amax : ℝ) (hs : 0 < s) (ha : s ^ 2 / 2 ≤ amax) : Quality amax (cell a b s) := by
  have d1 : √(s ^ 2) = s := Real.sqrt_sq hs.le
  have d2 : √(s ^ 2 + s ^ 2) ≤ 2 * s := by
    rw [show (2 * s) = √((2 * s) ^ 2) from (Real.sqrt_sq (by linarith)).symm]
    exact Real.sqrt_le_sqrt (by nlinarith)
  have hss : |s * s| = s * s := abs_of_pos (by positivity)
  have d3 : √(s ^ 2 + s ^ 2) * s / 2 ≤ s * s := by nlinarith
  intro t ht
  simp only [cell, List.mem_cons, List.not_mem_nil, or_false] at ht
  rcases ht with rfl | rfl <;> refine ⟨?_, ?_, ?_, ?_⟩ <;> simp [SineHalf, distSq, cross, d1] <;>
    first
      | nlinarith
      | (rw [mul_comm]; nlinarith)

theorem quality_append {amax : ℝ} {m1 m2 : List ((ℝ × ℝ) × (ℝ × ℝ) × (ℝ × ℝ))} (h1 : Quality amax m1) (h2 : Quality amax m2) :
    Quality amax (m1 ++ m2) := by
  intro t ht
  rcases List.mem_append.1 ht with h | h
  · exact h1 t h
  · exact h2 t h

theorem cellGrid_quality (a b s amax : ℝ) (hs : 0 < s) (ha : s ^ 2 / 2 ≤ amax) (n k : ℕ) : Quality amax (cellGrid a b s n k) := by
  have hrow : ∀ b n, Quality amax (cellRow a b s n) := by
    intro b n
    induction n with
    | zero => exact cell_quality a b s amax hs ha
    | succ n ih => exact quality_append ih (cell_quality _ _ s amax hs ha)
  induction k with
  | zero => exact hrow b n
  | succ k ih => exact quality_append ih (hrow _ n)

/-- A mesher for the unit square that is good for every requested area: `n x n` cells with `n = ceil(1 / amax)`. -/
noncomputable def unitMesh (amax : ℝ) : List ((ℝ × ℝ) × (ℝ × ℝ) × (ℝ × ℝ)) :=
  cellGrid 0 0 (1 / (⌈1 / amax⌉₊ + 1)) ⌈1 / amax⌉₊ ⌈1 / amax⌉₊

theorem unitMesh_good (amax : ℝ) (h : 0 < amax) : Triangulates (unitMesh amax) (box 0 0 1 1) ∧ Quality amax (unitMesh amax) := by
  have hn : (0:ℝ) < ⌈1 / amax⌉₊ + 1 := by positivity
  have hs : 0 < 1 / ((⌈1 / amax⌉₊ : ℝ) + 1) := by positivity
  refine ⟨?_, cellGrid_quality _ _ _ _ hs ?_ _ _⟩
  · have := cellGrid_triangulates 0 0 _ hs ⌈1 / amax⌉₊ ⌈1 / amax⌉₊
    rwa [mul_one_div_cancel hn.ne'] at this
  · have hc : 1 / amax ≤ ⌈1 / amax⌉₊ := Nat.le_ceil _
    have h1 : 1 / ((⌈1 / amax⌉₊ : ℝ) + 1) ≤ amax := by
      rw [div_le_iff₀ hn]
      rw [div_le_iff₀ h] at hc
      nlinarith
    have h2 : 1 / ((⌈1 / amax⌉₊ : ℝ) + 1) ≤ 1 := by
      rw [div_le_one hn]
      have : (0:ℝ) ≤ ⌈1 / amax⌉₊ := Nat.cast_nonneg _
      linarith
    nlinarith

/-- A unit square of parabola-rectangle concrete (fc 30, 0.002, 0.0035, exponent 2). -/
noncomputable def unitPart (id : ℕ) : MeshPart :=
  ⟨⟨1, unitMesh, ⟨id, (ParabolaRectangle.new 30 0.002 0.0035 2).law⟩⟩, box 0 0 1 1, 30000⟩

theorem unitPart_good (id : ℕ) (e : Fin 3 → ℝ) (ms : ℝ) (hms : 0 < ms)
    (he : ∀ x ∈ box 0 0 1 1, -0.003 ≤ planeStrain e x.1 x.2) : (unitPart id).Good e ms := by
  have hin : ∀ x ∈ box 0 0 1 1, -|(0.0035:ℝ)| < planeStrain e x.1 x.2 ∧ Clear (planeStrain e x.1 x.2) (-|(0.0035:ℝ)|) := by
    intro x hx
    have h := he x hx
    have hu : |(0.0035:ℝ)| = 0.0035 := abs_of_pos (by norm_num)
    rw [hu]
    refine ⟨by linarith, ?_⟩
    unfold Clear
    rw [abs_neg, hu, lt_abs]
    left
    linarith
  refine ⟨measurableSet_Icc.prod measurableSet_Icc, ?_, ?_, ?_, measurable_parabola _, by norm_num [unitPart], ?_⟩
  · simp only [unitPart, areaMoment, pow_zero, mul_one, box]
    rw [setIntegral_const, smul_eq_mul, mul_one, Measure.real, Measure.volume_eq_prod, Measure.prod_prod]
    simp
  · exact (unitMesh_good _ (by simp [unitPart, hms])).1
  · exact (unitMesh_good _ (by simp [unitPart, hms])).2
  · intro x hx y hy
    have := C57_parabola_slope 30 0.002 0.0035 2 (by norm_num) (by norm_num [abs_of_pos]) (by norm_num [abs_of_pos]) (by norm_num)
      (hin x hx) (hin y hy)
    rw [show (2:ℝ) * |30| / |0.002| = 30000 by norm_num [abs_of_pos]] at this
    exact this

/-- The assumptions of `C57_forces` and `C57_converges` are met: that square with two bars under a strain plane with curvature. -/
example : ∃ parts : List MeshPart, ∃ bars : List Bar, ∃ e : Fin 3 → ℝ, parts ≠ [] ∧ bars.length = 2 ∧ e 1 ≠ 0 ∧
    SameIds (bars.map Bar.law) ∧ ∀ p ∈ parts, ∀ ms, 0 < ms → ms ≤ 1 → p.Good e ms := by
  refine ⟨[unitPart 0], [⟨0.1, 0.1, 0.01, ⟨1, Elastic.law ⟨200000, none⟩⟩⟩, ⟨0.9, 0.1, 0.01, ⟨1, Elastic.law ⟨200000, none⟩⟩⟩],
    ![0.001, -0.003, 0], by simp, rfl, by norm_num, ?_, ?_⟩
  · intro a ha b hb _
    simp only [List.map_cons, List.map_nil, List.mem_cons, List.not_mem_nil, or_false, or_self] at ha hb
    rw [ha, hb]
  · intro p hp ms h0 h1
    rw [List.mem_singleton.1 hp]
    refine unitPart_good 0 _ ms h0 ?_
    rintro ⟨y, z⟩ ⟨hy, hz⟩
    simp only [Set.mem_Icc] at hz
    simp [planeStrain]
    linarith

end SC
