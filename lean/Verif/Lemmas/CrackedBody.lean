import Verif.Spec.Cracked
import Verif.Lemmas.Region
import Mathlib.Topology.Order.IntermediateValue

/-! # The imbalance of a cracked section is strictly decreasing in the height of the axis -/

set_option autoImplicit false

namespace SC

open Spec MeasureTheory

theorem height_continuous (theta : ℝ) : Continuous (height theta) := by unfold height; fun_prop

theorem upperSide_measurable (theta z : ℝ) : MeasurableSet (upperSide theta z) :=
  (isClosed_le continuous_const (height_continuous theta)).measurableSet

/-- Contribution of a point. -/
noncomputable def pull (noTension : Bool) (t : ℝ) : ℝ := if noTension then max t 0 else t

theorem pull_continuous (b : Bool) : Continuous (pull b) := by
  unfold pull
  cases b
  · simp only [Bool.false_eq_true, if_false]; exact continuous_id
  · simpa using continuous_id.max continuous_const

theorem pull_mono (b : Bool) : Monotone (pull b) := by
  intro x y h
  unfold pull
  cases b
  · simpa using h
  · simp only [if_true]; exact max_le_max h le_rfl

theorem pull_lip (b : Bool) {x y : ℝ} (h : x ≤ y) : pull b y - pull b x ≤ y - x := by
  unfold pull
  cases b
  · simp
  · simp only [if_true]
    rcases le_total x 0 with h1 | h1 <;> rcases le_total y 0 with h2 | h2 <;> simp [h1, h2] <;>
      linarith

theorem pull_pos {b : Bool} {t : ℝ} (h : 0 ≤ t) : 0 ≤ pull b t := by
  unfold pull; cases b <;> simp [h]

theorem pull_nonpos {b : Bool} {t : ℝ} (h : t ≤ 0) : pull b t ≤ 0 := by
  unfold pull; cases b <;> simp [h]

theorem working_integral {m : Member} (hm : MeasurableSet m.region) (theta z : ℝ) :
    ∫ x in m.working theta z, (height theta x - z) = ∫ x in m.region, pull m.noTension (height theta x - z) := by
  unfold Member.working
  cases hb : m.noTension with
  | false => simp [pull]
  | true =>
    simp only [if_true]
    rw [← setIntegral_indicator (upperSide_measurable theta z)]
    refine setIntegral_congr_fun hm fun x _ => ?_
    simp only [pull, if_true, Set.indicator_apply, upperSide, Set.mem_ofPred_eq]
    split_ifs with h
    · exact (max_eq_left (by linarith)).symm
    · exact (max_eq_right (by linarith [not_le.1 h])).symm

/-- The members are bounded measurable regions of non-negative modulus, the bars do not have negative rigidity. -/
structure GoodMembers (ms : List Member) (bars : List (ℝ × (ℝ × ℝ))) : Prop where
  measurable : ∀ m ∈ ms, MeasurableSet m.region
  bounded : ∀ m ∈ ms, Bornology.IsBounded m.region
  modulus : ∀ m ∈ ms, 0 ≤ m.E
  rigid : ∀ b ∈ bars, 0 ≤ b.1

theorem pull_integrable {m : Member} (hb : Bornology.IsBounded m.region) (theta z : ℝ) :
    IntegrableOn (fun x => pull m.noTension (height theta x - z)) m.region :=
  continuous_integrableOn ((pull_continuous _).comp ((height_continuous theta).sub continuous_const)) hb

/-- Both bounds at once. -/
theorem axisImb_between {ms : List Member} {bars : List (ℝ × (ℝ × ℝ))} (h : GoodMembers ms bars) (theta : ℝ) {z z' : ℝ}
    (hz : z ≤ z') : (bars.map Prod.fst).sum * (z' - z) ≤ axisImbalance theta ms bars z - axisImbalance theta ms bars z' ∧
      axisImbalance theta ms bars z - axisImbalance theta ms bars z' ≤ rigidity ms bars * (z' - z) := by
  have hbars : ∀ l : List (ℝ × (ℝ × ℝ)), (l.map fun b => b.1 * (height theta b.2 - z)).sum -
      (l.map fun b => b.1 * (height theta b.2 - z')).sum = (l.map Prod.fst).sum * (z' - z) := by
    intro l
    induction l with
    | nil => simp
    | cons b l ih =>
      simp only [List.map_cons, List.sum_cons]
      linear_combination ih
  have hms : 0 ≤ (ms.map fun m => m.E * ∫ x in m.working theta z, (height theta x - z)).sum -
        (ms.map fun m => m.E * ∫ x in m.working theta z', (height theta x - z')).sum ∧
      (ms.map fun m => m.E * ∫ x in m.working theta z, (height theta x - z)).sum -
        (ms.map fun m => m.E * ∫ x in m.working theta z', (height theta x - z')).sum ≤
        (ms.map fun m => m.E * ∫ _ in m.region, (1 : ℝ)).sum * (z' - z) := by
    have h1 := h.measurable
    have h2 := h.bounded
    have h3 := h.modulus
    clear h hbars
    induction ms with
    | nil => simp
    | cons m ms ih =>
      obtain ⟨i1, i2⟩ := ih (fun a ha => h1 a (List.mem_cons_of_mem _ ha)) (fun a ha => h2 a (List.mem_cons_of_mem _ ha))
        (fun a ha => h3 a (List.mem_cons_of_mem _ ha))
      have m1 := h1 m List.mem_cons_self
      have m2 := h2 m List.mem_cons_self
      have m3 := h3 m List.mem_cons_self
      have ig := pull_integrable m2 theta z
      have ig' := pull_integrable m2 theta z'
      have i1' : IntegrableOn (fun _ : ℝ × ℝ => (1 : ℝ)) m.region := continuous_integrableOn continuous_const m2
      have a1 : ∫ x in m.region, pull m.noTension (height theta x - z') ≤
          ∫ x in m.region, pull m.noTension (height theta x - z) :=
        setIntegral_mono ig' ig fun x => pull_mono _ (by linarith)
      have a2 : ∫ x in m.region, pull m.noTension (height theta x - z) ≤
          (∫ x in m.region, pull m.noTension (height theta x - z')) + (z' - z) * ∫ _ in m.region, (1 : ℝ) := by
        rw [← integral_const_mul, ← integral_add ig' (i1'.const_mul (z' - z))]
        refine setIntegral_mono ig (ig'.add (i1'.const_mul (z' - z))) fun x => ?_
        have := pull_lip m.noTension (x := height theta x - z') (y := height theta x - z) (by linarith)
        simp only [mul_one]
        linarith
      simp only [List.map_cons, List.sum_cons]
      rw [working_integral m1, working_integral m1]
      have b1 := mul_le_mul_of_nonneg_left a1 m3
      have b2 := mul_le_mul_of_nonneg_left a2 m3
      constructor
      · linarith
      · linarith
  unfold axisImbalance rigidity
  have := hbars bars
  constructor
  · linarith [hms.1]
  · rw [add_mul]; linarith [hms.2]

theorem axisImb_antitone {ms : List Member} {bars : List (ℝ × (ℝ × ℝ))} (h : GoodMembers ms bars) (theta : ℝ) :
    Antitone (axisImbalance theta ms bars) := by
  intro z z' hz
  have h1 := (axisImb_between h theta hz).1
  have : 0 ≤ (bars.map Prod.fst).sum := List.sum_nonneg (by
    intro x hx
    obtain ⟨b, hb, rfl⟩ := List.mem_map.1 hx
    exact h.rigid b hb)
  have := mul_nonneg this (sub_nonneg.2 hz)
  linarith

theorem axisImb_lipschitz {ms : List Member} {bars : List (ℝ × (ℝ × ℝ))} (h : GoodMembers ms bars) (theta x y : ℝ) :
    |axisImbalance theta ms bars x - axisImbalance theta ms bars y| ≤ rigidity ms bars * |x - y| := by
  rcases le_total x y with hxy | hxy
  · rw [abs_of_nonneg (sub_nonneg.2 (axisImb_antitone h theta hxy)), abs_sub_comm, abs_of_nonneg (sub_nonneg.2 hxy)]
    exact (axisImb_between h theta hxy).2
  · rw [abs_sub_comm, abs_of_nonneg (sub_nonneg.2 (axisImb_antitone h theta hxy)), abs_of_nonneg (sub_nonneg.2 hxy)]
    exact (axisImb_between h theta hxy).2

theorem axisImb_continuous {ms : List Member} {bars : List (ℝ × (ℝ × ℝ))} (h : GoodMembers ms bars) (theta : ℝ) :
    Continuous (axisImbalance theta ms bars) := by
  have h0 : 0 ≤ rigidity ms bars := by
    have := (axisImb_lipschitz h theta 1 0)
    have h1 := abs_nonneg (axisImbalance theta ms bars 1 - axisImbalance theta ms bars 0)
    norm_num at this
    linarith
  have : LipschitzWith (Real.toNNReal (rigidity ms bars)) (axisImbalance theta ms bars) := by
    refine LipschitzWith.of_dist_le_mul fun x y => ?_
    rw [Real.dist_eq, Real.dist_eq, Real.coe_toNNReal _ h0]
    exact axisImb_lipschitz h theta x y
  exact this.continuous

theorem list_sum_nonpos {l : List ℝ} (h : ∀ x ∈ l, x ≤ 0) : l.sum ≤ 0 := by
  induction l with
  | nil => simp
  | cons a l ih =>
    rw [List.sum_cons]
    exact add_nonpos (h a List.mem_cons_self) (ih fun x hx => h x (List.mem_cons_of_mem _ hx))

/-- Signs outside the section. -/
theorem axisImb_sign {ms : List Member} {bars : List (ℝ × (ℝ × ℝ))} (h : GoodMembers ms bars) (theta : ℝ) {H : ℝ}
    (hm : ∀ m ∈ ms, ∀ x ∈ m.region, |height theta x| ≤ H) (hb : ∀ b ∈ bars, |height theta b.2| ≤ H)
    (hr : 0 < (bars.map Prod.fst).sum) :
    (∀ z, z < -H → 0 < axisImbalance theta ms bars z) ∧ (∀ z, H < z → axisImbalance theta ms bars z < 0) := by
  have hH : 0 ≤ axisImbalance theta ms bars (-H) := by
    refine add_nonneg (List.sum_nonneg ?_) (List.sum_nonneg ?_)
    · intro y hy
      obtain ⟨m, hmm, rfl⟩ := List.mem_map.1 hy
      rw [working_integral (h.measurable m hmm)]
      refine mul_nonneg (h.modulus m hmm) (setIntegral_nonneg (h.measurable m hmm) fun x hx => pull_pos ?_)
      linarith [(abs_le.1 (hm m hmm x hx)).1]
    · intro y hy
      obtain ⟨b, hbm, rfl⟩ := List.mem_map.1 hy
      refine mul_nonneg (h.rigid b hbm) ?_
      linarith [(abs_le.1 (hb b hbm)).1]
  have hH' : axisImbalance theta ms bars H ≤ 0 := by
    refine add_nonpos (list_sum_nonpos ?_) (list_sum_nonpos ?_)
    · intro y hy
      obtain ⟨m, hmm, rfl⟩ := List.mem_map.1 hy
      rw [working_integral (h.measurable m hmm)]
      refine mul_nonpos_of_nonneg_of_nonpos (h.modulus m hmm)
        (setIntegral_nonpos (h.measurable m hmm) fun x hx => pull_nonpos ?_)
      linarith [(abs_le.1 (hm m hmm x hx)).2]
    · intro y hy
      obtain ⟨b, hbm, rfl⟩ := List.mem_map.1 hy
      refine mul_nonpos_of_nonneg_of_nonpos (h.rigid b hbm) ?_
      linarith [(abs_le.1 (hb b hbm)).2]
  constructor
  · intro z hz
    have := (axisImb_between h theta hz.le).1
    have := mul_pos hr (sub_pos.2 hz)
    linarith
  · intro z hz
    have := (axisImb_between h theta hz.le).1
    have := mul_pos hr (sub_pos.2 hz)
    linarith

/-- There is exactly one axis of equilibrium, and an imbalance `s` means a distance of at most `s` over the rigidity of
the bars from it. -/
theorem axisImb_root {ms : List Member} {bars : List (ℝ × (ℝ × ℝ))} (h : GoodMembers ms bars) (theta : ℝ) {H : ℝ}
    (hm : ∀ m ∈ ms, ∀ x ∈ m.region, |height theta x| ≤ H) (hb : ∀ b ∈ bars, |height theta b.2| ≤ H)
    (hr : 0 < (bars.map Prod.fst).sum) :
    ∃ z0, axisImbalance theta ms bars z0 = 0 ∧ |z0| ≤ H ∧
      ∀ z, |z - z0| * (bars.map Prod.fst).sum ≤ |axisImbalance theta ms bars z| := by
  obtain ⟨s1, s2⟩ := axisImb_sign h theta hm hb hr
  have hne : ∃ b, b ∈ bars := by
    by_contra hn
    push Not at hn
    rw [List.eq_nil_iff_forall_not_mem.2 hn] at hr
    simp at hr
  obtain ⟨b, hbm⟩ := hne
  have hH : 0 ≤ H := (abs_nonneg _).trans (hb b hbm)
  obtain ⟨z0, -, hz0⟩ : (0 : ℝ) ∈ axisImbalance theta ms bars '' Set.Icc (-H - 1) (H + 1) := by
    refine intermediate_value_Icc' (by linarith) (axisImb_continuous h theta).continuousOn ⟨?_, ?_⟩
    · exact (s2 _ (by linarith)).le
    · exact (s1 _ (by linarith)).le
  refine ⟨z0, hz0, ?_, ?_⟩
  · rw [abs_le]
    constructor
    · by_contra hn
      linarith [s1 z0 (not_le.1 hn)]
    · by_contra hn
      linarith [s2 z0 (not_le.1 hn)]
  · intro z
    rcases le_total z z0 with hz | hz
    · have := (axisImb_between h theta hz).1
      rw [hz0] at this
      rw [abs_sub_comm, abs_of_nonneg (sub_nonneg.2 hz)]
      refine le_trans ?_ (le_abs_self _)
      linarith
    · have := (axisImb_between h theta hz).1
      rw [hz0] at this
      rw [abs_of_nonneg (sub_nonneg.2 hz)]
      refine le_trans ?_ (neg_le_abs _)
      linarith

end SC
