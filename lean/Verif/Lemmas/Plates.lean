import Verif.Spec.ISection
import Verif.Lemmas.Profile
import Verif.Props.Profile
import Mathlib.MeasureTheory.Measure.Haar.Unique
import Mathlib.MeasureTheory.Measure.Lebesgue.EqHaar

/-! # Regions made of plates and fillets -/

set_option autoImplicit false

namespace SC

open MeasureTheory Spec

theorem aedisjoint_z (a : ℝ) {S T : Set (ℝ × ℝ)} (hS : S ⊆ {x | x.2 ≤ a}) (hT : T ⊆ {x | a ≤ x.2}) :
    AEDisjoint volume S T := by
  refine measure_mono_null (t := {x : ℝ × ℝ | x.2 = a}) ?_ (volume_line a)
  rintro x ⟨h1, h2⟩
  exact le_antisymm (hS h1) (hT h2)

theorem aedisjoint_y (a : ℝ) {S T : Set (ℝ × ℝ)} (hS : S ⊆ {x | x.1 ≤ a}) (hT : T ⊆ {x | a ≤ x.1}) :
    AEDisjoint volume S T := by
  refine measure_mono_null (t := {x : ℝ × ℝ | x.1 = a}) ?_ (volume_vline a)
  rintro x ⟨h1, h2⟩
  exact le_antisymm (hS h1) (hT h2)

/-- Reflection or translation of both coordinates: `(u, v) -> (a + s u, c + t v)` with `s, t = ±1`. -/
def signedMap (s t : ℤˣ) (a c : ℝ) (x : ℝ × ℝ) : ℝ × ℝ := (a + (s : ℤ) * x.1, c + (t : ℤ) * x.2)

theorem unit_sq (s : ℤˣ) : ((s : ℤ) : ℝ) * ((s : ℤ) : ℝ) = 1 := by
  rcases Int.units_eq_one_or s with rfl | rfl <;> simp

theorem mp_line (s : ℤˣ) (a : ℝ) : MeasurePreserving (fun u : ℝ => a + ((s : ℤ) : ℝ) * u) volume volume := by
  rcases Int.units_eq_one_or s with rfl | rfl
  · simpa using measurePreserving_add_left volume a
  · have := (measurePreserving_add_left volume a).comp (Measure.measurePreserving_neg (volume : Measure ℝ))
    simpa [Function.comp_def] using this

theorem mp_signed (s t : ℤˣ) (a c : ℝ) : MeasurePreserving (signedMap s t a c) volume volume :=
  (mp_line s a).prod (mp_line t c)

theorem signed_inv (s t : ℤˣ) (a c : ℝ) (x : ℝ × ℝ) :
    signedMap s t (-((s : ℤ) * a)) (-((t : ℤ) * c)) (signedMap s t a c x) = x := by
  have h1 := unit_sq s
  have h2 := unit_sq t
  ext <;> simp only [signedMap]
  · linear_combination x.1 * h1
  · linear_combination x.2 * h2

theorem signed_inv' (s t : ℤˣ) (a c : ℝ) (x : ℝ × ℝ) :
    signedMap s t a c (signedMap s t (-((s : ℤ) * a)) (-((t : ℤ) * c)) x) = x := by
  have h1 := unit_sq s
  have h2 := unit_sq t
  ext <;> simp only [signedMap]
  · linear_combination x.1 * h1 - a * h1
  · linear_combination x.2 * h2 - c * h2

theorem emb_signed (s t : ℤˣ) (a c : ℝ) : MeasurableEmbedding (signedMap s t a c) := by
  have m : ∀ a c, Measurable (signedMap s t a c) := fun a c => by unfold signedMap; fun_prop
  exact MeasurableEquiv.measurableEmbedding
    { toFun := signedMap s t a c
      invFun := signedMap s t (-((s : ℤ) * a)) (-((t : ℤ) * c))
      left_inv := signed_inv s t a c
      right_inv := signed_inv' s t a c
      measurable_toFun := m _ _
      measurable_invFun := m _ _ }

theorem integral_signed (s t : ℤˣ) (a c : ℝ) (K : Set (ℝ × ℝ)) (f : ℝ × ℝ → ℝ) :
    ∫ x in signedMap s t a c '' K, f x = ∫ x in K, f (signedMap s t a c x) :=
  (mp_signed s t a c).setIntegral_image_emb (emb_signed s t a c) f K

theorem plate_volume {y0 y1 z0 z1 : ℝ} (hy : y0 ≤ y1) (hz : z0 ≤ z1) :
    volume (Set.Icc y0 y1 ×ˢ Set.Icc z0 z1 : Set (ℝ × ℝ)) = ENNReal.ofReal ((y1 - y0) * (z1 - z0)) := by
  rw [Measure.volume_eq_prod, Measure.prod_prod, Real.volume_Icc, Real.volume_Icc,
    ENNReal.ofReal_mul (by linarith)]

theorem plate_area {y0 y1 z0 z1 : ℝ} (hy : y0 ≤ y1) (hz : z0 ≤ z1) (k : ℝ) :
    plateIntegral (fun _ => k) y0 y1 z0 z1 = k * ((y1 - y0) * (z1 - z0)) := by
  unfold plateIntegral
  rw [setIntegral_const, measureReal_def, plate_volume hy hz, ENNReal.toReal_ofReal (mul_nonneg (by linarith) (by linarith)), smul_eq_mul,
    mul_comm]

/-- Integral over a union of regions that overlap only on lines. -/
theorem integral_union_ae {S T : Set (ℝ × ℝ)} (h : AEDisjoint volume S T) (mT : MeasurableSet T)
    (bS : Bornology.IsBounded S) (bT : Bornology.IsBounded T) {f : ℝ × ℝ → ℝ} (hf : Continuous f) :
    ∫ x in S ∪ T, f x = (∫ x in S, f x) + ∫ x in T, f x :=
  setIntegral_union₀ h mT.nullMeasurableSet (continuous_integrableOn hf bS) (continuous_integrableOn hf bT)

theorem bounded_of_box {S : Set (ℝ × ℝ)} (y0 y1 z0 z1 : ℝ) (h : S ⊆ Set.Icc y0 y1 ×ˢ Set.Icc z0 z1) :
    Bornology.IsBounded S :=
  ((Metric.isBounded_Icc y0 y1).prod (Metric.isBounded_Icc z0 z1)).subset h

section Fillet

variable {disc : ℝ × ℝ → ℝ → Set (ℝ × ℝ)} (hd : IsDisc disc)

include hd

theorem disc_mirror_y (r y z : ℝ) : (-y, z) ∈ disc 0 r ↔ (y, z) ∈ disc 0 r :=
  ⟨fun h => by simpa using hd.mirror_y r _ h, fun h => hd.mirror_y r _ h⟩

theorem disc_mirror_z (r y z : ℝ) : (y, -z) ∈ disc 0 r ↔ (y, z) ∈ disc 0 r :=
  ⟨fun h => by simpa using hd.mirror_z r _ h, fun h => hd.mirror_z r _ h⟩

theorem fillet_measurable (r : ℝ) : MeasurableSet (filletShape disc r) := by
  have h1 : MeasurableSet ((fun x : ℝ × ℝ => (r - x.1, r - x.2)) ⁻¹' disc 0 r) :=
    (by fun_prop : Measurable (fun x : ℝ × ℝ => (r - x.1, r - x.2))) (hd.measurable 0 r)
  have h2 : filletShape disc r =
      (Set.Icc 0 r ×ˢ Set.Icc 0 r) \ ((fun x : ℝ × ℝ => (r - x.1, r - x.2)) ⁻¹' disc 0 r) := by
    ext x
    simp only [filletShape, Set.mem_ofPred_eq, Set.mem_sdiff, Set.mem_prod, Set.mem_Icc, Set.mem_preimage]
    tauto
  rw [h2]
  exact (measurableSet_Icc.prod measurableSet_Icc).diff h1

omit hd in
theorem fillet_box (r : ℝ) : filletShape disc r ⊆ Set.Icc 0 r ×ˢ Set.Icc 0 r := by
  rintro x ⟨h1, h2, h3, h4, -⟩
  exact ⟨⟨h1, h2⟩, h3, h4⟩

/-- Area of a fillet: the square without a quarter of the disc. -/
theorem fillet_area {r : ℝ} (hr : 0 ≤ r) :
    areaMoment 0 0 (filletShape disc r) = r ^ 2 - areaMoment 0 0 (disc 0 r) / 4 := by
  set Q := disc 0 r ∩ {x : ℝ × ℝ | 0 ≤ x.1 ∧ 0 ≤ x.2} with hQ
  have mQ : MeasurableSet Q := (hd.measurable 0 r).inter
    ((measurableSet_le measurable_const measurable_fst).inter (measurableSet_le measurable_const measurable_snd))
  have bD : disc 0 r ⊆ Set.Icc (-r) r ×ˢ Set.Icc (-r) r := fun x hx =>
    ⟨abs_le.1 (hd.small r x hx).1, abs_le.1 (hd.small r x hx).2⟩
  have QK : Q ⊆ Set.Icc 0 r ×ˢ Set.Icc 0 r := fun x hx => ⟨⟨hx.2.1, (bD hx.1).1.2⟩, hx.2.2, (bD hx.1).2.2⟩
  have bQ := bounded_of_box 0 r 0 r QK
  have bDD := bounded_of_box (-r) r (-r) r bD
  -- the disc is the union of four images of its quarter
  have mi : ∀ s t, MeasurableSet (signedMap s t 0 0 '' Q) := fun s t => (emb_signed s t 0 0).measurableSet_image.2 mQ
  have mem : ∀ (s t : ℤˣ) x, x ∈ signedMap s t 0 0 '' Q ↔ signedMap s t 0 0 x ∈ Q := by
    intro s t x
    have e : ∀ y, signedMap s t 0 0 (signedMap s t 0 0 y) = y := fun y => by simpa using signed_inv s t 0 0 y
    constructor
    · rintro ⟨y, hy, rfl⟩; rwa [e]
    · intro h; exact ⟨_, h, e x⟩
  have sub : ∀ s t, signedMap s t 0 0 '' Q ⊆ disc 0 r := by
    intro s t x hx
    have := ((mem s t x).1 hx).1
    rcases Int.units_eq_one_or s with rfl | rfl <;> rcases Int.units_eq_one_or t with rfl | rfl <;>
      simpa [signedMap, disc_mirror_y hd, disc_mirror_z hd] using this
  have cover : disc 0 r = ((signedMap 1 1 0 0 '' Q) ∪ (signedMap 1 (-1) 0 0 '' Q)) ∪
      ((signedMap (-1) 1 0 0 '' Q) ∪ (signedMap (-1) (-1) 0 0 '' Q)) := by
    apply Set.Subset.antisymm
    · intro x hx
      simp only [Set.mem_union, mem]
      have hx' : (x.1, x.2) ∈ disc 0 r := hx
      rcases le_total 0 x.1 with h1 | h1 <;> rcases le_total 0 x.2 with h2 | h2
      · exact Or.inl (Or.inl ⟨by simpa [signedMap] using hx, by simp [signedMap, h1, h2]⟩)
      · exact Or.inl (Or.inr ⟨by simpa [signedMap, disc_mirror_z hd] using hx, by simp [signedMap, h1, h2]⟩)
      · exact Or.inr (Or.inl ⟨by simpa [signedMap, disc_mirror_y hd] using hx, by simp [signedMap, h1, h2]⟩)
      · exact Or.inr (Or.inr ⟨by simpa [signedMap, disc_mirror_z hd, disc_mirror_y hd] using hx,
          by simp [signedMap, h1, h2]⟩)
    · exact Set.union_subset (Set.union_subset (sub _ _) (sub _ _)) (Set.union_subset (sub _ _) (sub _ _))
  have hs : ∀ (s t : ℤˣ), ∫ x in signedMap s t 0 0 '' Q, (1 : ℝ) = ∫ x in Q, (1 : ℝ) := fun s t =>
    integral_signed s t 0 0 Q fun _ => 1
  have bI : ∀ s t, Bornology.IsBounded (signedMap s t 0 0 '' Q) := fun s t => bDD.subset (sub s t)
  have hD : areaMoment 0 0 (disc 0 r) = 4 * ∫ x in Q, (1 : ℝ) := by
    have : areaMoment 0 0 (disc 0 r) = ∫ x in disc 0 r, (1 : ℝ) := by simp [areaMoment]
    rw [this, cover, integral_union_ae _ ((mi _ _).union (mi _ _)) ((bI _ _).union (bI _ _)) ((bI _ _).union (bI _ _))
        continuous_const, integral_union_ae _ (mi _ _) (bI _ _) (bI _ _) continuous_const,
      integral_union_ae _ (mi _ _) (bI _ _) (bI _ _) continuous_const, hs, hs, hs, hs]
    · ring
    · refine (aedisjoint_z 0 ?_ ?_).symm <;> intro x hx <;> have := ((mem _ _ x).1 hx).2.2 <;>
        simpa [signedMap] using this
    · refine (aedisjoint_z 0 ?_ ?_).symm <;> intro x hx <;> have := ((mem _ _ x).1 hx).2.2 <;>
        simpa [signedMap] using this
    · refine (aedisjoint_y 0 ?_ ?_).symm
      · rintro x (hx | hx) <;> have := ((mem _ _ x).1 hx).2.1 <;> simpa [signedMap] using this
      · rintro x (hx | hx) <;> have := ((mem _ _ x).1 hx).2.1 <;> simpa [signedMap] using this
  -- the fillet is the square without the turned quarter
  have e2 : filletShape disc r = (Set.Icc 0 r ×ˢ Set.Icc 0 r) \ (signedMap (-1) (-1) r r '' Q) := by
    ext x
    have key : x ∈ signedMap (-1) (-1) r r '' Q ↔ (r - x.1, r - x.2) ∈ Q := by
      constructor
      · rintro ⟨y, hy, rfl⟩
        simpa [signedMap] using hy
      · intro h
        exact ⟨_, h, by ext <;> simp [signedMap]⟩
    rw [Set.mem_sdiff, key]
    constructor
    · rintro ⟨h1, h2, h3, h4, h5⟩
      exact ⟨⟨⟨h1, h2⟩, h3, h4⟩, fun h => h5 h.1⟩
    · rintro ⟨⟨⟨h1, h2⟩, h3, h4⟩, h5⟩
      exact ⟨h1, h2, h3, h4, fun h => h5 ⟨h, sub_nonneg.2 h2, sub_nonneg.2 h4⟩⟩
  have m2 : MeasurableSet (signedMap (-1) (-1) r r '' Q) := (emb_signed _ _ _ _).measurableSet_image.2 mQ
  have s2 : signedMap (-1) (-1) r r '' Q ⊆ Set.Icc 0 r ×ˢ Set.Icc 0 r := by
    rintro x ⟨y, hy, rfl⟩
    obtain ⟨⟨h1, h2⟩, h3, h4⟩ := QK hy
    refine ⟨⟨?_, ?_⟩, ?_, ?_⟩ <;> simp [signedMap] <;> linarith
  have e3 : areaMoment 0 0 (filletShape disc r) = ∫ x in filletShape disc r, (1 : ℝ) := by simp [areaMoment]
  rw [e3, e2, setIntegral_diff m2 (continuous_integrableOn continuous_const (bounded_of_box 0 r 0 r subset_rfl)) s2,
    integral_signed (-1) (-1) r r Q fun _ => 1, hD]
  have := plate_area hr hr 1
  unfold plateIntegral at this
  rw [this]
  ring

end Fillet

end SC
