import Verif.Lemmas.Plates
import Verif.Model.Shapes
import Verif.Model.ProfileShapes
import Verif.Props.ProfileShapes
import Verif.Props.ProfileReads
import Mathlib.Analysis.SpecialFunctions.Integrals.Basic
import Mathlib.Analysis.Real.Pi.Bounds

/-! # C62: shape of I sections and U sections with parallel flanges -/

set_option autoImplicit false

namespace SC

open MeasureTheory Spec

/-! ### Parts -/

theorem translate_rect (dz y0 y1 z0 z1 : ℝ) :
    translatePt 0 dz '' rectSet y0 y1 z0 z1 = rectSet y0 y1 (z0 + dz) (z1 + dz) := by
  ext x
  simp only [rectSet, Set.mem_image, Set.mem_prod, Set.mem_Icc, translatePt]
  constructor
  · rintro ⟨y, ⟨⟨h1, h2⟩, h3, h4⟩, rfl⟩
    exact ⟨⟨by simpa using h1, by simpa using h2⟩, by simpa using h3, by simpa using h4⟩
  · rintro ⟨⟨h1, h2⟩, h3, h4⟩
    exact ⟨(x.1, x.2 - dz), ⟨⟨h1, h2⟩, by simp only; linarith, by simp only; linarith⟩, by ext <;> simp⟩

theorem mem_signed (s t : ℤˣ) (a c : ℝ) (K : Set (ℝ × ℝ)) (x : ℝ × ℝ) :
    x ∈ signedMap s t a c '' K ↔ (((s : ℤ) : ℝ) * (x.1 - a), ((t : ℤ) : ℝ) * (x.2 - c)) ∈ K := by
  have e : (((s : ℤ) : ℝ) * (x.1 - a), ((t : ℤ) : ℝ) * (x.2 - c)) =
      signedMap s t (-((s : ℤ) * a)) (-((t : ℤ) * c)) x := by
    ext <;> simp only [signedMap] <;> ring
  rw [e]
  constructor
  · rintro ⟨y, hy, rfl⟩; rwa [signed_inv]
  · intro h; exact ⟨_, h, signed_inv' s t a c x⟩

section

variable {disc : ℝ × ℝ → ℝ → Set (ℝ × ℝ)} (hd : IsDisc disc)

include hd

/-- The square with the disc removed, on the right of a plate. -/
theorem fillet_right (a c r : ℝ) :
    rectSet a (a + r) c (c + r) \ disc (a + r, c + r) r = signedMap 1 1 a c '' filletShape disc r := by
  ext x
  have e : x - (a + r, c + r) = (-(r - (x.1 - a)), -(r - (x.2 - c))) := by ext <;> simp <;> ring
  rw [mem_signed, Set.mem_sdiff, hd.placed, e, disc_mirror_y hd, disc_mirror_z hd]
  simp only [rectSet, Set.mem_prod, Set.mem_Icc, filletShape, Set.mem_ofPred_eq, Units.val_one, Int.cast_one, one_mul]
  constructor
  · rintro ⟨⟨⟨h1, h2⟩, h3, h4⟩, h5⟩
    exact ⟨by linarith, by linarith, by linarith, by linarith, h5⟩
  · rintro ⟨h1, h2, h3, h4, h5⟩
    exact ⟨⟨⟨by linarith, by linarith⟩, by linarith, by linarith⟩, h5⟩

/-- The same on the left. -/
theorem fillet_left (a c r : ℝ) :
    rectSet (a - r) a c (c + r) \ disc (a - r, c + r) r = signedMap (-1) 1 a c '' filletShape disc r := by
  ext x
  have e : x - (a - r, c + r) = (r - (-(x.1 - a)), -(r - (x.2 - c))) := by ext <;> simp <;> ring
  rw [mem_signed, Set.mem_sdiff, hd.placed, e, disc_mirror_z hd]
  simp only [rectSet, Set.mem_prod, Set.mem_Icc, filletShape, Set.mem_ofPred_eq, Units.val_one, Int.cast_one, one_mul,
    Units.val_neg, Int.cast_neg, neg_mul]
  constructor
  · rintro ⟨⟨⟨h1, h2⟩, h3, h4⟩, h5⟩
    exact ⟨by linarith, by linarith, by linarith, by linarith, h5⟩
  · rintro ⟨h1, h2, h3, h4, h5⟩
    exact ⟨⟨⟨by linarith, by linarith⟩, by linarith, by linarith⟩, h5⟩

omit hd in
theorem flip_signed (h tf r : ℝ) (s : ℤˣ) (a : ℝ) (K : Set (ℝ × ℝ)) :
    (fun p => translatePt 0 (h - 2 * tf - r) (flipZ (2 * (-h / 2 + tf) + r) p)) '' (signedMap s 1 a (-h / 2 + tf) '' K) =
      signedMap s (-1) a (h / 2 - tf) '' K := by
  rw [Set.image_image]
  congr 1
  funext x
  ext <;> simp [signedMap, translatePt, flipZ]
  ring

/-- The parts of an I section. -/
theorem sectionI_parts (h b tw tf r : ℝ) : sectionI disc h b tw tf r =
    rectSet (-b / 2) (b / 2) (-h / 2) (-h / 2 + tf) ∪ (rectSet (-b / 2) (b / 2) (h / 2 - tf) (h / 2) ∪
      (rectSet (-tw / 2) (tw / 2) (-h / 2 + tf) (h / 2 - tf) ∪
        ((signedMap 1 1 (tw / 2) (-h / 2 + tf) '' filletShape disc r ∪
          signedMap 1 (-1) (tw / 2) (h / 2 - tf) '' filletShape disc r) ∪
        (signedMap (-1) 1 (-tw / 2) (-h / 2 + tf) '' filletShape disc r ∪
          signedMap (-1) (-1) (-tw / 2) (h / 2 - tf) '' filletShape disc r)))) := by
  simp only [sectionI, filletsI, fillet_right hd, fillet_left hd, Set.image_union, flip_signed, translate_rect]
  rw [show -h / 2 + (h - tf) = h / 2 - tf by ring, show -h / 2 + tf + (h - tf) = h / 2 by ring]
  ext x
  simp only [Set.mem_union]
  tauto

/-- The parts of a U section. -/
theorem sectionURaw_parts (h b tw tf r : ℝ) : sectionURaw disc h b tw tf r =
    rectSet 0 b (-h / 2) (-h / 2 + tf) ∪ (rectSet 0 b (h / 2 - tf) (h / 2) ∪
      (rectSet 0 tw (-h / 2 + tf) (h / 2 - tf) ∪
        (signedMap 1 1 tw (-h / 2 + tf) '' filletShape disc r ∪
          signedMap 1 (-1) tw (h / 2 - tf) '' filletShape disc r))) := by
  simp only [sectionURaw, fillet_right hd, flip_signed, translate_rect]
  rw [show h / 2 - tf + (-h + tf) = -h / 2 by ring, show h / 2 + (-h + tf) = -h / 2 + tf by ring]
  ext x
  simp only [Set.mem_union]
  tauto

end

/-! ### Integrals -/

theorem rect_measurable (y0 y1 z0 z1 : ℝ) : MeasurableSet (rectSet y0 y1 z0 z1) :=
  measurableSet_Icc.prod measurableSet_Icc

theorem rect_bounded (y0 y1 z0 z1 : ℝ) : Bornology.IsBounded (rectSet y0 y1 z0 z1) :=
  bounded_of_box y0 y1 z0 z1 subset_rfl

section

variable {disc : ℝ × ℝ → ℝ → Set (ℝ × ℝ)} (hd : IsDisc disc)

include hd

theorem corner_measurable (s t : ℤˣ) (a c r : ℝ) : MeasurableSet (signedMap s t a c '' filletShape disc r) :=
  (emb_signed s t a c).measurableSet_image.2 (fillet_measurable hd r)

omit hd in
theorem corner_bounded (s t : ℤˣ) (a c r : ℝ) :
    Bornology.IsBounded (signedMap s t a c '' filletShape disc r) := by
  apply bounded_of_box (a - r) (a + r) (c - r) (c + r)
  rintro x ⟨y, hy, rfl⟩
  obtain ⟨⟨h1, h2⟩, h3, h4⟩ := fillet_box r hy
  rcases Int.units_eq_one_or s with rfl | rfl <;> rcases Int.units_eq_one_or t with rfl | rfl <;>
    simp only [signedMap, Set.mem_prod, Set.mem_Icc, Units.val_one, Int.cast_one, one_mul, Units.val_neg, Int.cast_neg,
      neg_mul] <;> refine ⟨⟨?_, ?_⟩, ?_, ?_⟩ <;> linarith

theorem sectionI_measurable (h b tw tf r : ℝ) : MeasurableSet (sectionI disc h b tw tf r) := by
  rw [sectionI_parts hd]
  exact (rect_measurable _ _ _ _).union ((rect_measurable _ _ _ _).union ((rect_measurable _ _ _ _).union
    (((corner_measurable hd _ _ _ _ _).union (corner_measurable hd _ _ _ _ _)).union
      ((corner_measurable hd _ _ _ _ _).union (corner_measurable hd _ _ _ _ _)))))

theorem sectionI_bounded (h b tw tf r : ℝ) : Bornology.IsBounded (sectionI disc h b tw tf r) := by
  rw [sectionI_parts hd]
  exact (rect_bounded _ _ _ _).union ((rect_bounded _ _ _ _).union ((rect_bounded _ _ _ _).union
    (((corner_bounded _ _ _ _ _).union (corner_bounded _ _ _ _ _)).union
      ((corner_bounded _ _ _ _ _).union (corner_bounded _ _ _ _ _)))))

/-- **C62, box.** An I section lies in the box `b` by `h` about the origin, and reaches all four sides. -/
theorem C62_box {h b tw tf r : ℝ} (hf : FitsTogether (.I h b tw tf r)) :
    sectionI disc h b tw tf r ⊆ Set.Icc (-b / 2) (b / 2) ×ˢ Set.Icc (-h / 2) (h / 2) ∧
      ∀ s t : ℤˣ, ((s : ℤ) * (b / 2), (t : ℤ) * (h / 2)) ∈ sectionI disc h b tw tf r := by
  obtain ⟨h1, h2, h3, h4, h5, h6, h7⟩ := hf
  rw [sectionI_parts hd]
  constructor
  · rintro x (hx | hx | hx | (hx | hx) | (hx | hx))
    · obtain ⟨⟨a1, a2⟩, a3, a4⟩ := hx
      exact ⟨⟨a1, a2⟩, a3, by linarith⟩
    · obtain ⟨⟨a1, a2⟩, a3, a4⟩ := hx
      exact ⟨⟨a1, a2⟩, by linarith, a4⟩
    · obtain ⟨⟨a1, a2⟩, a3, a4⟩ := hx
      exact ⟨⟨by linarith, by linarith⟩, by linarith, by linarith⟩
    all_goals
      rw [mem_signed] at hx
      obtain ⟨⟨a1, a2⟩, a3, a4⟩ := fillet_box r hx
      simp only [Units.val_one, Int.cast_one, one_mul, Units.val_neg, Int.cast_neg, neg_mul] at a1 a2 a3 a4
      exact ⟨⟨by linarith, by linarith⟩, by linarith, by linarith⟩
  · intro s t
    rcases Int.units_eq_one_or s with rfl | rfl <;> rcases Int.units_eq_one_or t with rfl | rfl <;>
      simp only [Units.val_one, Int.cast_one, one_mul, Units.val_neg, Int.cast_neg, neg_mul]
    · exact Or.inr (Or.inl ⟨⟨by simp only; linarith, by simp only; linarith⟩, by simp only; linarith, by simp only; linarith⟩)
    · exact Or.inl ⟨⟨by simp only; linarith, by simp only; linarith⟩, by simp only; linarith, by simp only; linarith⟩
    · exact Or.inr (Or.inl ⟨⟨by simp only; linarith, by simp only; linarith⟩, by simp only; linarith, by simp only; linarith⟩)
    · exact Or.inl ⟨⟨by simp only; linarith, by simp only; linarith⟩, by simp only; linarith, by simp only; linarith⟩

/-- **C62, parts.** The integral of any continuous function over an I section is the sum over the two flanges, the
web and the fillets in the four corners. -/
theorem C62_parts {h b tw tf r : ℝ} (hf : FitsTogether (.I h b tw tf r)) {f : ℝ × ℝ → ℝ} (hc : Continuous f) :
    ∫ x in sectionI disc h b tw tf r, f x =
      plateIntegral f (-b / 2) (b / 2) (-h / 2) (-h / 2 + tf) + plateIntegral f (-b / 2) (b / 2) (h / 2 - tf) (h / 2) +
      plateIntegral f (-tw / 2) (tw / 2) (-h / 2 + tf) (h / 2 - tf) +
      ∫ x in filletShape disc r, (f (tw / 2 + x.1, h / 2 - tf - x.2) + f (tw / 2 + x.1, -(h / 2 - tf - x.2)) +
        f (-(tw / 2 + x.1), h / 2 - tf - x.2) + f (-(tw / 2 + x.1), -(h / 2 - tf - x.2))) := by
  obtain ⟨h1, h2, h3, h4, h5, h6, h7⟩ := hf
  have bK := bounded_of_box 0 r 0 r (fillet_box (disc := disc) r)
  have cb := fun s t a c => corner_bounded (disc := disc) s t a c r
  have cm := fun s t a c => corner_measurable hd s t a c r
  have lo : ∀ s a, signedMap s 1 a (-h / 2 + tf) '' filletShape disc r ⊆ {x | -h / 2 + tf ≤ x.2 ∧ x.2 ≤ 0} := by
    intro s a x hx
    rw [mem_signed] at hx
    obtain ⟨-, a3, a4⟩ := fillet_box r hx
    simp only [Units.val_one, Int.cast_one, one_mul] at a3 a4
    exact ⟨by linarith, by linarith⟩
  have hi : ∀ s a, signedMap s (-1) a (h / 2 - tf) '' filletShape disc r ⊆ {x | 0 ≤ x.2 ∧ x.2 ≤ h / 2 - tf} := by
    intro s a x hx
    rw [mem_signed] at hx
    obtain ⟨-, a3, a4⟩ := fillet_box r hx
    simp only [Units.val_one, Int.cast_one, one_mul, Units.val_neg, Int.cast_neg, neg_mul] at a3 a4
    exact ⟨by linarith, by linarith⟩
  have ri : ∀ t c, signedMap 1 t (tw / 2) c '' filletShape disc r ⊆ {x | tw / 2 ≤ x.1} := by
    intro t c x hx
    rw [mem_signed] at hx
    obtain ⟨⟨a3, a4⟩, -⟩ := fillet_box r hx
    simp only [Units.val_one, Int.cast_one, one_mul] at a3 a4
    simp only [Set.mem_ofPred_eq]
    linarith
  have le : ∀ t c, signedMap (-1) t (-tw / 2) c '' filletShape disc r ⊆ {x | x.1 ≤ -tw / 2} := by
    intro t c x hx
    rw [mem_signed] at hx
    obtain ⟨⟨a3, a4⟩, -⟩ := fillet_box r hx
    simp only [Units.val_one, Int.cast_one, one_mul, Units.val_neg, Int.cast_neg, neg_mul] at a3 a4
    simp only [Set.mem_ofPred_eq]
    linarith
  have fm := (((cm 1 1 (tw / 2) (-h / 2 + tf)).union (cm 1 (-1) (tw / 2) (h / 2 - tf))).union
      ((cm (-1) 1 (-tw / 2) (-h / 2 + tf)).union (cm (-1) (-1) (-tw / 2) (h / 2 - tf))))
  have fb := (((cb 1 1 (tw / 2) (-h / 2 + tf)).union (cb 1 (-1) (tw / 2) (h / 2 - tf))).union
      ((cb (-1) 1 (-tw / 2) (-h / 2 + tf)).union (cb (-1) (-1) (-tw / 2) (h / 2 - tf))))
  rw [sectionI_parts hd,
    integral_union_ae ?_ ((rect_measurable _ _ _ _).union ((rect_measurable _ _ _ _).union fm)) (rect_bounded _ _ _ _)
      ((rect_bounded _ _ _ _).union ((rect_bounded _ _ _ _).union fb)) hc,
    integral_union_ae ?_ ((rect_measurable _ _ _ _).union fm) (rect_bounded _ _ _ _)
      ((rect_bounded _ _ _ _).union fb) hc,
    integral_union_ae ?_ fm (rect_bounded _ _ _ _) fb hc,
    integral_union_ae ?_ ((cm _ _ _ _).union (cm _ _ _ _)) ((cb _ _ _ _).union (cb _ _ _ _))
      ((cb _ _ _ _).union (cb _ _ _ _)) hc,
    integral_union_ae ?_ (cm _ _ _ _) (cb _ _ _ _) (cb _ _ _ _) hc,
    integral_union_ae ?_ (cm _ _ _ _) (cb _ _ _ _) (cb _ _ _ _) hc]
  · simp only [integral_signed]
    have hcc : ∀ s t a c, Continuous fun x => f (signedMap s t a c x) := fun s t a c =>
      hc.comp (by unfold signedMap; fun_prop)
    rw [← integral_add (continuous_integrableOn (hcc _ _ _ _) bK) (continuous_integrableOn (hcc _ _ _ _) bK),
      ← integral_add (continuous_integrableOn (hcc _ _ _ _) bK) (continuous_integrableOn (hcc _ _ _ _) bK),
      ← integral_add (continuous_integrableOn (by unfold signedMap; fun_prop) bK)
        (continuous_integrableOn (by unfold signedMap; fun_prop) bK)]
    simp only [plateIntegral, rectSet, signedMap, Units.val_one, Int.cast_one, one_mul, Units.val_neg, Int.cast_neg,
      neg_mul]
    rw [add_assoc, add_assoc]
    congr 3
    congr 1
    funext x
    rw [show -h / 2 + tf + x.2 = -(h / 2 - tf - x.2) by ring, show h / 2 - tf + -x.2 = h / 2 - tf - x.2 by ring,
      show -tw / 2 + -x.1 = -(tw / 2 + x.1) by ring]
    ring
  · exact aedisjoint_z 0 ((lo _ _).trans fun x hx => hx.2) ((hi _ _).trans fun x hx => hx.1)
  · exact aedisjoint_z 0 ((lo _ _).trans fun x hx => hx.2) ((hi _ _).trans fun x hx => hx.1)
  · refine (aedisjoint_y 0 (Set.union_subset ?_ ?_) (Set.union_subset ?_ ?_)).symm
    · exact (le _ _).trans fun x hx => by simp only [Set.mem_ofPred_eq] at hx ⊢; linarith
    · exact (le _ _).trans fun x hx => by simp only [Set.mem_ofPred_eq] at hx ⊢; linarith
    · exact (ri _ _).trans fun x hx => by simp only [Set.mem_ofPred_eq] at hx ⊢; linarith
    · exact (ri _ _).trans fun x hx => by simp only [Set.mem_ofPred_eq] at hx ⊢; linarith
  · refine AEDisjoint.union_right_iff.2 ⟨?_, ?_⟩
    · exact aedisjoint_y (tw / 2) (fun x hx => hx.1.2) (Set.union_subset (ri _ _) (ri _ _))
    · exact (aedisjoint_y (-tw / 2) (Set.union_subset (le _ _) (le _ _)) fun x hx => hx.1.1).symm
  · refine (aedisjoint_z (h / 2 - tf) (Set.union_subset (fun x hx => hx.2.2) (Set.union_subset (Set.union_subset ?_ ?_)
      (Set.union_subset ?_ ?_))) fun x hx => hx.2.1).symm
    · exact (lo _ _).trans fun x hx => by simp only [Set.mem_ofPred_eq] at hx ⊢; linarith
    · exact (hi _ _).trans fun x hx => hx.2
    · exact (lo _ _).trans fun x hx => by simp only [Set.mem_ofPred_eq] at hx ⊢; linarith
    · exact (hi _ _).trans fun x hx => hx.2
  · refine aedisjoint_z (-h / 2 + tf) (fun x hx => hx.2.2) (Set.union_subset ?_ (Set.union_subset (fun x hx => hx.2.1)
      (Set.union_subset (Set.union_subset ?_ ?_) (Set.union_subset ?_ ?_))))
    · intro x hx
      have := hx.2.1
      simp only [Set.mem_ofPred_eq]; linarith
    · exact (lo _ _).trans fun x hx => hx.1
    · exact (hi _ _).trans fun x hx => by simp only [Set.mem_ofPred_eq] at hx ⊢; linarith
    · exact (lo _ _).trans fun x hx => hx.1
    · exact (hi _ _).trans fun x hx => by simp only [Set.mem_ofPred_eq] at hx ⊢; linarith

/-- **C62, symmetry.** An I section is symmetric about both axes. -/
theorem C62_symmetric (h b tw tf r : ℝ) (x : ℝ × ℝ) :
    (x ∈ sectionI disc h b tw tf r ↔ (-x.1, x.2) ∈ sectionI disc h b tw tf r) ∧
      (x ∈ sectionI disc h b tw tf r ↔ (x.1, -x.2) ∈ sectionI disc h b tw tf r) := by
  have key : ∀ x, x ∈ sectionI disc h b tw tf r →
      (-x.1, x.2) ∈ sectionI disc h b tw tf r ∧ (x.1, -x.2) ∈ sectionI disc h b tw tf r := by
    intro x hx
    rw [sectionI_parts hd] at hx ⊢
    simp only [Set.mem_union, mem_signed, Units.val_one, Int.cast_one, one_mul, Units.val_neg, Int.cast_neg,
      neg_mul] at hx ⊢
    rcases hx with hx | hx | hx | (hx | hx) | (hx | hx)
    · obtain ⟨⟨a1, a2⟩, a3, a4⟩ := hx
      exact ⟨Or.inl ⟨⟨by simp only; linarith, by simp only; linarith⟩, a3, a4⟩,
        Or.inr (Or.inl ⟨⟨a1, a2⟩, by simp only; linarith, by simp only; linarith⟩)⟩
    · obtain ⟨⟨a1, a2⟩, a3, a4⟩ := hx
      exact ⟨Or.inr (Or.inl ⟨⟨by simp only; linarith, by simp only; linarith⟩, a3, a4⟩),
        Or.inl ⟨⟨a1, a2⟩, by simp only; linarith, by simp only; linarith⟩⟩
    · obtain ⟨⟨a1, a2⟩, a3, a4⟩ := hx
      exact ⟨Or.inr (Or.inr (Or.inl ⟨⟨by simp only; linarith, by simp only; linarith⟩, a3, a4⟩)),
        Or.inr (Or.inr (Or.inl ⟨⟨a1, a2⟩, by simp only; linarith, by simp only; linarith⟩))⟩
    · refine ⟨Or.inr (Or.inr (Or.inr (Or.inr (Or.inl ?_)))), Or.inr (Or.inr (Or.inr (Or.inl (Or.inr ?_))))⟩ <;>
        convert hx using 2 <;> ring
    · refine ⟨Or.inr (Or.inr (Or.inr (Or.inr (Or.inr ?_)))), Or.inr (Or.inr (Or.inr (Or.inl (Or.inl ?_))))⟩ <;>
        convert hx using 2 <;> ring
    · refine ⟨Or.inr (Or.inr (Or.inr (Or.inl (Or.inl ?_)))), Or.inr (Or.inr (Or.inr (Or.inr (Or.inr ?_))))⟩ <;>
        convert hx using 2 <;> ring
    · refine ⟨Or.inr (Or.inr (Or.inr (Or.inl (Or.inr ?_)))), Or.inr (Or.inr (Or.inr (Or.inr (Or.inl ?_))))⟩ <;>
        convert hx using 2 <;> ring
  refine ⟨⟨fun hx => (key x hx).1, fun hx => ?_⟩, ⟨fun hx => (key x hx).2, fun hx => ?_⟩⟩
  · simpa using (key _ hx).1
  · simpa using (key _ hx).2

omit hd in
/-- Odd moments of a symmetric region vanish. -/
theorem odd_moment_y {R : Set (ℝ × ℝ)} (hs : ∀ x, x ∈ R ↔ (-x.1, x.2) ∈ R) {m : ℕ} (hm : Odd m) (n : ℕ) :
    areaMoment m n R = 0 := by
  have e : signedMap (-1) 1 0 0 '' R = R := by
    ext x
    rw [mem_signed, hs x]
    simp
  have := integral_signed (-1) 1 0 0 R fun x => x.1 ^ m * x.2 ^ n
  rw [e] at this
  have h2 : areaMoment m n R = -areaMoment m n R := by
    conv_lhs => rw [areaMoment, this]
    rw [areaMoment, ← integral_neg]
    congr 1
    funext x
    simp [signedMap, hm.neg_pow]
  linarith

omit hd in
theorem odd_moment_z {R : Set (ℝ × ℝ)} (hs : ∀ x, x ∈ R ↔ (x.1, -x.2) ∈ R) (m : ℕ) {n : ℕ} (hn : Odd n) :
    areaMoment m n R = 0 := by
  have e : signedMap 1 (-1) 0 0 '' R = R := by
    ext x
    rw [mem_signed, hs x]
    simp
  have := integral_signed 1 (-1) 0 0 R fun x => x.1 ^ m * x.2 ^ n
  rw [e] at this
  have h2 : areaMoment m n R = -areaMoment m n R := by
    conv_lhs => rw [areaMoment, this]
    rw [areaMoment, ← integral_neg]
    congr 1
    funext x
    simp [signedMap, hn.neg_pow]
  linarith

/-- **C62, centroid.** The centroid of an I section is the origin and it has no product moment. -/
theorem C62_centroid (h b tw tf r : ℝ) :
    areaMoment 1 0 (sectionI disc h b tw tf r) = 0 ∧ areaMoment 0 1 (sectionI disc h b tw tf r) = 0 ∧
      areaMoment 1 1 (sectionI disc h b tw tf r) = 0 :=
  ⟨odd_moment_y (fun x => (C62_symmetric hd h b tw tf r x).1) odd_one 0,
    odd_moment_z (fun x => (C62_symmetric hd h b tw tf r x).2) 0 odd_one,
    odd_moment_y (fun x => (C62_symmetric hd h b tw tf r x).1) odd_one 1⟩

omit hd in
theorem plate_moment {y0 y1 z0 z1 : ℝ} (hy : y0 ≤ y1) (hz : z0 ≤ z1) (m n : ℕ) :
    plateIntegral (fun x => x.1 ^ m * x.2 ^ n) y0 y1 z0 z1 =
      (y1 ^ (m + 1) - y0 ^ (m + 1)) / (m + 1) * ((z1 ^ (n + 1) - z0 ^ (n + 1)) / (n + 1)) := by
  unfold plateIntegral
  rw [Measure.volume_eq_prod, setIntegral_prod_mul (fun y : ℝ => y ^ m) (fun z : ℝ => z ^ n) (Set.Icc y0 y1) (Set.Icc z0 z1),
    integral_Icc_eq_integral_Ioc, integral_Icc_eq_integral_Ioc, ← intervalIntegral.integral_of_le hy,
    ← intervalIntegral.integral_of_le hz, integral_pow, integral_pow]

/-- **C62, area.** Two flanges, the web and four times the fillet, which is a square without a quarter of the disc. -/
theorem C62_area {h b tw tf r : ℝ} (hf : FitsTogether (.I h b tw tf r)) :
    areaMoment 0 0 (sectionI disc h b tw tf r) =
      2 * b * tf + tw * (h - 2 * tf) + 4 * (r ^ 2 - areaMoment 0 0 (disc 0 r) / 4) := by
  rw [← fillet_area hd hf.2.2.2.2.1.le]
  have hp := C62_parts hd hf (f := fun x => x.1 ^ 0 * x.2 ^ 0) (by fun_prop)
  obtain ⟨h1, h2, h3, h4, h5, h6, h7⟩ := hf
  rw [areaMoment, hp, plate_moment (by linarith) (by linarith), plate_moment (by linarith) (by linarith),
    plate_moment (by linarith) (by linarith)]
  have : areaMoment 0 0 (filletShape disc r) * 4 = ∫ x in filletShape disc r, ((1 : ℝ) * 4) := by
    rw [integral_mul_const]; simp [areaMoment]
  simp only [pow_zero, mul_one, zero_add, pow_one, Nat.cast_zero, div_one]
  norm_num at this ⊢
  linarith

/-- **C62, second moments.** The second moments are those of two flanges, the web and the fillets. -/
theorem C62_inertia {h b tw tf r : ℝ} (hf : FitsTogether (.I h b tw tf r)) :
    areaMoment 0 2 (sectionI disc h b tw tf r) =
      b * (h ^ 3 - (h - 2 * tf) ^ 3) / 12 + tw * (h - 2 * tf) ^ 3 / 12 +
        4 * ∫ x in filletShape disc r, (h / 2 - tf - x.2) ^ 2 ∧
    areaMoment 2 0 (sectionI disc h b tw tf r) =
      2 * tf * b ^ 3 / 12 + (h - 2 * tf) * tw ^ 3 / 12 + 4 * ∫ x in filletShape disc r, (tw / 2 + x.1) ^ 2 := by
  have hp := C62_parts hd hf (f := fun x => x.1 ^ 0 * x.2 ^ 2) (by fun_prop)
  have hp' := C62_parts hd hf (f := fun x => x.1 ^ 2 * x.2 ^ 0) (by fun_prop)
  obtain ⟨h1, h2, h3, h4, h5, h6, h7⟩ := hf
  constructor
  · rw [areaMoment, hp, plate_moment (by linarith) (by linarith), plate_moment (by linarith) (by linarith),
      plate_moment (by linarith) (by linarith), ← integral_const_mul]
    congr 1
    · push_cast; ring
    · congr 1; funext x; ring
  · rw [areaMoment, hp', plate_moment (by linarith) (by linarith), plate_moment (by linarith) (by linarith),
      plate_moment (by linarith) (by linarith), ← integral_const_mul]
    congr 1
    · push_cast; ring
    · congr 1; funext x; ring

/-- **C62 with C60.** A profile whose polygon bounds the I section with given dimensions reports its area, no product
moment, and elastic moduli that are positive and at most the plastic ones. -/
theorem C62_profile {h b tw tf r : ℝ} (hf : FitsTogether (.I h b tw tf r)) {sh : Shapely} {p : Polygon}
    (hp : ProfileShape p (sectionI disc h b tw tf r)) (hs : SplitsWell sh p (sectionI disc h b tw tf r))
    (hs' : SplitsWell sh (p.rotate (Real.pi / 2)) (rotPt (Real.pi / 2) '' sectionI disc h b tw tf r))
    (eig : ℝ → ℝ → ℝ → Eig) :
    (Profile.read sh eig .A (Profile.fresh p)).2 =
      .ok (2 * b * tf + tw * (h - 2 * tf) + 4 * (r ^ 2 - areaMoment 0 0 (disc 0 r) / 4)) ∧
    (Profile.read sh eig .Iyz (Profile.fresh p)).2 = .ok 0 ∧
    (∃ e w, (Profile.read sh eig .Wely (Profile.fresh p)).2 = .ok e ∧
      (Profile.read sh eig .Wply (Profile.fresh p)).2 = .ok w ∧ 0 < e ∧ e ≤ w) ∧
    (∃ e w, (Profile.read sh eig .Welz (Profile.fresh p)).2 = .ok e ∧
      (Profile.read sh eig .Wplz (Profile.fresh p)).2 = .ok w ∧ 0 < e ∧ e ≤ w) := by
  obtain ⟨c1, c2, c3⟩ := C62_centroid hd h b tw tf r
  obtain ⟨zp, yp, -, -, hv⟩ := shape_values hp hs hs' eig
  have hA := fresh_read hv (a := .A) (by simp)
  have hI := fresh_read hv (a := .Iyz) (by simp)
  simp only [regionValue, C62_area hd hf] at hA
  simp only [regionValue, c3] at hI
  exact ⟨hA, hI, C60_shape_factor hp hs hs' eig c2 c1⟩

end

/-! ### U sections -/

section

variable {disc : ℝ × ℝ → ℝ → Set (ℝ × ℝ)} (hd : IsDisc disc)

include hd

theorem sectionURaw_symmetric (h b tw tf r : ℝ) (x : ℝ × ℝ) :
    x ∈ sectionURaw disc h b tw tf r ↔ (x.1, -x.2) ∈ sectionURaw disc h b tw tf r := by
  have key : ∀ x, x ∈ sectionURaw disc h b tw tf r → (x.1, -x.2) ∈ sectionURaw disc h b tw tf r := by
    intro x hx
    rw [sectionURaw_parts hd] at hx ⊢
    simp only [Set.mem_union, mem_signed, Units.val_one, Int.cast_one, one_mul, Units.val_neg, Int.cast_neg,
      neg_mul] at hx ⊢
    rcases hx with hx | hx | hx | hx | hx
    · obtain ⟨⟨a1, a2⟩, a3, a4⟩ := hx
      exact Or.inr (Or.inl ⟨⟨a1, a2⟩, by simp only; linarith, by simp only; linarith⟩)
    · obtain ⟨⟨a1, a2⟩, a3, a4⟩ := hx
      exact Or.inl ⟨⟨a1, a2⟩, by simp only; linarith, by simp only; linarith⟩
    · obtain ⟨⟨a1, a2⟩, a3, a4⟩ := hx
      exact Or.inr (Or.inr (Or.inl ⟨⟨a1, a2⟩, by simp only; linarith, by simp only; linarith⟩))
    · refine Or.inr (Or.inr (Or.inr (Or.inr ?_)))
      convert hx using 2; ring
    · refine Or.inr (Or.inr (Or.inr (Or.inl ?_)))
      convert hx using 2; ring
  exact ⟨key x, fun hx => by simpa using key _ hx⟩

theorem sectionURaw_measurable (h b tw tf r : ℝ) : MeasurableSet (sectionURaw disc h b tw tf r) := by
  rw [sectionURaw_parts hd]
  exact (rect_measurable _ _ _ _).union ((rect_measurable _ _ _ _).union ((rect_measurable _ _ _ _).union
    ((corner_measurable hd _ _ _ _ _).union (corner_measurable hd _ _ _ _ _))))

theorem sectionURaw_bounded (h b tw tf r : ℝ) : Bornology.IsBounded (sectionURaw disc h b tw tf r) := by
  rw [sectionURaw_parts hd]
  exact (rect_bounded _ _ _ _).union ((rect_bounded _ _ _ _).union ((rect_bounded _ _ _ _).union
    ((corner_bounded _ _ _ _ _).union (corner_bounded _ _ _ _ _))))

theorem sectionURaw_box {h b tw tf r : ℝ} (hf : FitsTogether (.parallelU h b tw tf r)) :
    sectionURaw disc h b tw tf r ⊆ Set.Icc 0 b ×ˢ Set.Icc (-h / 2) (h / 2) := by
  obtain ⟨h1, h2, h3, h4, h5, h6, h7⟩ := hf
  rw [sectionURaw_parts hd]
  rintro x (hx | hx | hx | hx | hx)
  · obtain ⟨⟨a1, a2⟩, a3, a4⟩ := hx
    exact ⟨⟨a1, a2⟩, a3, by linarith⟩
  · obtain ⟨⟨a1, a2⟩, a3, a4⟩ := hx
    exact ⟨⟨a1, a2⟩, by linarith, a4⟩
  · obtain ⟨⟨a1, a2⟩, a3, a4⟩ := hx
    exact ⟨⟨by linarith, by linarith⟩, by linarith, by linarith⟩
  all_goals
    rw [mem_signed] at hx
    obtain ⟨⟨a1, a2⟩, a3, a4⟩ := fillet_box r hx
    simp only [Units.val_one, Int.cast_one, one_mul, Units.val_neg, Int.cast_neg, neg_mul] at a1 a2 a3 a4
    exact ⟨⟨by linarith, by linarith⟩, by linarith, by linarith⟩

/-- Integral over a U section before it is moved to its centroid. -/
theorem sectionURaw_integral {h b tw tf r : ℝ} (hf : FitsTogether (.parallelU h b tw tf r)) {f : ℝ × ℝ → ℝ}
    (hc : Continuous f) :
    ∫ x in sectionURaw disc h b tw tf r, f x =
      plateIntegral f 0 b (-h / 2) (-h / 2 + tf) + plateIntegral f 0 b (h / 2 - tf) (h / 2) +
      plateIntegral f 0 tw (-h / 2 + tf) (h / 2 - tf) +
      ∫ x in filletShape disc r, (f (tw + x.1, h / 2 - tf - x.2) + f (tw + x.1, -(h / 2 - tf - x.2))) := by
  obtain ⟨h1, h2, h3, h4, h5, h6, h7⟩ := hf
  have bK := bounded_of_box 0 r 0 r (fillet_box (disc := disc) r)
  have cb := fun s t a c => corner_bounded (disc := disc) s t a c r
  have cm := fun s t a c => corner_measurable hd s t a c r
  have lo : ∀ s a, signedMap s 1 a (-h / 2 + tf) '' filletShape disc r ⊆ {x | -h / 2 + tf ≤ x.2 ∧ x.2 ≤ 0} := by
    intro s a x hx
    rw [mem_signed] at hx
    obtain ⟨-, a3, a4⟩ := fillet_box r hx
    simp only [Units.val_one, Int.cast_one, one_mul] at a3 a4
    exact ⟨by linarith, by linarith⟩
  have hi : ∀ s a, signedMap s (-1) a (h / 2 - tf) '' filletShape disc r ⊆ {x | 0 ≤ x.2 ∧ x.2 ≤ h / 2 - tf} := by
    intro s a x hx
    rw [mem_signed] at hx
    obtain ⟨-, a3, a4⟩ := fillet_box r hx
    simp only [Units.val_one, Int.cast_one, one_mul, Units.val_neg, Int.cast_neg, neg_mul] at a3 a4
    exact ⟨by linarith, by linarith⟩
  have ri : ∀ t c, signedMap 1 t tw c '' filletShape disc r ⊆ {x | tw ≤ x.1} := by
    intro t c x hx
    rw [mem_signed] at hx
    obtain ⟨⟨a3, a4⟩, -⟩ := fillet_box r hx
    simp only [Units.val_one, Int.cast_one, one_mul] at a3 a4
    simp only [Set.mem_ofPred_eq]
    linarith
  have fm := (cm 1 1 tw (-h / 2 + tf)).union (cm 1 (-1) tw (h / 2 - tf))
  have fb := (cb 1 1 tw (-h / 2 + tf)).union (cb 1 (-1) tw (h / 2 - tf))
  rw [sectionURaw_parts hd,
    integral_union_ae ?_ ((rect_measurable _ _ _ _).union ((rect_measurable _ _ _ _).union fm)) (rect_bounded _ _ _ _)
      ((rect_bounded _ _ _ _).union ((rect_bounded _ _ _ _).union fb)) hc,
    integral_union_ae ?_ ((rect_measurable _ _ _ _).union fm) (rect_bounded _ _ _ _)
      ((rect_bounded _ _ _ _).union fb) hc,
    integral_union_ae ?_ fm (rect_bounded _ _ _ _) fb hc,
    integral_union_ae ?_ (cm _ _ _ _) (cb _ _ _ _) (cb _ _ _ _) hc]
  · simp only [integral_signed]
    have hcc : ∀ s t a c, Continuous fun x => f (signedMap s t a c x) := fun s t a c =>
      hc.comp (by unfold signedMap; fun_prop)
    rw [← integral_add (continuous_integrableOn (hcc _ _ _ _) bK) (continuous_integrableOn (hcc _ _ _ _) bK)]
    simp only [plateIntegral, rectSet, signedMap, Units.val_one, Int.cast_one, one_mul, Units.val_neg, Int.cast_neg,
      neg_mul]
    rw [add_assoc, add_assoc]
    congr 3
    congr 1
    funext x
    rw [show -h / 2 + tf + x.2 = -(h / 2 - tf - x.2) by ring, show h / 2 - tf + -x.2 = h / 2 - tf - x.2 by ring]
    ring
  · exact aedisjoint_z 0 ((lo _ _).trans fun x hx => hx.2) ((hi _ _).trans fun x hx => hx.1)
  · exact aedisjoint_y tw (fun x hx => hx.1.2) (Set.union_subset (ri _ _) (ri _ _))
  · refine (aedisjoint_z (h / 2 - tf) (Set.union_subset (fun x hx => hx.2.2) (Set.union_subset ?_ ?_))
      fun x hx => hx.2.1).symm
    · exact (lo _ _).trans fun x hx => by simp only [Set.mem_ofPred_eq] at hx ⊢; linarith
    · exact (hi _ _).trans fun x hx => hx.2
  · refine aedisjoint_z (-h / 2 + tf) (fun x hx => hx.2.2) (Set.union_subset ?_ (Set.union_subset (fun x hx => hx.2.1)
      (Set.union_subset ?_ ?_)))
    · intro x hx
      have := hx.2.1
      simp only [Set.mem_ofPred_eq]; linarith
    · exact (lo _ _).trans fun x hx => hx.1
    · exact (hi _ _).trans fun x hx => by simp only [Set.mem_ofPred_eq] at hx ⊢; linarith

theorem fillet_area_nonneg (r : ℝ) : 0 ≤ areaMoment 0 0 (filletShape disc r) :=
  setIntegral_nonneg (fillet_measurable hd r) fun x _ => by simp

theorem sectionURaw_area {h b tw tf r : ℝ} (hf : FitsTogether (.parallelU h b tw tf r)) :
    areaMoment 0 0 (sectionURaw disc h b tw tf r) =
      2 * b * tf + tw * (h - 2 * tf) + 2 * areaMoment 0 0 (filletShape disc r) := by
  have hp := sectionURaw_integral hd hf (f := fun x => x.1 ^ 0 * x.2 ^ 0) (by fun_prop)
  obtain ⟨h1, h2, h3, h4, h5, h6, h7⟩ := hf
  rw [areaMoment, hp, plate_moment (by linarith) (by linarith), plate_moment (by linarith) (by linarith),
    plate_moment (by linarith) (by linarith)]
  have : areaMoment 0 0 (filletShape disc r) * 2 = ∫ x in filletShape disc r, ((1 : ℝ) * 2) := by
    rw [integral_mul_const]; simp [areaMoment]
  simp only [pow_zero, mul_one, zero_add, pow_one, Nat.cast_zero, div_one]
  norm_num at this ⊢
  linarith

/-- **C62, U sections.** A U section with parallel flanges has its centroid at the origin, no product moment, the
area of two flanges, the web and two fillets, is symmetric about the horizontal axis and lies in a box `b` by `h`
around it. -/
theorem C62_channel {h b tw tf r : ℝ} (hf : FitsTogether (.parallelU h b tw tf r)) :
    areaMoment 1 0 (sectionU disc h b tw tf r) = 0 ∧ areaMoment 0 1 (sectionU disc h b tw tf r) = 0 ∧
      areaMoment 1 1 (sectionU disc h b tw tf r) = 0 ∧
      areaMoment 0 0 (sectionU disc h b tw tf r) =
        2 * b * tf + tw * (h - 2 * tf) + 2 * (r ^ 2 - areaMoment 0 0 (disc 0 r) / 4) ∧
      (∀ x, x ∈ sectionU disc h b tw tf r ↔ (x.1, -x.2) ∈ sectionU disc h b tw tf r) ∧
      ∃ y0, 0 < y0 ∧ y0 < b ∧ sectionU disc h b tw tf r ⊆ Set.Icc (-y0) (b - y0) ×ˢ Set.Icc (-h / 2) (h / 2) := by
  set R := sectionURaw disc h b tw tf r with hR
  have bR : Bornology.IsBounded R := sectionURaw_bounded hd h b tw tf r
  have mR : MeasurableSet R := sectionURaw_measurable hd h b tw tf r
  have box : R ⊆ Set.Icc 0 b ×ˢ Set.Icc (-h / 2) (h / 2) := sectionURaw_box hd hf
  have sym := sectionURaw_symmetric hd h b tw tf r
  have hA := sectionURaw_area hd hf
  rw [← hR] at sym hA
  have hK := fillet_area_nonneg hd r
  have hz0 : areaMoment 0 1 R = 0 := odd_moment_z sym 0 odd_one
  have hyz0 : areaMoment 1 1 R = 0 := odd_moment_z sym 1 odd_one
  have hfk := fillet_area hd hf.2.2.2.2.1.le
  obtain ⟨h1, h2, h3, h4, h5, h6, h7⟩ := hf
  have hpos : 0 < areaMoment 0 0 R := by
    rw [hA]
    have : 0 < b * tf := by positivity
    have : 0 ≤ tw * (h - 2 * tf) := mul_nonneg h3.le (by linarith)
    linarith
  have vpos : 0 < volume R := by
    rw [pos_iff_ne_zero]
    intro h0
    have : areaMoment 0 0 R = 0 := by
      rw [areaMoment, Measure.restrict_eq_zero.2 h0]; simp
    linarith
  set y0 := areaMoment 1 0 R / areaMoment 0 0 R with hy0
  have e : sectionU disc h b tw tf r = translatePt (-y0) 0 '' R := by
    simp only [sectionU, ← hR, hz0, zero_div, neg_zero, ← hy0]
  have ii : ∀ m n : ℕ, IntegrableOn (fun x : ℝ × ℝ => x.1 ^ m * x.2 ^ n) R := fun m n =>
    continuous_integrableOn (by fun_prop) bR
  have i0 : areaMoment 1 0 R - y0 * areaMoment 0 0 R = 0 := by
    rw [hy0, div_mul_cancel₀ _ hpos.ne']; ring
  have lin : ∀ n, areaMoment 1 n (sectionU disc h b tw tf r) = areaMoment 1 n R - y0 * areaMoment 0 n R := by
    intro n
    rw [e]
    unfold areaMoment
    rw [integral_translate, ← integral_const_mul, ← integral_sub (ii 1 n) ((ii 0 n).const_mul _)]
    congr 1; funext x; simp only [translatePt]; ring
  have con : ∀ n, areaMoment 0 n (sectionU disc h b tw tf r) = areaMoment 0 n R := by
    intro n
    rw [e]
    unfold areaMoment
    rw [integral_translate]
    congr 1; funext x; simp only [translatePt]; ring
  refine ⟨by rw [lin, i0], by rw [con, hz0], by rw [lin, hyz0, hz0]; ring, by rw [con, hA, hfk], ?_, y0, ?_, ?_, ?_⟩
  · intro x
    rw [e]
    constructor
    · rintro ⟨y, hy, rfl⟩
      exact ⟨(y.1, -y.2), (sym y).1 hy, by simp [translatePt]⟩
    · rintro ⟨y, hy, hxy⟩
      refine ⟨(y.1, -y.2), (sym y).1 hy, ?_⟩
      simp only [translatePt, Prod.mk.injEq, add_zero] at hxy ⊢
      ext
      · exact hxy.1
      · simp [hxy.2]
  · apply div_pos _ hpos
    unfold areaMoment
    rw [setIntegral_pos_iff_support_of_nonneg_ae _ (ii 1 0)]
    · have : R \ {x : ℝ × ℝ | x.1 = 0} ⊆ Function.support (fun x : ℝ × ℝ => x.1 ^ 1 * x.2 ^ 0) ∩ R := by
        intro x hx
        exact ⟨by simpa using hx.2, hx.1⟩
      refine lt_of_lt_of_le ?_ (measure_mono this)
      rwa [measure_sdiff_null (volume_vline 0)]
    · filter_upwards [ae_restrict_mem mR] with x hx
      simpa using (box hx).1.1
  · rw [hy0, div_lt_iff₀ hpos]
    have hlt : 0 < ∫ x in R, (b - x.1) := by
      rw [setIntegral_pos_iff_support_of_nonneg_ae _ (continuous_integrableOn (by fun_prop) bR)]
      · have : R \ {x : ℝ × ℝ | x.1 = b} ⊆ Function.support (fun x : ℝ × ℝ => b - x.1) ∩ R := by
          intro x hx
          refine ⟨?_, hx.1⟩
          rw [Function.mem_support, sub_ne_zero]
          exact fun h => hx.2 h.symm
        refine lt_of_lt_of_le ?_ (measure_mono this)
        rwa [measure_sdiff_null (volume_vline b)]
      · filter_upwards [ae_restrict_mem mR] with x hx
        simpa using (box hx).1.2
    have : (∫ x in R, (b - x.1)) = b * areaMoment 0 0 R - areaMoment 1 0 R := by
      unfold areaMoment
      rw [← integral_const_mul, ← integral_sub ((ii 0 0).const_mul _) (ii 1 0)]
      congr 1; funext x; ring
    linarith
  · rw [e]
    rintro x ⟨y, hy, rfl⟩
    obtain ⟨⟨a1, a2⟩, a3, a4⟩ := box hy
    exact ⟨⟨by simp only [translatePt]; linarith, by simp only [translatePt]; linarith⟩,
      by simp only [translatePt]; linarith, by simp only [translatePt]; linarith⟩

end

/-! ### Discs -/

/-- True discs. -/
theorem isDisc_euclid : IsDisc fun c r => {x : ℝ × ℝ | (x.1 - c.1) ^ 2 + (x.2 - c.2) ^ 2 ≤ r ^ 2 ∧ 0 ≤ r} where
  measurable c r := by
    have h1 : MeasurableSet {x : ℝ × ℝ | (x.1 - c.1) ^ 2 + (x.2 - c.2) ^ 2 ≤ r ^ 2} :=
      measurableSet_le (by fun_prop) measurable_const
    exact h1.inter (MeasurableSet.const (0 ≤ r))
  placed c r x := by simp
  mirror_y r x h := by simpa using h
  mirror_z r x h := by simpa using h
  small r x h := by
    obtain ⟨h1, h2⟩ := h
    simp only [Prod.fst_zero, Prod.snd_zero, sub_zero] at h1
    exact ⟨abs_le_of_sq_le_sq (by nlinarith [sq_nonneg x.2]) h2, abs_le_of_sq_le_sq (by nlinarith [sq_nonneg x.1]) h2⟩

/-- The corners of `Point(0, 0).buffer(r, q)` are mirrored onto each other. -/
theorem ring_mirror (r : ℝ) {q : ℕ} (hq : 0 < q) {v : ℝ × ℝ} (hv : v ∈ bufferRing 0 r q) :
    (-v.1, v.2) ∈ bufferRing 0 r q ∧ (v.1, -v.2) ∈ bufferRing 0 r q := by
  have hq' : (q : ℝ) ≠ 0 := by exact_mod_cast hq.ne'
  simp only [bufferRing, List.mem_map, List.mem_range] at hv ⊢
  obtain ⟨k, hk, rfl⟩ := hv
  constructor
  · by_cases h2 : k ≤ 2 * q
    · refine ⟨2 * q - k, by omega, ?_⟩
      have e : ((2 * q - k : ℕ) : ℝ) * (Real.pi / (2 * q)) = Real.pi - k * (Real.pi / (2 * q)) := by
        rw [Nat.cast_sub h2]; push_cast; field_simp
      rw [e]
      simp only [Real.cos_neg, Real.sin_neg, Real.cos_pi_sub, Real.sin_pi_sub, Prod.fst_zero, Prod.snd_zero]
      ext <;> simp
    · refine ⟨6 * q - k, by omega, ?_⟩
      have e : ((6 * q - k : ℕ) : ℝ) * (Real.pi / (2 * q)) = Real.pi - k * (Real.pi / (2 * q)) + 2 * Real.pi := by
        rw [Nat.cast_sub (by omega)]; push_cast; field_simp; ring
      rw [e]
      simp only [Real.cos_neg, Real.sin_neg, Real.cos_add_two_pi, Real.sin_add_two_pi, Real.cos_pi_sub, Real.sin_pi_sub,
        Prod.fst_zero, Prod.snd_zero]
      ext <;> simp
  · refine ⟨4 * q - k, by omega, ?_⟩
    have e : ((4 * q - k : ℕ) : ℝ) * (Real.pi / (2 * q)) = 2 * Real.pi - k * (Real.pi / (2 * q)) := by
      rw [Nat.cast_sub (by omega)]; push_cast; field_simp; ring
    rw [e]
    simp only [Real.cos_neg, Real.sin_neg, Real.cos_two_pi_sub, Real.sin_two_pi_sub, Prod.fst_zero, Prod.snd_zero]
    ext <;> simp

/-- The regular polygons that `Point(c).buffer(r)` makes, with `q` segments per quarter (shapely's default is 16). -/
theorem isDisc_polygon {q : ℕ} (hq : 0 < q) :
    IsDisc fun c r => {x : ℝ × ℝ | x ∈ convexHull ℝ {v | v ∈ bufferRing c r q} ∧ 0 ≤ r} where
  measurable c r := by
    have h1 : MeasurableSet (convexHull ℝ {v | v ∈ bufferRing c r q}) :=
      ((List.finite_toSet _).isCompact_convexHull (𝕜 := ℝ)).measurableSet
    exact h1.inter (MeasurableSet.const (0 ≤ r))
  placed c r x := by
    have e : {v | v ∈ bufferRing c r q} = (fun v => c + v) '' {v | v ∈ bufferRing 0 r q} := by
      ext v
      simp only [bufferRing, Set.mem_image, Set.mem_ofPred_eq, List.mem_map]
      constructor
      · rintro ⟨k, hk, rfl⟩
        exact ⟨_, ⟨k, hk, rfl⟩, by ext <;> simp⟩
      · rintro ⟨w, ⟨k, hk, rfl⟩, rfl⟩
        exact ⟨k, hk, by ext <;> simp⟩
    have e2 : convexHull ℝ {v | v ∈ bufferRing c r q} = (fun v => c + v) '' convexHull ℝ {v | v ∈ bufferRing 0 r q} := by
      rw [e]
      have := (AffineEquiv.constVAdd ℝ (ℝ × ℝ) c).toAffineMap.image_convexHull {v | v ∈ bufferRing 0 r q}
      simpa using this.symm
    simp only [Set.mem_ofPred_eq, e2, Set.mem_image]
    refine and_congr_left fun _ => ⟨?_, fun h => ⟨_, h, by simp⟩⟩
    rintro ⟨y, hy, rfl⟩
    simpa using hy
  mirror_y r x h := by
    refine ⟨?_, h.2⟩
    let L : (ℝ × ℝ) →ₗ[ℝ] (ℝ × ℝ) := LinearMap.prodMap (-LinearMap.id) LinearMap.id
    have h1 : L x ∈ L '' convexHull ℝ {v | v ∈ bufferRing 0 r q} := ⟨x, h.1, rfl⟩
    rw [L.image_convexHull] at h1
    refine convexHull_mono ?_ h1
    rintro v ⟨w, hw, rfl⟩
    exact (ring_mirror r hq hw).1
  mirror_z r x h := by
    refine ⟨?_, h.2⟩
    let L : (ℝ × ℝ) →ₗ[ℝ] (ℝ × ℝ) := LinearMap.prodMap LinearMap.id (-LinearMap.id)
    have h1 : L x ∈ L '' convexHull ℝ {v | v ∈ bufferRing 0 r q} := ⟨x, h.1, rfl⟩
    rw [L.image_convexHull] at h1
    refine convexHull_mono ?_ h1
    rintro v ⟨w, hw, rfl⟩
    exact (ring_mirror r hq hw).2
  small r x h := by
    have hc : Convex ℝ (Set.Icc (-r) r ×ˢ Set.Icc (-r) r : Set (ℝ × ℝ)) := (convex_Icc _ _).prod (convex_Icc _ _)
    have hs : {v | v ∈ bufferRing 0 r q} ⊆ (Set.Icc (-r) r ×ˢ Set.Icc (-r) r : Set (ℝ × ℝ)) := by
      intro v hv
      simp only [bufferRing, Set.mem_ofPred_eq, List.mem_map] at hv
      obtain ⟨k, -, rfl⟩ := hv
      have c1 := Real.cos_le_one (-(k * (Real.pi / (2 * q))))
      have c2 := Real.neg_one_le_cos (-(k * (Real.pi / (2 * q))))
      have s1 := Real.sin_le_one (-(k * (Real.pi / (2 * q))))
      have s2 := Real.neg_one_le_sin (-(k * (Real.pi / (2 * q))))
      have := h.2
      refine ⟨⟨?_, ?_⟩, ?_, ?_⟩ <;> simp only [Prod.fst_zero, Prod.snd_zero, zero_add] <;> nlinarith
    obtain ⟨h1, h2⟩ := convexHull_min hs hc h.1
    exact ⟨abs_le.2 h1, abs_le.2 h2⟩

/-! ### Examples -/

/-- The IPE 100 and the UPE 100 of the tables meet the hypotheses, as every row does by `C61_dimensions`. -/
example : FitsTogether (.I 100 55 4.1 5.7 7) ∧ FitsTogether (.parallelU 100 55 4.5 7.5 10) := by
  simp only [FitsTogether]; norm_num

/-- With discs of area `pi r²` the area of an IPE 100 is `1032 mm²`, as in the catalogues. -/
example {disc : ℝ × ℝ → ℝ → Set (ℝ × ℝ)} (hd : IsDisc disc) (hA : areaMoment 0 0 (disc 0 7) = Real.pi * 7 ^ 2) :
    |areaMoment 0 0 (sectionI disc 100 55 4.1 5.7 7) - 1032.3| < 0.1 := by
  rw [C62_area hd (by simp only [FitsTogether]; norm_num), hA, abs_lt]
  have h1 := Real.pi_gt_d6
  have h2 := Real.pi_lt_d6
  constructor <;> linarith

end SC
