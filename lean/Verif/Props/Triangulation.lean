import Verif.Model.Triangulation
import Verif.Props.FiberExample
import Verif.Lemmas.Plates
import Mathlib.Analysis.LocallyConvex.Separation
import Mathlib.Analysis.Convex.Measure

/-! # C57: what is handed to the mesher -/

set_option autoImplicit false

namespace SC

open Spec MeasureTheory

/-- The pieces of boundary described by index pairs. -/
def segmentEnds (vs : List (ℝ × ℝ)) (segs : List (ℕ × ℕ)) : List (Option (ℝ × ℝ) × Option (ℝ × ℝ)) :=
  segs.map fun s => (vs[s.1]?, vs[s.2]?)

/-- The edges of a ring, as optional pairs. -/
def ringEdges (r : List (ℝ × ℝ)) : List (Option (ℝ × ℝ) × Option (ℝ × ℝ)) :=
  (edges r).map fun e => (some e.1, some e.2)

theorem edges_zip (l : List (ℝ × ℝ)) : edges l = l.dropLast.zip l.tail := by
  induction l with
  | nil => rfl
  | cons a l ih =>
    cases l with
    | nil => rfl
    | cons b l => simp only [edges, ih, List.dropLast_cons₂, List.tail_cons, List.zip_cons_cons]

theorem closed_tail {r : List (ℝ × ℝ)} (hc : Closed r) (h2 : 2 ≤ r.length) : r.tail = r.dropLast.rotate 1 := by
  cases r with
  | nil => simp at h2
  | cons a l =>
    cases l with
    | nil => simp at h2
    | cons b l =>
      have hl : (b :: l).getLast (by simp) = a := by
        unfold Closed at hc
        rw [List.head?_cons, List.getLast?_cons_cons, List.getLast?_eq_some_getLast (by simp)] at hc
        exact (Option.some.inj hc).symm
      rw [List.dropLast_cons₂, List.rotate_cons_succ, List.rotate_zero, List.tail_cons]
      conv_lhs => rw [← List.dropLast_append_getLast (l := b :: l) (by simp), hl]

theorem ring_ends (vs r : List (ℝ × ℝ)) (ws : List (ℝ × ℝ)) (hc : Closed r) (h2 : 2 ≤ r.length) :
    segmentEnds (vs ++ r.dropLast ++ ws) (ringSegments vs.length r.dropLast.length) = ringEdges r := by
  have hget : ∀ i, i < r.dropLast.length → (vs ++ r.dropLast ++ ws)[i + vs.length]? = r.dropLast[i]? := by
    intro i hi
    rw [List.append_assoc, List.getElem?_append_right (by omega), Nat.add_sub_cancel, List.getElem?_append_left hi]
  have hmap : ((List.range r.dropLast.length).map (· + vs.length)).map (fun i => (vs ++ r.dropLast ++ ws)[i]?) =
      r.dropLast.map some := by
    refine List.ext_getElem (by simp) fun i h1 h3 => ?_
    simp only [List.getElem_map, List.getElem_range]
    rw [hget i (by simpa using h3), List.getElem?_eq_getElem (by simpa using h3)]
  unfold segmentEnds ringSegments ringEdges
  rw [edges_zip, closed_tail hc h2]
  simp only
  have hz : ∀ (l l' : List ℕ), (l.zip l').map (fun s => ((vs ++ r.dropLast ++ ws)[s.1]?, (vs ++ r.dropLast ++ ws)[s.2]?)) =
      (l.map fun i => (vs ++ r.dropLast ++ ws)[i]?).zip (l'.map fun i => (vs ++ r.dropLast ++ ws)[i]?) := by
    intro l l'
    rw [List.zip_map]; rfl
  have hz2 : ∀ (l l' : List (ℝ × ℝ)), (l.zip l').map (fun e => (some e.1, some e.2)) = (l.map some).zip (l'.map some) := by
    intro l l'
    rw [List.zip_map]; rfl
  rw [hz, hz2, List.map_rotate, hmap, List.map_rotate]

theorem ringSegments_lt (s n : ℕ) : ∀ x ∈ ringSegments s n, x.1 < s + n ∧ x.2 < s + n := by
  intro x hx
  unfold ringSegments at hx
  have h1 := List.of_mem_zip hx
  rw [List.mem_rotate] at h1
  simp only [List.mem_map, List.mem_range] at h1
  obtain ⟨⟨i, hi, e1⟩, ⟨j, hj, e2⟩⟩ := h1
  omega

theorem segmentEnds_append (vs ws : List (ℝ × ℝ)) (segs : List (ℕ × ℕ)) (h : ∀ x ∈ segs, x.1 < vs.length ∧ x.2 < vs.length) :
    segmentEnds (vs ++ ws) segs = segmentEnds vs segs := by
  unfold segmentEnds
  refine List.map_congr_left fun x hx => ?_
  rw [List.getElem?_append_left (h x hx).1, List.getElem?_append_left (h x hx).2]

theorem addHole_fold (ints : List (List (ℝ × ℝ))) (hi : ∀ r ∈ ints, Closed r ∧ 2 ≤ r.length)
    (acc : List (ℝ × ℝ) × List (ℕ × ℕ) × List (ℝ × ℝ)) (hacc : ∀ x ∈ acc.2.1, x.1 < acc.1.length ∧ x.2 < acc.1.length) :
    let out := ints.foldl addHole acc
    out.1 = acc.1 ++ ints.flatMap List.dropLast ∧
    (∀ x ∈ out.2.1, x.1 < out.1.length ∧ x.2 < out.1.length) ∧
    segmentEnds out.1 out.2.1 = segmentEnds acc.1 acc.2.1 ++ ints.flatMap ringEdges ∧
    out.2.2 = acc.2.2 ++ ints.map fun r => Polygon.centroid ⟨r, []⟩ := by
  induction ints generalizing acc with
  | nil => simpa using hacc
  | cons r ints ih =>
    have hr := hi r (by simp)
    have hseg : ∀ x ∈ (addHole acc r).2.1, x.1 < (addHole acc r).1.length ∧ x.2 < (addHole acc r).1.length := by
      intro x hx
      simp only [addHole, List.length_append] at hx ⊢
      rcases List.mem_append.1 hx with h | h
      · have := hacc x h; omega
      · exact ringSegments_lt _ _ x h
    obtain ⟨h1, h2, h3, h4⟩ := ih (fun r hr => hi r (by simp [hr])) (addHole acc r) hseg
    refine ⟨?_, h2, ?_, ?_⟩
    · rw [List.foldl_cons, h1]; simp [addHole]
    · rw [List.foldl_cons, h3]
      simp only [List.flatMap_cons]
      rw [← List.append_assoc]
      congr 1
      simp only [addHole]
      have ha := segmentEnds_append acc.1 r.dropLast acc.2.1 hacc
      have hb := ring_ends acc.1 r [] hr.1 hr.2
      rw [List.append_nil] at hb
      rw [← ha, ← hb]
      simp [segmentEnds]
    · rw [List.foldl_cons, h4]; simp [addHole]

/-- **C57**, boundary.  For every polygon (closed rings) the dictionary given to the mesher has the vertices of all rings once, all
segment indices are valid, the segments are exactly the edges of the exterior and of the holes, in order, and there is one hole
point per hole. -/
theorem C57_boundary (p : Polygon) (he : Closed p.ext ∧ 2 ≤ p.ext.length) (hi : ∀ r ∈ p.ints, Closed r ∧ 2 ≤ r.length) :
    (prepareTriangulation p).vertices = p.ext.dropLast ++ p.ints.flatMap List.dropLast ∧
    (∀ s ∈ (prepareTriangulation p).segments, s.1 < (prepareTriangulation p).vertices.length ∧
      s.2 < (prepareTriangulation p).vertices.length) ∧
    (prepareTriangulation p).segments.map (fun s => ((prepareTriangulation p).vertices[s.1]?, (prepareTriangulation p).vertices[s.2]?)) =
      (edges p.ext ++ p.ints.flatMap edges).map (fun e => (some e.1, some e.2)) ∧
    (prepareTriangulation p).holes = (if p.ints = [] then none else some (p.ints.map fun r => Polygon.centroid ⟨r, []⟩)) := by
  have h0 := ring_ends [] p.ext [] he.1 he.2
  simp only [List.nil_append, List.append_nil, List.length_nil] at h0
  obtain ⟨h1, h2, h3, h4⟩ := addHole_fold p.ints hi (p.ext.dropLast, ringSegments 0 p.ext.dropLast.length, [])
    (fun x hx => by simpa using ringSegments_lt 0 _ x hx)
  refine ⟨h1, h2, ?_, ?_⟩
  · rw [h0] at h3
    refine h3.trans ?_
    rw [List.map_append, List.map_flatMap]; rfl
  · simp only [prepareTriangulation, h4]
    rcases p.ints with _ | ⟨r, rs⟩ <;> simp

/-- **C57**, hole points.  The point that tells the mesher to empty a hole lies in the interior of the hole if the hole is convex. -/
theorem C57_hole_point (r : List (ℝ × ℝ)) (H : Set (ℝ × ℝ)) (henc : Encloses r [] H) (hc : Convex ℝ H) :
    Polygon.centroid ⟨r, []⟩ ∈ interior H := by
  haveI : Measure.IsAddHaarMeasure (volume : Measure (ℝ × ℝ)) := Measure.prod.instIsAddHaarMeasure _ _
  have hA := encloses_area_pos henc
  have m0 := encloses_ring henc 0 0
  have m1 := encloses_ring henc 1 0
  have m2 := encloses_ring henc 0 1
  have hg : Polygon.centroid ⟨r, []⟩ = (areaMoment 1 0 H / areaMoment 0 0 H, areaMoment 0 1 H / areaMoment 0 0 H) := by
    simp only [Polygon.centroid, List.map_nil, List.sum_nil, sub_zero, m0, m1, m2]
  rw [hg]
  by_contra hn
  obtain ⟨f, hf⟩ := geometric_hahn_banach_open_point hc.interior isOpen_interior hn
  have hlin : ∀ x : ℝ × ℝ, f x = f (1, 0) * x.1 + f (0, 1) * x.2 := by
    intro x
    have : x = x.1 • ((1:ℝ), (0:ℝ)) + x.2 • ((0:ℝ), (1:ℝ)) := by ext <;> simp
    conv_lhs => rw [this]
    rw [map_add, map_smul, map_smul]; simp only [smul_eq_mul]; ring
  have hi1 : IntegrableOn (fun x : ℝ × ℝ => x.1) H := continuous_integrableOn continuous_fst henc.bounded
  have hi2 : IntegrableOn (fun x : ℝ × ℝ => x.2) H := continuous_integrableOn continuous_snd henc.bounded
  have hif : IntegrableOn (fun x : ℝ × ℝ => f x) H := continuous_integrableOn f.continuous henc.bounded
  set g : ℝ × ℝ := (areaMoment 1 0 H / areaMoment 0 0 H, areaMoment 0 1 H / areaMoment 0 0 H) with hgd
  have hic : IntegrableOn (fun _ : ℝ × ℝ => f g) H := continuous_integrableOn continuous_const henc.bounded
  have e1 : ∫ x in H, x.1 = areaMoment 1 0 H := by simp [areaMoment]
  have e2 : ∫ x in H, x.2 = areaMoment 0 1 H := by simp [areaMoment]
  have hint : ∫ x in H, f x = ∫ _ in H, f g := by
    have : ∫ x in H, f x = f (1, 0) * areaMoment 1 0 H + f (0, 1) * areaMoment 0 1 H := by
      rw [show (fun x : ℝ × ℝ => f x) = fun x => f (1, 0) * x.1 + f (0, 1) * x.2 from funext hlin,
        integral_add (hi1.const_mul _) (hi2.const_mul _), integral_const_mul, integral_const_mul, e1, e2]
    rw [this, setIntegral_const, smul_eq_mul, hlin g]
    have hv : volume.real H = areaMoment 0 0 H := by simp [areaMoment]
    rw [hv, hgd]
    field_simp
  have hlt : 0 < ∫ x in H, (f g - f x) := by
    rw [setIntegral_pos_iff_support_of_nonneg_ae]
    · have hsub : interior H ⊆ Function.support (fun x => f g - f x) ∩ H := by
        intro x hx
        exact ⟨by have := hf x hx; simp only [Function.mem_support]; intro h; linarith, interior_subset hx⟩
      refine lt_of_lt_of_le ?_ (measure_mono hsub)
      have hfr : volume (H \ interior H) = 0 := by
        refine measure_mono_null ?_ (hc.addHaar_frontier volume)
        exact Set.sdiff_subset_sdiff_left subset_closure
      have hpos : 0 < volume H := by
        rw [pos_iff_ne_zero]
        intro h0
        rw [areaMoment, Measure.restrict_eq_zero.2 h0] at hA
        simp at hA
      rw [pos_iff_ne_zero]
      intro h0
      have : volume H ≤ volume (interior H) + volume (H \ interior H) := by
        refine (measure_mono ?_).trans (measure_union_le _ _)
        intro x hx
        by_cases hxi : x ∈ interior H
        · exact Or.inl hxi
        · exact Or.inr ⟨hx, hxi⟩
      rw [h0, hfr, add_zero] at this
      exact absurd this (not_le.2 hpos)
    · have hfr : volume (H \ interior H) = 0 := by
        refine measure_mono_null ?_ (hc.addHaar_frontier volume)
        exact Set.sdiff_subset_sdiff_left subset_closure
      refine (ae_restrict_iff' henc.measurable).2 ?_
      filter_upwards [measure_eq_zero_iff_ae_notMem.1 hfr] with x hx hxH
      have hxi : x ∈ interior H := by
        by_contra h
        exact hx ⟨hxH, h⟩
      have := hf x hxi
      simp only [Pi.zero_apply]; linarith
    · exact hic.sub hif
  rw [integral_sub hic hif, hint, sub_self] at hlt
  exact lt_irrefl _ hlt

/-- Example: a square with a triangular hole. -/
example : (prepareTriangulation ⟨rectRing 0 4 0 4, [closeRing [(1, 1), (3, 1), (2, 3)]]⟩).segments =
    [(0, 1), (1, 2), (2, 3), (3, 0), (4, 5), (5, 6), (6, 4)] ∧
    (prepareTriangulation ⟨rectRing 0 4 0 4, [closeRing [(1, 1), (3, 1), (2, 3)]]⟩).vertices =
      [(0, 0), (4, 0), (4, 4), (0, 4), (1, 1), (3, 1), (2, 3)] := by
  constructor
  · simp [prepareTriangulation, addHole, rectRing, closeRing, ringSegments, List.range_succ]
  · simp [prepareTriangulation, addHole, rectRing, closeRing]

/-! ## Non-convex holes -/

/-- An edge through a third point of the same line. -/
theorem edgeTerm_through (m n : ℕ) (a b c : ℝ × ℝ) (h : cross a b c = 0) :
    edgeTerm m n a b + edgeTerm m n b c = edgeTerm m n a c := by
  have := triangle_edgeTerm m n a b c
  rw [orientation, h] at this
  simp only [sign_zero, SignType.coe_zero, zero_mul] at this
  rw [edgeTerm_symm m n a c] at this
  linarith

/-- A U-shaped hole: the square `[0,3] x [0,3]` without the notch `(1,2) x (1,3]`. -/
def uRing : List (ℝ × ℝ) := closeRing [(0, 0), (3, 0), (3, 3), (2, 3), (2, 1), (1, 1), (1, 3), (0, 3)]

/-- Its region: two legs and a base. -/
def uRegion : Set (ℝ × ℝ) :=
  (Set.Icc 0 1 ×ˢ Set.Icc 0 3) ∪ (Set.Icc 1 2 ×ˢ Set.Icc 0 1) ∪ (Set.Icc 2 3 ×ˢ Set.Icc 0 3)

theorem rect_marin {a b c d : ℝ} (hab : a < b) (hcd : c < d) (m n : ℕ) :
    marin (rectRing a b c d) m n = areaMoment m n (Set.Icc a b ×ˢ Set.Icc c d) := by
  have hpos : 0 < marin (rectRing a b c d) 0 0 := by
    rw [rectRing, closeRing]
    simp only [List.take_succ_cons, List.take_zero, List.cons_append, List.nil_append, marin_cons_cons, marin_single,
      (edgeTerm_explicit _ _).1, det2]
    nlinarith [mul_pos (sub_pos.2 hab) (sub_pos.2 hcd)]
  have := encloses_ring (encloses_rect hab hcd) m n
  rw [sign_pos hpos] at this
  simpa using this

theorem uRing_marin (m n : ℕ) : marin uRing m n = areaMoment m n uRegion := by
  have b1 : Bornology.IsBounded (Set.Icc (0:ℝ) 1 ×ˢ Set.Icc (0:ℝ) 3) := (Metric.isBounded_Icc _ _).prod (Metric.isBounded_Icc _ _)
  have b2 : Bornology.IsBounded (Set.Icc (1:ℝ) 2 ×ˢ Set.Icc (0:ℝ) 1) := (Metric.isBounded_Icc _ _).prod (Metric.isBounded_Icc _ _)
  have b3 : Bornology.IsBounded (Set.Icc (2:ℝ) 3 ×ˢ Set.Icc (0:ℝ) 3) := (Metric.isBounded_Icc _ _).prod (Metric.isBounded_Icc _ _)
  have d1 : AEDisjoint volume (Set.Icc (0:ℝ) 1 ×ˢ Set.Icc (0:ℝ) 3) (Set.Icc (1:ℝ) 2 ×ˢ Set.Icc (0:ℝ) 1) := by
    refine measure_mono_null ?_ (volume_vline 1)
    rintro ⟨y, z⟩ ⟨h1, h2⟩
    exact le_antisymm h1.1.2 h2.1.1
  have d2 : AEDisjoint volume ((Set.Icc (0:ℝ) 1 ×ˢ Set.Icc (0:ℝ) 3) ∪ (Set.Icc (1:ℝ) 2 ×ˢ Set.Icc (0:ℝ) 1))
      (Set.Icc (2:ℝ) 3 ×ˢ Set.Icc (0:ℝ) 3) := by
    refine measure_mono_null ?_ (volume_vline 2)
    rintro ⟨y, z⟩ ⟨h1 | h1, h2⟩
    · exact absurd (h2.1.1.trans h1.1.2) (by norm_num)
    · exact le_antisymm h1.1.2 h2.1.1
  have hc : Continuous fun x : ℝ × ℝ => x.1 ^ m * x.2 ^ n := by fun_prop
  have hsum : areaMoment m n uRegion = marin (rectRing 0 1 0 3) m n + marin (rectRing 1 2 0 1) m n + marin (rectRing 2 3 0 3) m n := by
    rw [rect_marin (by norm_num) (by norm_num), rect_marin (by norm_num) (by norm_num), rect_marin (by norm_num) (by norm_num)]
    unfold areaMoment uRegion
    rw [_root_.SC.integral_union_ae d2 (measurableSet_Icc.prod measurableSet_Icc) (b1.union b2) b3 hc,
      _root_.SC.integral_union_ae d1 (measurableSet_Icc.prod measurableSet_Icc) b1 b2 hc]
  rw [hsum]
  simp only [uRing, rectRing, closeRing, List.take_succ_cons, List.take_zero, List.cons_append, List.nil_append, marin_cons_cons,
    marin_single]
  have t1 := edgeTerm_through m n (0, 0) (1, 0) (3, 0) (by norm_num [cross])
  have t2 := edgeTerm_through m n (1, 0) (2, 0) (3, 0) (by norm_num [cross])
  have t3 := edgeTerm_through m n (1, 0) (1, 1) (1, 3) (by norm_num [cross])
  have t4 := edgeTerm_through m n (2, 0) (2, 1) (2, 3) (by norm_num [cross])
  have s1 := edgeTerm_symm m n (1, 0) (1, 1)
  have s2 := edgeTerm_symm m n (2, 0) (2, 1)
  have s3 := edgeTerm_symm m n (2, 0) (2, 3)
  have s4 := edgeTerm_symm m n (2, 1) (2, 3)
  have s5 := edgeTerm_symm m n (1, 1) (2, 1)
  linarith

/-- **C57 violated** for non-convex holes.  A square section `[-1,4] x [-1,4]` with a U-shaped hole: the point that is to empty the
hole lies in the notch, in the material and not in the hole (so the mesher removes the material and keeps the hole). -/
theorem C57_hole_point_violated :
    ∃ (p : Polygon) (hole : Set (ℝ × ℝ)) (pt : ℝ × ℝ), p.ints = [uRing] ∧ Encloses uRing [] hole ∧
      (prepareTriangulation p).holes = some [pt] ∧ pt ∉ hole ∧ pt ∈ Set.Icc (-1:ℝ) 4 ×ˢ Set.Icc (-1:ℝ) 4 ∧
      p.ext = rectRing (-1) 4 (-1) 4 := by
  have hm0 : marin uRing 0 0 = 7 := by
    simp only [uRing, closeRing, List.take_succ_cons, List.take_zero, List.cons_append, List.nil_append, marin_cons_cons,
      marin_single, (edgeTerm_explicit _ _).1, det2]
    norm_num
  have hm1 : marin uRing 1 0 = 21 / 2 := by
    simp only [uRing, closeRing, List.take_succ_cons, List.take_zero, List.cons_append, List.nil_append, marin_cons_cons,
      marin_single, (edgeTerm_explicit _ _).2.1, det2]
    norm_num
  have hm2 : marin uRing 0 1 = 19 / 2 := by
    simp only [uRing, closeRing, List.take_succ_cons, List.take_zero, List.cons_append, List.nil_append, marin_cons_cons,
      marin_single, (edgeTerm_explicit _ _).2.2.1, det2]
    norm_num
  have hcl : Closed uRing := by simp [Closed, uRing, closeRing]
  have hsg : ∀ m n, signedMoment m n 0 uRing = marin uRing m n := fun m n => (marin_signed hcl m n).symm
  refine ⟨⟨rectRing (-1) 4 (-1) 4, [uRing]⟩, uRegion, (3 / 2, 19 / 14), rfl, ?_, ?_, ?_, ?_, rfl⟩
  · refine ⟨?_, ?_, ⟨hcl, ?_⟩, by simp, fun m n => ?_⟩
    · exact ((measurableSet_Icc.prod measurableSet_Icc).union (measurableSet_Icc.prod measurableSet_Icc)).union
        (measurableSet_Icc.prod measurableSet_Icc)
    · exact (((Metric.isBounded_Icc _ _).prod (Metric.isBounded_Icc _ _)).union
        ((Metric.isBounded_Icc _ _).prod (Metric.isBounded_Icc _ _))).union ((Metric.isBounded_Icc _ _).prod (Metric.isBounded_Icc _ _))
    · rw [hsg, hm0]; norm_num
    · simp only [holedMoment, ringMoment, hsg, hm0, List.map_nil, List.sum_nil, sub_zero]
      rw [sign_pos (by norm_num), uRing_marin]; simp
  · simp only [prepareTriangulation, List.foldl_cons, List.foldl_nil, addHole]
    simp [Polygon.centroid, hm0, hm1, hm2, sign_pos (show (0:ℝ) < 7 by norm_num)]
    norm_num
  · simp only [uRegion, Set.mem_union, Set.mem_prod, Set.mem_Icc]
    norm_num
  · simp only [Set.mem_prod, Set.mem_Icc]
    norm_num

/-- Example for `C57_hole_point`: a rectangular hole. -/
example : Polygon.centroid ⟨rectRing 0 2 0 1, []⟩ ∈ interior (Set.Icc (0:ℝ) 2 ×ˢ Set.Icc (0:ℝ) 1) :=
  C57_hole_point _ _ (encloses_rect (by norm_num) (by norm_num)) ((convex_Icc 0 2).prod (convex_Icc 0 1))

end SC
