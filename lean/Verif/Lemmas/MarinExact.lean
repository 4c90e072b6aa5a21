import Verif.Lemmas.Region
import Verif.Spec.Poly

/-! # Lemmas for C21 and C50: the items of the Marin integrator add up to area integrals -/

set_option autoImplicit false

namespace SC

open Spec MeasureTheory

theorem marin_closed (ring : List (ℝ × ℝ)) (hc : Closed ring) (m n : ℕ) :
    marin ring m n = signedMoment m n 0 ring := by
  have h := C01_signed_moment ring hc 0 m n
  rw [marinIntegration_ok] at h
  exact Except.ok.inj h

theorem marin_reverse (ring : List (ℝ × ℝ)) (m n : ℕ) :
    marin ring.reverse m n = -marin ring m n := by
  have h := C02_reverse ring m n
  rw [← List.map_reverse, ← List.map_reverse, marinIntegration_ok] at h
  exact Except.ok.inj h

theorem sum_map_neg' {α : Type} (l : List α) (f : α → ℝ) :
    (l.map fun a => -f a).sum = -(l.map f).sum := by
  induction l with
  | nil => simp
  | cons a l ih => simp only [List.map_cons, List.sum_cons, ih]; ring

/-- `Σ_k c_k marin(ring, m, k + off)` -/
noncomputable def ringSum (m off : ℕ) (ring : List (ℝ × ℝ)) (c : List ℝ) : ℝ :=
  (c.zipIdx.map fun ck => ck.1 * marin ring m (ck.2 + off)).sum

theorem evalPoly_mem (c : List ℝ) : (fun x : ℝ × ℝ => evalPoly c x.2) ∈ polyAlg := by
  induction c with
  | nil => exact polyAlg.zero_mem
  | cons a c ih =>
    exact polyAlg.add_mem (polyAlg_const a) (polyAlg.mul_mem polyAlg_snd ih)

/-- the integrand `y^m z^off p(z)` -/
noncomputable def integrandOf (m off : ℕ) (c : List ℝ) : ℝ × ℝ → ℝ :=
  fun x => x.1 ^ m * x.2 ^ off * evalPoly c x.2

theorem integrandOf_mem (m off : ℕ) (c : List ℝ) : integrandOf m off c ∈ polyAlg :=
  polyAlg.mul_mem (polyAlg.mul_mem (polyAlg.pow_mem polyAlg_fst m) (polyAlg.pow_mem polyAlg_snd off))
    (evalPoly_mem c)

theorem integrandOf_cons (m off : ℕ) (a : ℝ) (c : List ℝ) :
    integrandOf m off (a :: c) =
      a • (fun x : ℝ × ℝ => x.1 ^ m * x.2 ^ off) + integrandOf m (off + 1) c := by
  funext x
  simp only [integrandOf, evalPoly, Pi.add_apply, Pi.smul_apply, smul_eq_mul]
  ring

theorem ringSum_aux (m : ℕ) (ring : List (ℝ × ℝ)) (hc : Closed ring) (c : List ℝ) :
    ∀ n off : ℕ, ((c.zipIdx n).map fun ck => ck.1 * marin ring m (ck.2 + off)).sum =
      signedInt (integrandOf m (n + off) c) ring := by
  induction c with
  | nil =>
    intro n off
    have : integrandOf m (n + off) [] = 0 := by funext x; simp [integrandOf, evalPoly]
    simp [this, signedInt_zero]
  | cons a c ih =>
    intro n off
    rw [List.zipIdx_cons, List.map_cons, List.sum_cons, ih (n + 1) off, integrandOf_cons,
      signedInt_add (by fun_prop) (polyAlg_continuous (integrandOf_mem _ _ _)), signedInt_smul,
      signedInt_mono, marin_closed ring hc]
    congr 3
    ring

theorem ringSum_eq (m off : ℕ) (ring : List (ℝ × ℝ)) (hc : Closed ring) (c : List ℝ) :
    ringSum m off ring c = signedInt (integrandOf m off c) ring := by
  have := ringSum_aux m ring hc c 0 off
  simpa [ringSum] using this

theorem ringSum_reverse (m off : ℕ) (ring : List (ℝ × ℝ)) (c : List ℝ) :
    ringSum m off ring.reverse c = -ringSum m off ring c := by
  unfold ringSum
  rw [← sum_map_neg']
  congr 1
  apply List.map_congr_left
  intro ck _
  rw [marin_reverse]; ring

theorem ringSum_ext (m off : ℕ) (r : List (ℝ × ℝ)) (h : ProperRing r) (c : List ℝ) :
    ringSum m off (if 0 ≤ marin r 0 0 then r else r.reverse) c = ringInt (integrandOf m off c) r := by
  unfold ringInt
  rw [marin_closed r h.1]
  rcases lt_or_gt_of_ne h.2 with h0 | h0
  · rw [if_neg (not_le.2 h0), ringSum_reverse, ringSum_eq _ _ _ h.1, sign_neg h0]; simp
  · rw [if_pos h0.le, ringSum_eq _ _ _ h.1, sign_pos h0]; simp

theorem ringSum_int (m off : ℕ) (r : List (ℝ × ℝ)) (h : ProperRing r) (c : List ℝ) :
    ringSum m off (if marin r 0 0 ≤ 0 then r else r.reverse) c =
      -ringInt (integrandOf m off c) r := by
  unfold ringInt
  rw [marin_closed r h.1]
  rcases lt_or_gt_of_ne h.2 with h0 | h0
  · rw [if_pos h0.le, ringSum_eq _ _ _ h.1, sign_neg h0]; simp
  · rw [if_neg (not_le.2 h0), ringSum_reverse, ringSum_eq _ _ _ h.1, sign_pos h0]; simp

/-- `Σ_items Σ_k c_k marin(ring, m, k + off)` (point items count zero). -/
noncomputable def itemsSum (m off : ℕ) (items : List Item) : ℝ :=
  (items.map fun
    | .ring r c => ringSum m off r c
    | .points _ => 0).sum

theorem itemsSum_append (m off : ℕ) (l l' : List Item) :
    itemsSum m off (l ++ l') = itemsSum m off l + itemsSum m off l' := by
  simp [itemsSum]

theorem itemsSum_flatMap {α : Type} (m off : ℕ) (l : List α) (f : α → List Item) :
    itemsSum m off (l.flatMap f) = (l.map fun a => itemsSum m off (f a)).sum := by
  induction l with
  | nil => simp [itemsSum]
  | cons a l ih => rw [List.flatMap_cons, itemsSum_append, ih]; simp

/-- A polygon with well-formed rings. -/
def Polygon.Proper (q : Polygon) : Prop := ProperRing q.ext ∧ ∀ r ∈ q.ints, ProperRing r

theorem itemsSum_inputPolygon (m off : ℕ) (q : Polygon) (hq : q.Proper) (c : List ℝ) :
    itemsSum m off (inputPolygon q c) = holedInt (integrandOf m off c) q.ext q.ints := by
  have hne : q.ext ≠ [] := by
    intro h
    apply hq.1.2
    rw [h]; simp [signedMoment, edges]
  unfold inputPolygon
  rw [if_neg hne]
  simp only [itemsSum, List.map_cons, List.sum_cons, orient, List.map_map, holedInt]
  rw [ringSum_ext m off _ hq.1, sub_eq_add_neg, ← sum_map_neg']
  congr 2
  apply List.map_congr_left
  intro r hr
  exact ringSum_int m off r (hq.2 r hr) c

/-- The polygons of a shapely result. -/
def ShapelyResult.pieces : ShapelyResult → List Polygon
  | .polygon p => [p]
  | .multi ps => ps
  | .other => []

/-- The contract of the polygon clipper for one polygon `p` bounding `R`: the pieces returned for a
strip `y0 ≤ z ≤ y1` have proper rings, and together the area moments of the part of `R` in the
strip. -/
def SplitsExactly (split : Polygon → ℝ → ℝ → ShapelyResult) (p : Polygon) (R : Set (ℝ × ℝ)) : Prop :=
  ∀ y0 y1, y0 ≤ y1 → (∀ q ∈ (split p y0 y1).pieces, q.Proper) ∧
    ∀ m n, ((split p y0 y1).pieces.map fun q => holedMoment m n q.ext q.ints).sum =
      areaMoment m n (R ∩ {x | y0 ≤ x.2 ∧ x.2 ≤ y1})

theorem pieces_poly (qs : List Polygon) (S : Set (ℝ × ℝ)) (hS : Bornology.IsBounded S)
    (h : ∀ m n, (qs.map fun q => holedMoment m n q.ext q.ints).sum = areaMoment m n S)
    {f : ℝ × ℝ → ℝ} (hf : f ∈ polyAlg) :
    (qs.map fun q => holedInt f q.ext q.ints).sum = ∫ x in S, f x := by
  refine polyAlg_induction (P := fun f => (qs.map fun q => holedInt f q.ext q.ints).sum =
    ∫ x in S, f x) h ?_ ?_ ?_ hf
  · simp [holedInt_zero]
  · intro f g hf hg pf pg
    simp only [holedInt_add (polyAlg_continuous hf) (polyAlg_continuous hg)]
    rw [List.sum_map_add, pf, pg,
      ← integral_add (continuous_integrableOn (polyAlg_continuous hf) hS)
        (continuous_integrableOn (polyAlg_continuous hg) hS)]
    rfl
  · intro c f hf pf
    simp only [holedInt_smul]
    rw [List.sum_map_mul_left, pf, ← integral_const_mul]
    rfl

/-- The strip of a strain range. -/
def strip (e0 e1 : ℝ) (r : ℝ × ℝ) : Set (ℝ × ℝ) := {x | r.1 ≤ e0 + e1 * x.2 ∧ e0 + e1 * x.2 ≤ r.2}

theorem strip_measurable (e0 e1 : ℝ) (r : ℝ × ℝ) : MeasurableSet (strip e0 e1 r) := by
  have h : Continuous fun x : ℝ × ℝ => e0 + e1 * x.2 := by fun_prop
  exact ((isClosed_le continuous_const h).inter (isClosed_le h continuous_const)).measurableSet

theorem itemsSum_processRange (split : Polygon → ℝ → ℝ → ShapelyResult) (p : Polygon)
    (R : Set (ℝ × ℝ)) (hb : Bornology.IsBounded R) (hs : SplitsExactly split p R) (e0 e1 : ℝ)
    (he : 0 < e1) (r : ℝ × ℝ) (hr : r.1 ≤ r.2) (c : List ℝ) (m off : ℕ) :
    itemsSum m off (processRange split p e0 e1 r c) =
      ∫ x in R ∩ strip e0 e1 r, integrandOf m off c x := by
  have hy : -(e0 - r.1) / e1 ≤ -(e0 - r.2) / e1 := by
    apply div_le_div_of_nonneg_right _ he.le; linarith
  have hS : {x : ℝ × ℝ | -(e0 - r.1) / e1 ≤ x.2 ∧ x.2 ≤ -(e0 - r.2) / e1} = strip e0 e1 r := by
    ext x
    simp only [Set.mem_ofPred_eq, strip, div_le_iff₀ he, le_div_iff₀ he]
    constructor <;> rintro ⟨h1, h2⟩ <;> constructor <;> nlinarith
  unfold processRange
  simp only [gt_iff_lt, if_neg (not_lt.2 hy)]
  have hm : ∀ res : ShapelyResult, (match res with
      | .polygon q => inputPolygon q c
      | .multi qs => qs.flatMap fun q => inputPolygon q c
      | .other => []) = res.pieces.flatMap fun q => inputPolygon q c := by
    intro res
    cases res <;> simp [ShapelyResult.pieces]
  refine (congrArg (itemsSum m off) (hm _)).trans ?_
  rw [itemsSum_flatMap]
  obtain ⟨hp, hm⟩ := hs _ _ hy
  rw [hS] at hm
  rw [← pieces_poly _ _ (hb.subset Set.inter_subset_left) hm (integrandOf_mem m off c)]
  congr 1
  apply List.map_congr_left
  intro q hq
  exact itemsSum_inputPolygon m off q (hp q hq) c

/-- The piecewise polynomial given by ranges and coefficients. -/
noncomputable def piecewise (e0 e1 : ℝ) (L : List ((ℝ × ℝ) × List ℝ)) (x : ℝ × ℝ) : ℝ :=
  (L.map fun rc => (strip e0 e1 rc.1).indicator (fun x => evalPoly rc.2 x.2) x).sum

theorem piecewise_integral (e0 e1 : ℝ) (L : List ((ℝ × ℝ) × List ℝ)) (R : Set (ℝ × ℝ))
    (hb : Bornology.IsBounded R) (m off : ℕ) :
    IntegrableOn (fun x => x.1 ^ m * x.2 ^ off * piecewise e0 e1 L x) R ∧
    ∫ x in R, x.1 ^ m * x.2 ^ off * piecewise e0 e1 L x =
      (L.map fun rc => ∫ x in R ∩ strip e0 e1 rc.1, integrandOf m off rc.2 x).sum := by
  induction L with
  | nil => simp [piecewise]
  | cons rc L ih =>
    have h0 : (fun x : ℝ × ℝ => x.1 ^ m * x.2 ^ off * piecewise e0 e1 (rc :: L) x) =
        (fun x => (strip e0 e1 rc.1).indicator (integrandOf m off rc.2) x +
          x.1 ^ m * x.2 ^ off * piecewise e0 e1 L x) := by
      funext x
      simp only [piecewise, List.map_cons, List.sum_cons, mul_add]
      congr 1
      by_cases hx : x ∈ strip e0 e1 rc.1
      · rw [Set.indicator_of_mem hx, Set.indicator_of_mem hx]; rfl
      · rw [Set.indicator_of_notMem hx, Set.indicator_of_notMem hx, mul_zero]
    have hi : IntegrableOn ((strip e0 e1 rc.1).indicator (integrandOf m off rc.2)) R :=
      (continuous_integrableOn (polyAlg_continuous (integrandOf_mem _ _ _)) hb).indicator
        (strip_measurable e0 e1 rc.1)
    rw [h0]
    refine ⟨hi.add ih.1, ?_⟩
    rw [integral_add hi ih.1, ih.2, setIntegral_indicator (strip_measurable e0 e1 rc.1)]
    simp

theorem level_null (e0 e1 : ℝ) (he : e1 ≠ 0) (t : ℝ) :
    volume {x : ℝ × ℝ | e0 + e1 * x.2 = t} = 0 := by
  have : {x : ℝ × ℝ | e0 + e1 * x.2 = t} = Set.univ ×ˢ {(t - e0) / e1} := by
    ext x
    simp only [Set.mem_ofPred_eq, Set.mem_prod, Set.mem_univ, true_and, Set.mem_singleton_iff]
    rw [eq_div_iff he]
    constructor <;> intro h <;> linarith
  rw [this, Measure.volume_eq_prod, Measure.prod_prod]
  simp

/-- Away from the range ends the piecewise polynomial is the response. -/
theorem piecewise_eq (f : ℝ → ℝ) (e0 e1 : ℝ) (x : ℝ × ℝ) (L : List ((ℝ × ℝ) × List ℝ))
    (hL : (L.map Prod.fst).Pairwise (fun r s => r.2 ≤ s.1 ∨ s.2 ≤ r.1))
    (hend : ∀ rc ∈ L, e0 + e1 * x.2 ≠ rc.1.1 ∧ e0 + e1 * x.2 ≠ rc.1.2)
    (hin : ∀ rc ∈ L, rc.1.1 < e0 + e1 * x.2 → e0 + e1 * x.2 < rc.1.2 →
      evalPoly rc.2 x.2 = f (e0 + e1 * x.2)) :
    piecewise e0 e1 L x = if (∃ rc ∈ L, rc.1.1 < e0 + e1 * x.2 ∧ e0 + e1 * x.2 < rc.1.2) then
      f (e0 + e1 * x.2) else 0 := by
  induction L with
  | nil => simp [piecewise]
  | cons rc L ih =>
    simp only [List.map_cons, List.pairwise_cons] at hL
    have ih := ih hL.2 (fun r hr => hend r (List.mem_cons_of_mem _ hr))
      (fun r hr => hin r (List.mem_cons_of_mem _ hr))
    have hs : piecewise e0 e1 (rc :: L) x =
        (strip e0 e1 rc.1).indicator (fun x => evalPoly rc.2 x.2) x + piecewise e0 e1 L x := by
      simp [piecewise]
    rw [hs, ih]
    have he := hend rc List.mem_cons_self
    by_cases hx : rc.1.1 < e0 + e1 * x.2 ∧ e0 + e1 * x.2 < rc.1.2
    · have hmem : x ∈ strip e0 e1 rc.1 := ⟨hx.1.le, hx.2.le⟩
      rw [Set.indicator_of_mem hmem, if_neg, if_pos ⟨rc, List.mem_cons_self, hx⟩, add_zero]
      · exact hin rc List.mem_cons_self hx.1 hx.2
      · rintro ⟨r, hr, h1, h2⟩
        rcases hL.1 r.1 (List.mem_map_of_mem hr) with h | h
        · linarith [hx.2]
        · linarith [hx.1]
    · have hmem : x ∉ strip e0 e1 rc.1 := by
        rintro ⟨h1, h2⟩
        exact hx ⟨lt_of_le_of_ne h1 (Ne.symm he.1), lt_of_le_of_ne h2 he.2⟩
      rw [Set.indicator_of_notMem hmem, zero_add]
      congr 1
      simp [hx]

end SC
