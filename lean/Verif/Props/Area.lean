import Verif.Lemmas.Convex
import Verif.Model.Rectangular

/-!
# C01-C04: `marin_integration` computes exact area moments
-/

set_option autoImplicit false

namespace SC

open Spec MeasureTheory

/-- On two coordinate lists of one length `marin_integration` never raises; it is then the
value written `marin` on the list of vertices. -/
theorem marinIntegration_ok (poly : List (ℝ × ℝ)) (m n : ℕ) :
    marinIntegration (poly.map Prod.fst) (poly.map Prod.snd) m n = .ok (marin poly m n) := by
  have h1 : ∀ i, (poly.map Prod.fst).getD i 0 = (poly.getD i 0).1 := by
    intro i
    by_cases h : i < poly.length <;> simp [List.getD_eq_getElem?_getD, h]
  have h2 : ∀ i, (poly.map Prod.snd).getD i 0 = (poly.getD i 0).2 := by
    intro i
    by_cases h : i < poly.length <;> simp [List.getD_eq_getElem?_getD, h]
  simp only [marinIntegration, marin, h1, h2, List.length_map, lt_irrefl, and_false, if_false]

/-- **C01.** For every closed vertex list (any number of vertices, convex or not, also
self-crossing), all degrees and *every* choice of apex `o`, `marin_integration` returns the
signed area moment of the polygon: Lebesgue integrals of `y^m z^n` over the triangles `o`-edge,
counted positively when counterclockwise. -/
theorem C01_signed_moment (poly : List (ℝ × ℝ)) (hc : Closed poly) (o : ℝ × ℝ) (m n : ℕ) :
    marinIntegration (poly.map Prod.fst) (poly.map Prod.snd) m n
      = .ok (signedMoment m n o poly) := by
  rw [marinIntegration_ok]
  congr 1
  have key : ∀ l : List (ℝ × ℝ), ∀ a, signedMoment m n o (a :: l) =
      edgeTerm m n o a + marin (a :: l) m n
        - edgeTerm m n o ((a :: l).getLast (by simp)) := by
    intro l
    induction l with
    | nil => intro a; simp [signedMoment, edges, marin_single]
    | cons b l ih =>
      intro a
      have := ih b
      simp only [signedMoment, edges, List.map_cons, List.sum_cons] at this ⊢
      rw [this, triangle_edgeTerm, marin_cons_cons, edgeTerm_symm m n o b]
      simp only [List.getLast_cons_cons]
      ring
  cases poly with
  | nil => simp [signedMoment, edges, marin_nil]
  | cons a l =>
    rw [key]
    have : (a :: l).getLast (by simp) = a := by
      simp only [Closed, List.head?_cons, List.getLast?_eq_getLast_of_ne_nil (List.cons_ne_nil a l),
        Option.some.injEq] at hc
      exact hc.symm
    rw [this]; ring

/-- **C01**, triangles: the closed vertex list `a, b, c, a` gives the integral over the triangle
with the sign of its orientation. -/
theorem C01_triangle (a b c : ℝ × ℝ) (m n : ℕ) :
    marinIntegration [a.1, b.1, c.1, a.1] [a.2, b.2, c.2, a.2] m n
      = .ok (orientation a b c * ∫ x in triangle a b c, x.1 ^ m * x.2 ^ n) := by
  have := marinIntegration_ok [a, b, c, a] m n
  simp only [List.map_cons, List.map_nil] at this
  rw [this, marin_cons_cons, marin_cons_cons, marin_cons_cons, marin_single]
  congr 1
  have := triangle_edgeTerm m n a b c
  simp only [areaMoment] at this
  rw [this]; ring

/-- **C01**, error branch: a `z` list shorter than a `y` list with at least one edge raises
IndexError; every other pair of lists returns a value. -/
theorem C01_raises_iff (y z : List ℝ) (m n : ℕ) :
    (marinIntegration y z m n = .error .indexError ↔ 2 ≤ y.length ∧ z.length < y.length) ∧
    ((∃ v, marinIntegration y z m n = .ok v) ↔ ¬ (2 ≤ y.length ∧ z.length < y.length)) := by
  unfold marinIntegration
  split_ifs with h <;> simp [h]

/-- hypotheses of `C01_signed_moment` are met by a genuine non-convex closed polygon -/
example : Closed [(0, 0), (4, 0), (4, 3), (2, 1), (0, 3), (0, 0)] := by
  simp [Closed]

/-- **C02.** Reversing the vertex order negates every moment. -/
theorem C02_reverse (poly : List (ℝ × ℝ)) (m n : ℕ) :
    marinIntegration (poly.map Prod.fst).reverse (poly.map Prod.snd).reverse m n
      = .ok (- marin poly m n) := by
  rw [← List.map_reverse, ← List.map_reverse, marinIntegration_ok]
  congr 1
  induction poly with
  | nil => simp [marin_nil]
  | cons a l ih =>
    cases l with
    | nil => simp [marin_single]
    | cons b l =>
      rw [marin_cons_cons, List.reverse_cons, List.reverse_cons, List.append_assoc]
      rw [List.reverse_cons] at ih
      have := marin_append l.reverse b [a] m n
      simp only [List.singleton_append] at this ⊢
      rw [this, ih, marin_cons_cons, marin_single, edgeTerm_symm m n a b]
      ring

/-- the closed vertex list of a ring of vertices (first vertex repeated at the end) -/
def closeRing (ring : List (ℝ × ℝ)) : List (ℝ × ℝ) := ring ++ ring.take 1

/-- **C02.** Starting the closed vertex list at another vertex changes no moment. -/
theorem C02_start (xs ys : List (ℝ × ℝ)) (m n : ℕ) :
    marin (closeRing (xs ++ ys)) m n = marin (closeRing (ys ++ xs)) m n := by
  cases xs with
  | nil => simp [closeRing]
  | cons x xs =>
    cases ys with
    | nil => simp [closeRing]
    | cons y ys =>
      simp only [closeRing, List.cons_append, List.take_succ_cons, List.take_zero]
      have h1 := marin_append (x :: xs) y (ys ++ [x]) m n
      have h2 := marin_append (y :: ys) x (xs ++ [y]) m n
      simp only [List.cons_append, List.append_assoc] at h1 h2 ⊢
      rw [h1, h2]; ring

/-- **C03.** Cutting a polygon along the chord between two of its vertices `a` and `b`: the
moments of the two parts add up to the moment of the whole. -/
theorem C03_cut (a b : ℝ × ℝ) (xs ys : List (ℝ × ℝ)) (m n : ℕ) :
    marin (closeRing (a :: xs ++ b :: ys)) m n =
      marin (closeRing (a :: xs ++ [b])) m n + marin (closeRing (b :: ys ++ [a])) m n := by
  simp only [closeRing, List.cons_append, List.take_succ_cons, List.take_zero, List.append_assoc]
  have h1 := marin_append (a :: xs) b (ys ++ [a]) m n
  have h2 := marin_append (a :: xs) b [a] m n
  have h3 := marin_append (b :: ys) a [b] m n
  simp only [List.cons_append, List.nil_append] at h1 h2 h3 ⊢
  rw [h1, h2, h3, marin_cons_cons b a, marin_cons_cons a b, marin_single, marin_single,
    edgeTerm_symm m n a b]
  ring

/-- **C03.** A point may be inserted on an edge (so the chord of `C03_cut` may start and end
anywhere on the boundary) without changing any moment. -/
theorem C03_insert (xs ys : List (ℝ × ℝ)) (p q : ℝ × ℝ) (t : ℝ) (m n : ℕ) :
    marin (xs ++ p :: ((1 - t) * p.1 + t * q.1, (1 - t) * p.2 + t * q.2) :: q :: ys) m n =
      marin (xs ++ p :: q :: ys) m n := by
  rw [marin_append, marin_append xs p (q :: ys), marin_cons_cons, marin_cons_cons, marin_cons_cons]
  have h : cross p ((1 - t) * p.1 + t * q.1, (1 - t) * p.2 + t * q.2) q = 0 := by
    simp only [cross]; ring
  have := triangle_edgeTerm m n p ((1 - t) * p.1 + t * q.1, (1 - t) * p.2 + t * q.2) q
  simp only [orientation, h, sign_zero, SignType.coe_zero, zero_mul, edgeTerm_symm m n p q] at this
  linarith

/-- a concrete cut: the unit square along its diagonal -/
example : marin (closeRing [(0, 0), (1, 0), (1, 1), (0, 1)]) 2 1 =
    marin (closeRing [(0, 0), (1, 0), (1, 1)]) 2 1 + marin (closeRing [(1, 1), (0, 1), (0, 0)]) 2 1 :=
  C03_cut (0, 0) (1, 1) [(1, 0)] [(0, 1)] 2 1

theorem closeRing_map (r : List (ℝ × ℝ)) : closeRing r = r ++ r.take 1 := rfl

theorem C01_convex_aux (a : ℝ × ℝ) (m n : ℕ) (ws : List (ℝ × ℝ)) (hlen : 2 ≤ ws.length)
    (h : ConvexCCW (a :: ws)) :
    marin (closeRing (a :: ws)) m n = areaMoment m n (convexHull ℝ {x | x ∈ a :: ws}) := by
  induction ws using List.reverseRecOn with
  | nil => simp at hlen
  | append_singleton us q ih =>
    rcases List.eq_nil_or_concat us with rfl | ⟨us', p, rfl⟩
    · simp at hlen
    rw [List.concat_eq_append] at *
    have hcut := C03_cut a p us' [q] m n
    simp only [List.append_assoc, List.cons_append, List.nil_append] at hcut ⊢
    have hpq : 0 < cross a p q := h a p q (by
      refine List.Sublist.cons_cons a ?_
      simp)
    have htri : marin (closeRing (p :: q :: [a])) m n = areaMoment m n (triangle a p q) := by
      have := triangle_edgeTerm m n a p q
      have ho : orientation a p q = 1 := by simp [orientation, sign_pos hpq]
      rw [ho, one_mul] at this
      rw [this]
      simp [closeRing, marin_cons_cons, marin_single]; ring
    rw [hcut, htri]
    by_cases hu : us' = []
    · subst hu
      have : marin (closeRing (a :: ([] ++ [p]))) m n = 0 := by
        simp [closeRing, marin_cons_cons, marin_single, edgeTerm_symm m n a p]
      rw [List.nil_append] at this
      simp only [List.nil_append]
      rw [this, zero_add, triangle]
      congr 2
      ext x; simp
    · have hsub : ConvexCCW (a :: (us' ++ [p])) := by
        intro x y z hxyz
        refine h x y z (hxyz.trans ?_)
        simp
      have hl : 2 ≤ (us' ++ [p]).length := by
        have : 0 < us'.length := List.length_pos_iff.2 hu
        simp; omega
      rw [ih hl hsub]
      have hins : {x | x ∈ a :: (us' ++ [p, q])} = insert q {x | x ∈ a :: (us' ++ [p])} := by
        ext x; simp only [List.mem_cons, List.mem_append, Set.mem_setOf_eq, Set.mem_insert_iff, List.not_mem_nil]
        tauto
      rw [hins]
      symm
      refine areaMoment_hull_insert m n _ (List.finite_toSet _) a p q (by simp) (by simp) hpq ?_ ?_ ?_
      · intro x hx
        simp only [Set.mem_setOf_eq, List.mem_cons, List.mem_append, List.not_mem_nil, or_false] at hx
        rcases hx with rfl | hx | rfl
        · simp only [cross]; linarith
        · have := h a x p (by
            refine List.Sublist.cons_cons a ?_
            obtain ⟨s, t, rfl⟩ := List.append_of_mem hx
            simp)
          have e : cross a x p = cross p a x := by simp only [cross]; ring
          linarith
        · simp [cross]
      · intro x hx
        simp only [Set.mem_setOf_eq, List.mem_cons, List.mem_append, List.not_mem_nil, or_false] at hx
        rcases hx with rfl | hx | rfl
        · have e : cross x p q = cross p q x := by simp only [cross]; ring
          linarith
        · have := h x p q (by
            refine List.Sublist.cons a ?_
            obtain ⟨s, t, rfl⟩ := List.append_of_mem hx
            simp)
          have e : cross x p q = cross p q x := by simp only [cross]; ring
          linarith
        · simp [cross]
      · intro x hx
        simp only [Set.mem_setOf_eq, List.mem_cons, List.mem_append, List.not_mem_nil, or_false] at hx
        rcases hx with rfl | hx | rfl
        · simp only [cross]; linarith
        · have := h a x q (by
            refine List.Sublist.cons_cons a ?_
            obtain ⟨s, t, rfl⟩ := List.append_of_mem hx
            simp)
          have e : cross a x q = cross q a x := by simp only [cross]; ring
          linarith
        · have e : cross a x q = cross q a x := by simp only [cross]; ring
          linarith

/-- **C01**, convex polygons: on the closed vertex list of a strictly convex counterclockwise
polygon with any number of vertices, `marin_integration` is the Lebesgue integral of `y^m z^n`
over the polygon (the convex hull of its vertices). -/
theorem C01_convex (ring : List (ℝ × ℝ)) (hlen : 3 ≤ ring.length) (h : ConvexCCW ring) (m n : ℕ) :
    marinIntegration ((closeRing ring).map Prod.fst) ((closeRing ring).map Prod.snd) m n
      = .ok (∫ x in convexHull ℝ {x | x ∈ ring}, x.1 ^ m * x.2 ^ n) := by
  cases ring with
  | nil => simp at hlen
  | cons a ws =>
    rw [marinIntegration_ok, C01_convex_aux a m n ws (by simpa using hlen) h]
    rfl

/-- a concrete convex ring: a pentagon -/
example : ConvexCCW [((0:ℝ), (0:ℝ)), (4, 0), (5, 3), (2, 5), (-1, 2)] := by
  intro a b c h
  have h1 : [a, b, c] ∈ ([((0:ℝ), (0:ℝ)), (4, 0), (5, 3), (2, 5), (-1, 2)]).sublistsLen 3 := by
    rw [List.mem_sublistsLen]; exact ⟨h, rfl⟩
  simp [List.sublistsLen, List.sublistsLenAux] at h1
  rcases h1 with ⟨rfl, rfl, rfl⟩ | ⟨rfl, rfl, rfl⟩ | ⟨rfl, rfl, rfl⟩ | ⟨rfl, rfl, rfl⟩ | ⟨rfl, rfl, rfl⟩ |
    ⟨rfl, rfl, rfl⟩ | ⟨rfl, rfl, rfl⟩ | ⟨rfl, rfl, rfl⟩ | ⟨rfl, rfl, rfl⟩ | ⟨rfl, rfl, rfl⟩ <;>
  norm_num [cross]

/-- **C04**, all moments: on the outline of a `RectangularGeometry` of any size and origin every
moment is the exact double integral over the rectangle. -/
theorem C04_all_moments (w h : ℝ) (origin : Option (List ℝ)) (ring : List (ℝ × ℝ))
    (hr : rectangularGeometry w h origin = .ok ring) (m n : ℕ) :
    ∃ x0 y0 : ℝ, (origin = none ∧ x0 = 0 ∧ y0 = 0 ∨ origin = some [x0, y0]) ∧
    marinIntegration (ring.map Prod.fst) (ring.map Prod.snd) m n =
      .ok ((∫ x in (x0 - w / 2)..(x0 + w / 2), x ^ m) * ∫ y in (y0 - h / 2)..(y0 + h / 2), y ^ n) := by
  unfold rectangularGeometry at hr
  split_ifs at hr with hw hh
  push Not at hw hh
  have main : ∀ x0 y0 : ℝ, marinIntegration
      (([ (-w / 2 + x0, -h / 2 + y0), (w / 2 + x0, -h / 2 + y0), (w / 2 + x0, h / 2 + y0),
        (-w / 2 + x0, h / 2 + y0), (-w / 2 + x0, -h / 2 + y0)] : List (ℝ × ℝ)).map Prod.fst)
      (([ (-w / 2 + x0, -h / 2 + y0), (w / 2 + x0, -h / 2 + y0), (w / 2 + x0, h / 2 + y0),
        (-w / 2 + x0, h / 2 + y0), (-w / 2 + x0, -h / 2 + y0)] : List (ℝ × ℝ)).map Prod.snd) m n =
      .ok ((∫ x in (x0 - w / 2)..(x0 + w / 2), x ^ m) * ∫ y in (y0 - h / 2)..(y0 + h / 2), y ^ n) := by
    intro x0 y0
    have hcv : ConvexCCW [(-w / 2 + x0, -h / 2 + y0), (w / 2 + x0, -h / 2 + y0),
        (w / 2 + x0, h / 2 + y0), (-w / 2 + x0, h / 2 + y0)] := by
      intro a b c hs
      have h1 : [a, b, c] ∈ ([(-w / 2 + x0, -h / 2 + y0), (w / 2 + x0, -h / 2 + y0),
        (w / 2 + x0, h / 2 + y0), (-w / 2 + x0, h / 2 + y0)] : List (ℝ × ℝ)).sublistsLen 3 := by
        rw [List.mem_sublistsLen]; exact ⟨hs, rfl⟩
      simp only [List.sublistsLen, List.sublistsLenAux, List.mem_cons, List.cons.injEq,
        List.not_mem_nil, or_false, id, and_true, Function.comp] at h1
      have hwh := mul_pos hw hh
      rcases h1 with ⟨rfl, rfl, rfl⟩ | ⟨rfl, rfl, rfl⟩ | ⟨rfl, rfl, rfl⟩ | ⟨rfl, rfl, rfl⟩ <;>
        simp only [cross] <;> nlinarith
    have hc := C01_convex _ (by simp) hcv m n
    simp only [closeRing, List.take_succ_cons, List.take_zero, List.cons_append, List.nil_append] at hc
    rw [hc]
    congr 1
    have hset : {x : ℝ × ℝ | x ∈ [(-w / 2 + x0, -h / 2 + y0), (w / 2 + x0, -h / 2 + y0),
        (w / 2 + x0, h / 2 + y0), (-w / 2 + x0, h / 2 + y0)]} =
        ({x0 - w / 2, x0 + w / 2} : Set ℝ) ×ˢ ({y0 - h / 2, y0 + h / 2} : Set ℝ) := by
      ext ⟨x, y⟩
      have e1 : -w / 2 + x0 = x0 - w / 2 := by ring
      have e2 : -h / 2 + y0 = y0 - h / 2 := by ring
      have e3 : w / 2 + x0 = x0 + w / 2 := by ring
      have e4 : h / 2 + y0 = y0 + h / 2 := by ring
      simp only [e1, e2, e3, e4, List.mem_cons, Prod.mk.injEq, List.not_mem_nil, or_false,
        Set.mem_setOf_eq, Set.mem_prod, Set.mem_insert_iff, Set.mem_singleton_iff]
      tauto
    rw [hset, convexHull_prod, convexHull_pair, convexHull_pair, segment_eq_Icc (by linarith),
      segment_eq_Icc (by linarith), Measure.volume_eq_prod, setIntegral_prod_mul (fun x => x ^ m) (fun y => y ^ n),
      integral_Icc_eq_integral_Ioc, integral_Icc_eq_integral_Ioc,
      ← intervalIntegral.integral_of_le (by linarith), ← intervalIntegral.integral_of_le (by linarith)]
  rcases origin with _ | o
  · simp only [Except.ok.injEq] at hr
    subst hr
    exact ⟨0, 0, Or.inl ⟨rfl, rfl, rfl⟩, main 0 0⟩
  · rcases o with _ | ⟨x0, _ | ⟨y0, _ | ⟨_, _⟩⟩⟩ <;> simp only [Except.ok.injEq, reduceCtorEq] at hr
    subst hr
    exact ⟨x0, y0, Or.inr rfl, main x0 y0⟩

/-- **C04.** Area, centroid and second moments of a rectangle. -/
theorem C04_rectangle (w h x0 y0 : ℝ) (hw : 0 < w) (hh : 0 < h) :
    ∃ ring, rectangularGeometry w h (some [x0, y0]) = .ok ring ∧
      marinIntegration (ring.map Prod.fst) (ring.map Prod.snd) 0 0 = .ok (w * h) ∧
      marinIntegration (ring.map Prod.fst) (ring.map Prod.snd) 1 0 = .ok (w * h * x0) ∧
      marinIntegration (ring.map Prod.fst) (ring.map Prod.snd) 0 1 = .ok (w * h * y0) ∧
      marinIntegration (ring.map Prod.fst) (ring.map Prod.snd) 0 2 = .ok (w * h ^ 3 / 12 + w * h * y0 ^ 2) ∧
      marinIntegration (ring.map Prod.fst) (ring.map Prod.snd) 2 0 = .ok (h * w ^ 3 / 12 + w * h * x0 ^ 2) ∧
      marinIntegration (ring.map Prod.fst) (ring.map Prod.snd) 1 1 = .ok (w * h * x0 * y0) := by
  have hex : ∃ ring, rectangularGeometry w h (some [x0, y0]) = .ok ring := by
    simp [rectangularGeometry, not_le.2 hw, not_le.2 hh]
  obtain ⟨ring, hr⟩ := hex
  refine ⟨ring, hr, ?_, ?_, ?_, ?_, ?_, ?_⟩
  all_goals
    obtain ⟨a, b, hab, e⟩ := C04_all_moments w h _ ring hr _ _
    simp only [reduceCtorEq, false_and, Option.some.injEq, List.cons.injEq, and_true, false_or] at hab
    obtain ⟨rfl, rfl⟩ := hab
    rw [e]
    congr 1
    simp only [integral_pow]
    push_cast
    ring

/-- **C04**, invalid input: a non-positive size or an origin that is not a pair raises
ValueError, everything else succeeds. -/
theorem C04_rejects (w h : ℝ) (origin : Option (List ℝ)) :
    (rectangularGeometry w h origin = .error .valueError ↔
      w ≤ 0 ∨ h ≤ 0 ∨ ∃ o, origin = some o ∧ o.length ≠ 2) ∧
    ((∃ r, rectangularGeometry w h origin = .ok r) ↔
      0 < w ∧ 0 < h ∧ ∀ o, origin = some o → o.length = 2) := by
  unfold rectangularGeometry
  rcases origin with _ | o
  · by_cases h1 : w ≤ 0 <;> by_cases h2 : h ≤ 0 <;> simp [h1, h2] <;> grind
  · rcases o with _ | ⟨x0, _ | ⟨y0, _ | ⟨_, _⟩⟩⟩ <;> by_cases h1 : w ≤ 0 <;>
      by_cases h2 : h ≤ 0 <;> simp [h1, h2] <;> grind

end SC
