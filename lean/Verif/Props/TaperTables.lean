import Verif.Props.TaperSections
import Verif.Props.Profile

/-!
# C69, continued: rounded corners, the tables, and what the profile reports
-/

set_option autoImplicit false

namespace SC

open Spec

/-! ### Corners that meet the contract -/

/-- The point with coordinates `x`, `y` along the sides `b a` and `b c` of a corner. -/
noncomputable def cornerPt (a b c : ℝ × ℝ) (p : ℝ × ℝ) : ℝ × ℝ :=
  (b.1 + p.1 * (a.1 - b.1) + p.2 * (c.1 - b.1), b.2 + p.1 * (a.2 - b.2) + p.2 * (c.2 - b.2))

theorem edges_pairwise {r : ℝ × ℝ → ℝ × ℝ → Prop} {l : Polyline} (h : l.Pairwise r) : ∀ e ∈ edges l, r e.1 e.2 := by
  induction l with
  | nil => simp [edges]
  | cons a l ih =>
    cases l with
    | nil => simp [edges]
    | cons b l =>
      intro e he
      simp only [edges, List.mem_cons] at he
      rcases he with rfl | he
      · exact (List.pairwise_cons.1 h).1 b (by simp)
      · exact ih (List.pairwise_cons.1 h).2 e he

theorem edges_mem {l : Polyline} : ∀ e ∈ edges l, e.1 ∈ l ∧ e.2 ∈ l := by
  induction l with
  | nil => simp [edges]
  | cons a l ih =>
    cases l with
    | nil => simp [edges]
    | cons b l =>
      intro e he
      simp only [edges, List.mem_cons] at he
      rcases he with rfl | he
      · simp
      · obtain ⟨h1, h2⟩ := ih e he
        exact ⟨List.mem_cons_of_mem _ h1, List.mem_cons_of_mem _ h2⟩

theorem list_sum_le_sum {α : Type} (l : List α) (f g : α → ℝ) (h : ∀ a ∈ l, f a ≤ g a) : (l.map f).sum ≤ (l.map g).sum := by
  induction l with
  | nil => simp
  | cons a l ih =>
    simp only [List.map_cons, List.sum_cons]
    have := ih fun x hx => h x (List.mem_cons_of_mem _ hx)
    linarith [h a (by simp)]

/-- A line that runs from one end of the corner to the other inside the triangle, always away from the first end and
towards the second, rounds the corner. -/
theorem rounds_of_monotone (a b c : ℝ × ℝ) (l : Polyline) (hh : l.head? = some (1, 0)) (hl : l.getLast? = some (0, 1))
    (hin : ∀ p ∈ l, 0 ≤ p.1 ∧ 0 ≤ p.2 ∧ p.1 + p.2 ≤ 1)
    (hmono : l.Pairwise fun p q => q.1 ≤ p.1 ∧ p.2 ≤ q.2) :
    Rounds (l.map (cornerPt a b c)) a b c (((edges l).map fun e => e.1.1 * e.2.2 - e.2.1 * e.1.2).sum) := by
  have hs : (l.map (cornerPt a b c)).head? = some a := by
    rw [List.head?_map, hh]
    simp [cornerPt]
  have he : (l.map (cornerPt a b c)).getLast? = some c := by
    rw [List.getLast?_map, hl]
    simp [cornerPt]
  refine ⟨hs, he, ?_, ⟨?_, ?_⟩, ?_⟩
  · intro v hv
    obtain ⟨p, hp, rfl⟩ := List.mem_map.1 hv
    obtain ⟨h1, h2, h3⟩ := hin p hp
    rw [triangle_eq_image]
    refine ⟨(1 - p.1 - p.2, p.2), ⟨by simp only; linarith, h2, by simp only; linarith⟩, ?_⟩
    ext <;> simp only [triMap, cornerPt] <;> ring
  · apply List.sum_nonneg
    intro x hx
    obtain ⟨e, he, rfl⟩ := List.mem_map.1 hx
    obtain ⟨k1, k2⟩ := edges_pairwise hmono e he
    obtain ⟨m1, m2⟩ := edges_mem e he
    obtain ⟨n1, n2, -⟩ := hin _ m1
    obtain ⟨n3, n4, -⟩ := hin _ m2
    nlinarith [mul_le_mul_of_nonneg_right k1 n2, mul_le_mul_of_nonneg_left k2 n1]
  · have t := telescope (fun p => p.1 ^ 2 - 2 * p.1 + p.1 * p.2) l (1, 0) (0, 1) hh hl
    norm_num at t
    rw [← t]
    apply list_sum_le_sum
    intro e he
    obtain ⟨k1, k2⟩ := edges_pairwise hmono e he
    obtain ⟨m1, m2⟩ := edges_mem e he
    obtain ⟨n1, n2, n5⟩ := hin _ m1
    obtain ⟨n3, n4, n6⟩ := hin _ m2
    nlinarith [mul_nonneg (sub_nonneg.2 k1) (sub_nonneg.2 n5), mul_nonneg (sub_nonneg.2 k1) (sub_nonneg.2 n6)]
  · have hcl : Closed (l.map (cornerPt a b c) ++ [b, a]) := by
      unfold Closed
      rw [List.head?_append, hs, List.getLast?_append]
      rfl
    have e1 := last_concat he
    have e2 : l.map (cornerPt a b c) ++ [b, a] = (l.map (cornerPt a b c)).dropLast ++ c :: [b, a] := by
      conv_lhs => rw [e1]
      simp
    have key : marin (l.map (cornerPt a b c)) 0 0 =
        ((edges l).map fun e => e.1.1 * e.2.2 - e.2.1 * e.1.2).sum * (cross a c b / 2) + det2 a b / 2 + det2 b c / 2 := by
      have t := telescope (fun p => (det2 b a * p.1 + det2 b c * p.2) / 2) l (1, 0) (0, 1) hh hl
      have t' : det2 a b / 2 + det2 b c / 2 = (det2 b a * 0 + det2 b c * 1) / 2 - (det2 b a * 1 + det2 b c * 0) / 2 := by
        simp only [det2]; ring
      rw [add_assoc, t', ← t, ← List.sum_map_mul_right, ← List.sum_map_add, marin_edgeTerm, edges_map, List.map_map]
      congr 1
      apply List.map_congr_left
      intro e _
      simp only [Function.comp, (edgeTerm_explicit _ _).1, cornerPt, det2, cross]
      ring
    rw [← marin_signed hcl, e2, marin_append, ← e1, marin_cons_cons, marin_cons_cons, marin_single, key]
    simp only [(edgeTerm_explicit _ _).1, det2, cross]
    ring

/-- The sharp corner. -/
theorem rounds_sharp (a b c : ℝ × ℝ) : Rounds [a, b, c] a b c 0 := by
  have h := rounds_of_monotone a b c [(1, 0), (0, 0), (0, 1)] rfl rfl (by simp) (by simp)
  have e1 : ([(1, 0), (0, 0), (0, 1)] : Polyline).map (cornerPt a b c) = [a, b, c] := by
    simp [cornerPt]
  rw [e1] at h
  simpa [edges] using h

/-- A corner with a quarter of an ellipse (a circular arc if `α` and `β` are the radius divided by the length of the
sides) in `n` chords, tangent to both sides. -/
noncomputable def arcCorner (n : ℕ) (α β : ℝ) : Polyline :=
  (1, 0) :: ((List.range (n + 1)).map fun k : ℕ =>
    (α * (1 - Real.sin (k / n * (Real.pi / 2))), β * (1 - Real.cos (k / n * (Real.pi / 2))))) ++ [(0, 1)]

/-- Filleted corners meet the contract, whatever the number of chords. -/
theorem rounds_arc (a b c : ℝ × ℝ) (n : ℕ) (hn : 0 < n) (α β : ℝ) (hα : 0 < α) (hα' : α ≤ 1) (hβ : 0 < β) (hβ' : β ≤ 1) :
    ∃ t, Rounds ((arcCorner n α β).map (cornerPt a b c)) a b c t := by
  have hn' : (0 : ℝ) < n := by exact_mod_cast hn
  have ang : ∀ k ∈ List.range (n + 1), 0 ≤ (k : ℝ) / n * (Real.pi / 2) ∧ (k : ℝ) / n * (Real.pi / 2) ≤ Real.pi / 2 := by
    intro k hk
    have hk : (k : ℝ) ≤ n := by
      have := List.mem_range.1 hk
      exact_mod_cast Nat.lt_succ_iff.1 this
    have hp := Real.pi_pos
    refine ⟨by positivity, ?_⟩
    have : (k : ℝ) / n ≤ 1 := (div_le_one hn').2 hk
    nlinarith
  have val : ∀ k ∈ List.range (n + 1), 0 ≤ Real.sin ((k : ℝ) / n * (Real.pi / 2)) ∧ 0 ≤ Real.cos ((k : ℝ) / n * (Real.pi / 2)) := by
    intro k hk
    obtain ⟨h1, h2⟩ := ang k hk
    have hp := Real.pi_pos
    exact ⟨Real.sin_nonneg_of_nonneg_of_le_pi h1 (by linarith), Real.cos_nonneg_of_neg_pi_div_two_le_of_le (by linarith) h2⟩
  have range : ∀ k ∈ List.range (n + 1),
      0 ≤ α * (1 - Real.sin ((k : ℝ) / n * (Real.pi / 2))) ∧ 0 ≤ β * (1 - Real.cos ((k : ℝ) / n * (Real.pi / 2))) ∧
      α * (1 - Real.sin ((k : ℝ) / n * (Real.pi / 2))) + β * (1 - Real.cos ((k : ℝ) / n * (Real.pi / 2))) ≤ 1 := by
    intro k hk
    obtain ⟨h1, h2⟩ := val k hk
    set x := (k : ℝ) / n * (Real.pi / 2)
    have h3 := Real.sin_le_one x
    have h4 := Real.cos_le_one x
    have h5 := Real.sin_sq_add_cos_sq x
    have g1 : α * (1 - Real.sin x) ≤ 1 - Real.sin x := mul_le_of_le_one_left (by linarith) hα'
    have g2 : β * (1 - Real.cos x) ≤ 1 - Real.cos x := mul_le_of_le_one_left (by linarith) hβ'
    refine ⟨mul_nonneg hα.le (by linarith), mul_nonneg hβ.le (by linarith), ?_⟩
    nlinarith
  refine ⟨_, rounds_of_monotone a b c _ rfl ?_ ?_ ?_⟩
  · rw [arcCorner, List.getLast?_append]
    rfl
  · intro p hp
    simp only [arcCorner, List.cons_append, List.mem_cons, List.mem_append, List.mem_map, List.not_mem_nil, or_false] at hp
    rcases hp with rfl | ⟨k, hk, rfl⟩ | rfl
    · norm_num
    · exact range k hk
    · norm_num
  · rw [arcCorner, List.cons_append, List.pairwise_cons, List.pairwise_append]
    refine ⟨?_, ?_, by simp, ?_⟩
    · intro p hp
      simp only [List.mem_append, List.mem_map, List.mem_singleton] at hp
      rcases hp with ⟨k, hk, rfl⟩ | rfl
      · obtain ⟨r1, r2, r3⟩ := range k hk
        exact ⟨by simp only; linarith, r2⟩
      · norm_num
    · rw [List.pairwise_map]
      refine List.Pairwise.imp_of_mem ?_ List.pairwise_lt_range
      intro i j hi hj hij
      obtain ⟨i1, i2⟩ := ang i hi
      obtain ⟨j1, j2⟩ := ang j hj
      have hp := Real.pi_pos
      have hij' : (i : ℝ) / n * (Real.pi / 2) ≤ (j : ℝ) / n * (Real.pi / 2) := by
        have : (i : ℝ) ≤ j := by exact_mod_cast hij.le
        gcongr
      have s1 := Real.sin_le_sin_of_le_of_le_pi_div_two (by linarith) j2 hij'
      have s2 := Real.cos_le_cos_of_nonneg_of_le_pi i1 (by linarith) hij'
      refine ⟨mul_le_mul_of_nonneg_left (by linarith) hα.le, mul_le_mul_of_nonneg_left (by linarith) hβ.le⟩
    · intro p hp q hq
      rw [List.mem_singleton] at hq
      subst hq
      obtain ⟨k, hk, rfl⟩ := List.mem_map.1 hp
      obtain ⟨r1, r2, r3⟩ := range k hk
      exact ⟨r1, by simp only; linarith⟩

/-! ### The tables -/

/-- What C69 needs besides `FitsTogether`, in tenths of millimetres. -/
def taperNat (c : ProfClass) : ProfRow → Bool
  | .taper h b tw tf _ _ _ =>
    if c = .IPN then 2 * tw ≤ b && 200 * tf + 7 * b ≤ 100 * h else 1000 * tf + 40 * b ≤ 500 * h
  | _ => true

set_option maxRecDepth 100000 in
set_option maxHeartbeats 4000000 in
theorem table_taper (c : ProfClass) : (c.table.all fun e => taperNat c e.2) = true := by
  cases c <;> decide +kernel

/-- The flanges meet the web below mid-height. -/
def TaperFits : ShapeArgs → Prop
  | .taperI h b tw tf _ _ s => tw ≤ b / 2 ∧ tf + b / 4 * s ≤ h / 2
  | .taperU h b tw tf _ _ s u => tf + s * (b - u - tw) ≤ h / 2
  | _ => True

/-- **C69** (tables).  Every listed section with tapered flanges meets the conditions of the theorems above. -/
theorem C69_tables (c : ProfClass) (k : String) (row : ProfRow) (hmem : (k, row) ∈ c.table) : TaperFits (rowShape c row) := by
  have hf := table_taper c
  rw [List.all_eq_true] at hf
  have := hf _ hmem
  have hfit := C61_dimensions c k row hmem
  clear hmem hf
  cases row with
  | i h b tw tf r => simp only [rowShape]; split_ifs <;> trivial
  | angle h b t r1 r2 => trivial
  | taper h b tw tf r1 r2 d =>
    simp only [taperNat] at this
    by_cases hc : c = .IPN
    · rw [if_pos hc, Bool.and_eq_true, decide_eq_true_eq, decide_eq_true_eq] at this
      have h1 : (2 : ℝ) * tw ≤ b := by exact_mod_cast this.1
      have h2 : (200 : ℝ) * tf + 7 * b ≤ 100 * h := by exact_mod_cast this.2
      simp only [rowShape, if_pos hc, TaperFits]
      constructor <;> linarith
    · rw [if_neg hc, decide_eq_true_eq] at this
      have h1 : (1000 : ℝ) * tf + 40 * b ≤ 500 * h := by exact_mod_cast this
      simp only [rowShape, if_neg hc] at hfit ⊢
      split_ifs at hfit ⊢ with h300
      · obtain ⟨-, f1, f2, -⟩ := hfit
        simp only [TaperFits]
        linarith
      · obtain ⟨-, f1, f2, -⟩ := hfit
        simp only [TaperFits]
        linarith

/-! ### What the profile reports -/

/-- **C69** (reported values, symmetric sections).  A tapered I or U section whose outline bounds a region reports the area
of the theorems above and the product moment zero, and the centroid of the region is the origin. -/
theorem C69_reports {sh : Shapely} {p : Polygon} {R : Set (ℝ × ℝ)} (h : ProfileShape p R) (hs : SplitsWell sh p R)
    (hs' : SplitsWell sh (p.rotate (Real.pi / 2)) (rotPt (Real.pi / 2) '' R)) (eig : ℝ → ℝ → ℝ → Eig)
    (hx : signedMoment 1 0 0 p.ext = 0) (hy : ∀ m n, Odd n → signedMoment m n 0 p.ext = 0) :
    (Profile.read sh eig .A (Profile.fresh p)).2 = .ok (signedMoment 0 0 0 p.ext) ∧
    (Profile.read sh eig .Iyz (Profile.fresh p)).2 = .ok 0 ∧
    areaMoment 1 0 R = 0 ∧ areaMoment 0 1 R = 0 := by
  obtain ⟨zp, yp, -, -, hv⟩ := shape_values h hs hs' eig
  have hm : ∀ m n, areaMoment m n R = signedMoment m n 0 p.ext := by
    intro m n
    rw [← shape_moment h, marin_signed h.encloses.ext_proper.1]
  refine ⟨?_, ?_, ?_, ?_⟩
  · rw [fresh_read hv (a := .A) (by simp)]
    simp only [regionValue, hm]
  · rw [fresh_read hv (a := .Iyz) (by simp)]
    simp only [regionValue, hm, hy 1 1 odd_one]
  · rw [hm, hx]
  · rw [hm, hy 0 1 odd_one]

/-! ### Examples -/

/-- An offset that cuts every corner a third of the way up its sides, and leaves longer lines alone. -/
noncomputable def cutThird (l : Polyline) (_ : ℝ) : Polyline :=
  match l with
  | [a, b, c] => ([(1, 0), (1 / 3, 0), (0, 1 / 3), (0, 1)] : Polyline).map (cornerPt a b c)
  | l => l

theorem rounds_cutThird (r : ℝ) (a b c : ℝ × ℝ) : Rounds (rounded cutThird r a b c) a b c (1 / 9) := by
  have h := rounds_of_monotone a b c [(1, 0), (1 / 3, 0), (0, 1 / 3), (0, 1)] rfl rfl (by norm_num) (by norm_num)
  have e : ((edges ([(1, 0), (1 / 3, 0), (0, 1 / 3), (0, 1)] : Polyline)).map fun e => e.1.1 * e.2.2 - e.2.1 * e.1.2).sum =
      (1 / 9 : ℝ) := by norm_num [edges]
  rw [e] at h
  exact h

/-- IPN 100, UPN 350 and an angle with corners cut off. -/
example : ∃ p, createTaperI cutThird 100 50 4.5 6.8 4.5 2.7 0.14 = .ok p ∧
    p.bounds = (-50 / 2, -100 / 2, 50 / 2, 100 / 2) ∧ ∀ m n, Odd m ∨ Odd n → signedMoment m n 0 p.ext = 0 := by
  obtain ⟨p, h1, -, -, h2, -, -, -, h3⟩ := C69_taperI (offs := cutThird) (h := 100) (b := 50) (tw := 4.5) (tf := 6.8)
    (r1 := 4.5) (r2 := 2.7) (s := 0.14) (by norm_num [FitsTogether]) (by norm_num) (by norm_num)
    (rounds_cutThird _ _ _ _) (rounds_cutThird _ _ _ _)
  exact ⟨p, h1, h2, h3⟩

example : ∃ p x0, createTaperU cutThird 350 100 14 16 16 8 0.05 43 = .ok p ∧
    p.bounds = (x0, -350 / 2, x0 + 100, 350 / 2) ∧ signedMoment 1 0 0 p.ext = 0 := by
  obtain ⟨p, x0, h1, -, -, h2, -, -, -, h3, -⟩ := C69_taperU (offs := cutThird) (h := 350) (b := 100) (tw := 14) (tf := 16)
    (r1 := 16) (r2 := 8) (s := 0.05) (u := 43) (by norm_num [FitsTogether]) (by norm_num)
    (rounds_cutThird _ _ _ _) (rounds_cutThird _ _ _ _)
  exact ⟨p, x0, h1, h2, h3⟩

example : ∃ p x0 y0, createL cutThird 100 75 8 8 10 5 = .ok p ∧ p.bounds = (x0, y0, x0 + 75, y0 + 100) ∧
    signedMoment 0 0 0 p.ext =
      75 * 8 + 8 * (100 - 8) - 1 / 9 * (75 / 2 * 8 / 2) + 1 / 9 * ((75 / 2 - 8) * (100 / 2 - 8) / 2) - 1 / 9 * (8 * (100 / 2) / 2) := by
  obtain ⟨p, x0, y0, h1, -, -, h2, h3, -⟩ := C69_angle (offs := cutThird) (h := 100) (b := 75) (w1 := 8) (w2 := 8)
    (r1 := 10) (r2 := 5) (by norm_num [FitsTogether])
    (rounds_cutThird _ _ _ _) (rounds_cutThird _ _ _ _) (rounds_cutThird _ _ _ _)
  exact ⟨p, x0, y0, h1, h2, h3⟩

example : TaperFits (rowShape .UPN (.taper 3500 1000 140 160 160 80 (some 2820))) :=
  C69_tables .UPN "UPN350" _ (by simp [ProfClass.table, tableUPN])

end SC
