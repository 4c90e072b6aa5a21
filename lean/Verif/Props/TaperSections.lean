import Verif.Model.TaperSections
import Verif.Spec.Corner
import Verif.Props.ProfileShapes
import Verif.Props.ProfileReads
import Verif.Props.FiberMesh

/-!
# C69: outlines of tapered I and U sections and of angles
-/

set_option autoImplicit false

namespace SC

open Spec

/-! ### Joining and mirroring polylines -/

theorem merge2_chain {p q : Polyline} (h : p.getLast? = q.head?) : merge2 p q = p ++ q.tail := by
  rw [show merge2 p q = p ++ q.tail from if_pos h]

theorem head_cons {l : Polyline} {x : ℝ × ℝ} (h : l.head? = some x) : l = x :: l.tail := by
  cases l with
  | nil => simp at h
  | cons a l => simp at h; simp [h]

theorem last_concat {l : Polyline} {x : ℝ × ℝ} (h : l.getLast? = some x) : l = l.dropLast ++ [x] := by
  have hne : l ≠ [] := by rintro rfl; simp at h
  have := List.dropLast_append_getLast hne
  rw [List.getLast?_eq_getLast_of_ne_nil hne] at h
  rw [← Option.some.inj h, this]

theorem marin_chain {p q : Polyline} {x : ℝ × ℝ} (hp : p.getLast? = some x) (hq : q.head? = some x) (m n : ℕ) :
    marin (p ++ q.tail) m n = marin p m n + marin q m n := by
  have e1 := last_concat hp
  have e2 := head_cons hq
  have : p ++ q.tail = p.dropLast ++ x :: q.tail := by
    conv_lhs => rw [e1]
    simp
  rw [this, marin_append, ← e1, ← e2]

theorem chain_last {p q : Polyline} {x z : ℝ × ℝ} (hp : p.getLast? = some x) (hq : q.head? = some x)
    (hz : q.getLast? = some z) : (p ++ q.tail).getLast? = some z := by
  have e1 := last_concat hp
  have e2 := head_cons hq
  have : p ++ q.tail = p.dropLast ++ x :: q.tail := by
    conv_lhs => rw [e1]
    simp
  rw [this, ← e2, List.getLast?_append, hz]
  rfl

theorem chain_head {p q : Polyline} {x : ℝ × ℝ} (hp : p.head? = some x) : (p ++ q.tail).head? = some x := by
  rw [List.head?_append, hp]
  rfl

theorem mem_chain {p q : Polyline} {x : ℝ × ℝ} (hp : p.getLast? = some x) (hq : q.head? = some x) (v : ℝ × ℝ) :
    v ∈ p ++ q.tail ↔ v ∈ p ∨ v ∈ q := by
  have e2 := head_cons hq
  rw [List.mem_append]
  constructor
  · rintro (h | h)
    · exact Or.inl h
    · exact Or.inr (List.mem_of_mem_tail h)
  · rintro (h | h)
    · exact Or.inl h
    · rw [e2, List.mem_cons] at h
      rcases h with rfl | h
      · exact Or.inl (List.mem_of_getLast? hp)
      · exact Or.inr h

/-- Merging a polyline with its image under a map that fixes its start. -/
theorem merge2_mirror {q : Polyline} {f : ℝ × ℝ → ℝ × ℝ} {a z : ℝ × ℝ} (ha : q.head? = some a) (hz : q.getLast? = some z)
    (hf : f a = a) (hne : z ≠ a) : merge2 q (q.map f) = (q.map f).reverse ++ q.tail := by
  have h1 : (q.map f).head? = some a := by rw [List.head?_map, ha]; simp [hf]
  have h0 : ¬ q.getLast? = (q.map f).head? := by
    rw [h1, hz]
    simpa using hne
  have h2 : q.head? = (q.map f).head? := by rw [h1, ha]
  rw [show merge2 q (q.map f) = if q.head? = (q.map f).head? then (q.map f).reverse ++ q.tail else _ from if_neg h0, if_pos h2]

section mirror
variable {q : Polyline} {f : ℝ × ℝ → ℝ × ℝ} {a z : ℝ × ℝ}

theorem mirror_last_rev (ha : q.head? = some a) (hf : f a = a) : (q.map f).reverse.getLast? = some a := by
  rw [List.getLast?_reverse, List.head?_map, ha]; simp [hf]

theorem mirror_marin (ha : q.head? = some a) (hf : f a = a) (m n : ℕ) :
    marin ((q.map f).reverse ++ q.tail) m n = marin q m n - marin (q.map f) m n := by
  rw [marin_chain (mirror_last_rev ha hf) ha, marin_reverse]
  ring

theorem mirror_mem (ha : q.head? = some a) (hf : f a = a) (v : ℝ × ℝ) :
    v ∈ (q.map f).reverse ++ q.tail ↔ v ∈ q ∨ ∃ w ∈ q, f w = v := by
  rw [mem_chain (mirror_last_rev ha hf) ha, List.mem_reverse, List.mem_map, or_comm]

theorem mirror_last (ha : q.head? = some a) (hf : f a = a) (hz : q.getLast? = some z) :
    ((q.map f).reverse ++ q.tail).getLast? = some z := chain_last (mirror_last_rev ha hf) ha hz

theorem mirror_head (hz : q.getLast? = some z) : ((q.map f).reverse ++ q.tail).head? = some (f z) := by
  apply chain_head
  rw [List.head?_reverse, List.getLast?_map, hz]
  rfl

end mirror

/-! ### Moments under reflections and translations -/

theorem lineInt_flip (m n : ℕ) (p q : ℝ × ℝ) (sx sy : ℝ) :
    lineInt m n (sx * p.1, sy * p.2) (sx * q.1, sy * q.2) = sx ^ m * sy ^ n * lineInt m n p q := by
  unfold lineInt
  rw [← intervalIntegral.integral_const_mul]
  congr 1
  funext t
  have e1 : (1 - t) * (sx * p.1) + t * (sx * q.1) = sx * ((1 - t) * p.1 + t * q.1) := by ring
  have e2 : (1 - t) * (sy * p.2) + t * (sy * q.2) = sy * ((1 - t) * p.2 + t * q.2) := by ring
  rw [e1, e2, mul_pow, mul_pow]
  ring

/-- Moments of a polyline after scaling the coordinates. -/
theorem marin_flip (l : Polyline) (sx sy : ℝ) (m n : ℕ) :
    marin (l.map fun p => (sx * p.1, sy * p.2)) m n = sx * sy * (sx ^ m * sy ^ n) * marin l m n := by
  induction l with
  | nil => simp [marin_nil]
  | cons a l ih =>
    cases l with
    | nil => simp [marin_single]
    | cons b l =>
      simp only [List.map_cons] at ih ⊢
      rw [marin_cons_cons, marin_cons_cons, ih, edgeTerm, lineInt_flip, edgeTerm]
      simp only [det2]
      ring

theorem telescope (G : ℝ × ℝ → ℝ) (l : Polyline) (a z : ℝ × ℝ) (ha : l.head? = some a) (hz : l.getLast? = some z) :
    ((edges l).map fun e => G e.2 - G e.1).sum = G z - G a := by
  induction l generalizing a with
  | nil => simp at ha
  | cons b l ih =>
    simp only [List.head?_cons, Option.some.injEq] at ha
    subst ha
    cases l with
    | nil => simp at hz; subst hz; simp [edges]
    | cons c l =>
      have := ih c rfl (by simpa using hz)
      simp only [edges, List.map_cons, List.sum_cons, this]
      ring

theorem telescope_closed (G : ℝ × ℝ → ℝ) (l : Polyline) (h : Closed l) :
    ((edges l).map fun e => G e.2 - G e.1).sum = 0 := by
  cases l with
  | nil => simp [edges]
  | cons b l =>
    have h1 : (b :: l).getLast? = some b := h.symm
    rw [telescope G (b :: l) b b rfl h1, sub_self]

/-- Area and first moments of a translated ring. -/
theorem marin_shift (l : Polyline) (h : Closed l) (dx dy : ℝ) :
    marin (shiftLine dx dy l) 0 0 = marin l 0 0 ∧
    marin (shiftLine dx dy l) 1 0 = marin l 1 0 + dx * marin l 0 0 ∧
    marin (shiftLine dx dy l) 0 1 = marin l 0 1 + dy * marin l 0 0 := by
  have t := fun G => telescope_closed G l h
  simp only [marin_edgeTerm, shiftLine, edges_map, List.map_map, Function.comp_def, (edgeTerm_explicit _ _).1,
    (edgeTerm_explicit _ _).2.1, (edgeTerm_explicit _ _).2.2.1]
  rw [← List.sum_map_mul_left, ← List.sum_map_mul_left, ← List.sum_map_add, ← List.sum_map_add]
  refine ⟨?_, ?_, ?_⟩
  · refine Eq.trans ?_ (add_zero _)
    rw [← t fun p => (dx * p.2 - dy * p.1) / 2, ← List.sum_map_add]
    congr 1
    apply List.map_congr_left
    intro e _
    simp only [det2]
    ring
  · refine Eq.trans ?_ (add_zero _)
    rw [← t fun p => dx * p.1 * p.2 / 6 - dy * p.1 ^ 2 / 6 + dx ^ 2 * p.2 / 3 - dx * dy * p.1 / 3, ← List.sum_map_add]
    congr 1
    apply List.map_congr_left
    intro e _
    simp only [det2]
    ring
  · refine Eq.trans ?_ (add_zero _)
    rw [← t fun p => dx * p.2 ^ 2 / 6 - dy * p.1 * p.2 / 6 + dx * dy * p.2 / 3 - dy ^ 2 * p.1 / 3, ← List.sum_map_add]
    congr 1
    apply List.map_congr_left
    intro e _
    simp only [det2]
    ring

/-! ### Corners and boxes -/

/-- Moment of area of a rounding polyline: the sharp corner plus the part cut off. -/
theorem Spec.Rounds.area {l : Polyline} {a b c : ℝ × ℝ} {t : ℝ} (h : Rounds l a b c t) :
    marin l 0 0 = det2 a b / 2 + det2 b c / 2 + t * (cross a c b / 2) := by
  have hcl : Closed (l ++ [b, a]) := by
    unfold Closed
    rw [List.head?_append, h.start, List.getLast?_append]
    rfl
  have h1 := h.cut
  rw [← marin_signed hcl] at h1
  have e1 := last_concat h.finish
  have e2 : l ++ [b, a] = l.dropLast ++ c :: [b, a] := by
    conv_lhs => rw [e1]
    simp
  rw [e2, marin_append, ← e1, marin_cons_cons, marin_cons_cons, marin_single] at h1
  simp only [(edgeTerm_explicit _ _).1, det2] at h1 ⊢
  linarith

theorem triangle_box {a b c p : ℝ × ℝ} {x0 x1 y0 y1 : ℝ} (h : p ∈ triangle a b c)
    (ha : a ∈ Set.Icc x0 x1 ×ˢ Set.Icc y0 y1) (hb : b ∈ Set.Icc x0 x1 ×ˢ Set.Icc y0 y1)
    (hc : c ∈ Set.Icc x0 x1 ×ˢ Set.Icc y0 y1) : p ∈ Set.Icc x0 x1 ×ˢ Set.Icc y0 y1 := by
  refine convexHull_min ?_ ((convex_Icc x0 x1).prod (convex_Icc y0 y1)) h
  rintro v (rfl | rfl | rfl) <;> assumption

theorem bounds_of_box {l : Polyline} {x0 x1 y0 y1 : ℝ} (h : ∀ v ∈ l, v ∈ Set.Icc x0 x1 ×ˢ Set.Icc y0 y1)
    (hx0 : ∃ v ∈ l, v.1 = x0) (hx1 : ∃ v ∈ l, v.1 = x1) (hy0 : ∃ v ∈ l, v.2 = y0) (hy1 : ∃ v ∈ l, v.2 = y1)
    (ints : List Polyline) : Polygon.bounds ⟨l, ints⟩ = (x0, y0, x1, y1) := by
  have mem : ∀ {f : ℝ × ℝ → ℝ} {x : ℝ}, (∃ v ∈ l, f v = x) → x ∈ l.map f := by
    intro f x h
    simpa using h
  simp only [Polygon.bounds, Prod.mk.injEq]
  refine ⟨listMin_unique (mem hx0) ?_, listMin_unique (mem hy0) ?_, listMax_unique (mem hx1) ?_, listMax_unique (mem hy1) ?_⟩ <;>
    intro x hx <;> obtain ⟨v, hv, rfl⟩ := List.mem_map.1 hx
  exacts [(h v hv).1.1, (h v hv).2.1, (h v hv).1.2, (h v hv).2.2]

/-- `translate(scale(line, -1, 1), ...)` of a line whose box is known. -/
theorem scaleCentre_eq {l : Polyline} {x0 x1 y0 y1 : ℝ} (h : Polygon.bounds ⟨l, []⟩ = (x0, y0, x1, y1)) (fx fy : ℝ) :
    scaleCentre fx fy l = l.map fun p => ((x0 + x1) / 2 + fx * (p.1 - (x0 + x1) / 2), (y0 + y1) / 2 + fy * (p.2 - (y0 + y1) / 2)) := by
  simp only [scaleCentre, h]

theorem ringPolygon_ok {l : Polyline} (h : Closed l) (h4 : 4 ≤ l.length) : ringPolygon l = .ok ⟨l, []⟩ := by
  rw [show ringPolygon l = .ok ⟨l, []⟩ from if_pos ⟨h, h4⟩]

theorem orientCcw_pos {l : Polyline} (h : 0 ≤ marin l 0 0) (ints : List Polyline) : orientCcw ⟨l, ints⟩ = ⟨l, []⟩ := by
  rw [orientCcw, if_pos h]

/-! ### Tapered I section -/

section taperI
variable {offs : Polyline → ℝ → Polyline} {h b tw tf r1 r2 s t1 t2 : ℝ}

/-- What is needed of the quarter outline. -/
theorem taperI_quarter
    (hf : FitsTogether (.taperI h b tw tf r1 r2 s)) (hw : tw ≤ b / 2) (hh : tf + b / 4 * s ≤ h / 2)
    (c1 : Rounds (rounded offs r2 (b / 2, -h / 2) (b / 2, -h / 2 + tf - b / 4 * s) (b / 4, -h / 2 + tf))
      (b / 2, -h / 2) (b / 2, -h / 2 + tf - b / 4 * s) (b / 4, -h / 2 + tf) t1)
    (c2 : Rounds (rounded offs (-r1) (b / 4, -h / 2 + tf) (tw / 2, -h / 2 + tf + (b / 4 - tw / 2) * s) (tw / 2, 0))
      (b / 4, -h / 2 + tf) (tw / 2, -h / 2 + tf + (b / 4 - tw / 2) * s) (tw / 2, 0) t2) :
    (taperIQuarter offs h b tw tf r1 r2 s).head? = some (0, -h / 2) ∧
    (taperIQuarter offs h b tw tf r1 r2 s).getLast? = some (tw / 2, 0) ∧
    (b / 2, -h / 2) ∈ taperIQuarter offs h b tw tf r1 r2 s ∧
    (∀ v ∈ taperIQuarter offs h b tw tf r1 r2 s, v ∈ Set.Icc 0 (b / 2) ×ˢ Set.Icc (-h / 2) 0) ∧
    marin (taperIQuarter offs h b tw tf r1 r2 s) 0 0 =
      (tw * h + 2 * tf * (b - tw) - s * tw * (b - tw) / 2) / 4 - t1 * (b / 4 * (tf - b / 4 * s) / 2) +
        t2 * ((b / 4 - tw / 2) * (h / 2 - tf - (b / 4 - tw / 2) * s) / 2) := by
  obtain ⟨h0, h1, h2, h3, h4, h5, h6, h7, h8, h9⟩ := hf
  set f1 := rounded offs r2 (b / 2, -h / 2) (b / 2, -h / 2 + tf - b / 4 * s) (b / 4, -h / 2 + tf) with hf1
  set f2 := rounded offs (-r1) (b / 4, -h / 2 + tf) (tw / 2, -h / 2 + tf + (b / 4 - tw / 2) * s) (tw / 2, 0) with hf2
  have l1 : ([(0, -h / 2), (b / 2, -h / 2)] : Polyline).getLast? = some (b / 2, -h / 2) := rfl
  have l2 := chain_last l1 c1.start c1.finish
  have hq : taperIQuarter offs h b tw tf r1 r2 s = ([(0, -h / 2), (b / 2, -h / 2)] ++ f1.tail) ++ f2.tail := by
    simp only [taperIQuarter, linemerge, List.foldl_cons, List.foldl_nil]
    rw [merge2_chain (l1.trans c1.start.symm), merge2_chain (l2.trans c2.start.symm)]
  have hm : ∀ v, v ∈ taperIQuarter offs h b tw tf r1 r2 s ↔ (v = (0, -h / 2) ∨ v = (b / 2, -h / 2)) ∨ v ∈ f1 ∨ v ∈ f2 := by
    intro v
    rw [hq, mem_chain l2 c2.start, mem_chain l1 c1.start]
    simp only [List.mem_cons, List.not_mem_nil, or_false]
    tauto
  refine ⟨?_, ?_, ?_, ?_, ?_⟩
  · rw [hq]
    rfl
  · rw [hq]
    exact chain_last l2 c2.start c2.finish
  · rw [hm]
    simp
  · have g1 : 0 ≤ b / 4 * s := by positivity
    have g2 : 0 ≤ tw / 2 * s := by positivity
    have g3 : b / 4 * s - tw / 2 * s = (b / 4 - tw / 2) * s := by ring
    have g4 : 0 ≤ (b / 4 - tw / 2) * s := mul_nonneg (by linarith) h6.le
    have g5 : b / 4 * s = s * (b / 4) := by ring
    intro v hv
    rw [hm] at hv
    rcases hv with (rfl | rfl) | hv | hv
    · exact ⟨⟨le_rfl, by simp only; linarith⟩, le_rfl, by simp only; linarith⟩
    · exact ⟨⟨by simp only; linarith, le_rfl⟩, le_rfl, by simp only; linarith⟩
    · refine triangle_box (c1.inside v hv) ⟨⟨?_, ?_⟩, ?_, ?_⟩ ⟨⟨?_, ?_⟩, ?_, ?_⟩ ⟨⟨?_, ?_⟩, ?_, ?_⟩ <;> simp only <;> linarith
    · refine triangle_box (c2.inside v hv) ⟨⟨?_, ?_⟩, ?_, ?_⟩ ⟨⟨?_, ?_⟩, ?_, ?_⟩ ⟨⟨?_, ?_⟩, ?_, ?_⟩ <;> simp only <;> linarith
  · rw [hq, marin_chain l2 c2.start, marin_chain l1 c1.start, c1.area, c2.area, marin_cons_cons, marin_single,
      (edgeTerm_explicit _ _).1]
    simp only [det2, cross]
    ring

/-- The area of the rounded tapered I section is positive. -/
theorem taperI_area_pos {h b tw tf s t1 t2 : ℝ} (h0 : 0 < h) (h1 : 0 < b) (h2 : 0 < tw) (h3 : 0 < tf) (h6 : 0 < s)
    (h8 : 2 * tf ≤ h) (h9 : s * (b / 4) ≤ tf) (hw : tw ≤ b / 2) (hh : tf + b / 4 * s ≤ h / 2)
    (p1 : 0 ≤ t1 ∧ t1 ≤ 1) (p2 : 0 ≤ t2 ∧ t2 ≤ 1) :
    0 < tw * h + 2 * tf * (b - tw) - s * tw * (b - tw) / 2 - 4 * (t1 * (b / 4 * (tf - b / 4 * s) / 2)) +
        4 * (t2 * ((b / 4 - tw / 2) * (h / 2 - tf - (b / 4 - tw / 2) * s) / 2)) := by
  have g0 : 0 ≤ tf - b / 4 * s := by linarith [mul_comm s (b / 4)]
  have g1 : 0 ≤ b / 4 * (tf - b / 4 * s) / 2 := by positivity
  have g2 : t1 * (b / 4 * (tf - b / 4 * s) / 2) ≤ b / 4 * (tf - b / 4 * s) / 2 := mul_le_of_le_one_left g1 p1.2
  have g3 : 0 ≤ b / 4 - tw / 2 := by linarith
  have g4 : 0 ≤ tw / 2 * s := by positivity
  have g5 : 0 ≤ h / 2 - tf - (b / 4 - tw / 2) * s := by
    have : (b / 4 - tw / 2) * s = b / 4 * s - tw / 2 * s := by ring
    linarith
  have g6 : 0 ≤ t2 * ((b / 4 - tw / 2) * (h / 2 - tf - (b / 4 - tw / 2) * s) / 2) :=
    mul_nonneg p2.1 (div_nonneg (mul_nonneg g3 g5) (by norm_num))
  have g7 : 0 < b * s := by positivity
  have g8 : s * (b - tw) / 2 ≤ h := by
    have e1 : s * (b - tw) / 2 = s * (b / 4) * 2 - tw / 2 * s := by ring
    linarith
  have g9 : s * tw * (b - tw) / 2 ≤ tw * h := by
    have e1 : s * tw * (b - tw) / 2 = tw * (s * (b - tw) / 2) := by ring
    rw [e1]
    exact mul_le_mul_of_nonneg_left g8 h2.le
  have g10 : tf * (b / 2) ≤ tf * (b - tw) := mul_le_mul_of_nonneg_left (by linarith) h3.le
  have g11 : 0 < tf * b := by positivity
  have g12 : 4 * (b / 4 * (tf - b / 4 * s) / 2) ≤ tf * b / 2 := by
    have e1 : 4 * (b / 4 * (tf - b / 4 * s) / 2) = tf * b / 2 - b * (b * s) / 8 := by ring
    have e2 : 0 < b * (b * s) := by positivity
    linarith
  linarith

/-- **C69** (tapered I).  The outline is closed, its box is `b × h` about the origin, it is symmetric about both axes, all
moments odd in one coordinate vanish, and its area is that of the sharp outline without the cut-off corners and with the
filled ones. -/
theorem C69_taperI
    (hf : FitsTogether (.taperI h b tw tf r1 r2 s)) (hw : tw ≤ b / 2) (hh : tf + b / 4 * s ≤ h / 2)
    (c1 : Rounds (rounded offs r2 (b / 2, -h / 2) (b / 2, -h / 2 + tf - b / 4 * s) (b / 4, -h / 2 + tf))
      (b / 2, -h / 2) (b / 2, -h / 2 + tf - b / 4 * s) (b / 4, -h / 2 + tf) t1)
    (c2 : Rounds (rounded offs (-r1) (b / 4, -h / 2 + tf) (tw / 2, -h / 2 + tf + (b / 4 - tw / 2) * s) (tw / 2, 0))
      (b / 4, -h / 2 + tf) (tw / 2, -h / 2 + tf + (b / 4 - tw / 2) * s) (tw / 2, 0) t2) :
    ∃ p, createTaperI offs h b tw tf r1 r2 s = .ok p ∧ Closed p.ext ∧ p.ints = [] ∧
      p.bounds = (-b / 2, -h / 2, b / 2, h / 2) ∧
      (∀ v ∈ p.ext, (-v.1, v.2) ∈ p.ext ∧ (v.1, -v.2) ∈ p.ext) ∧
      signedMoment 0 0 0 p.ext = tw * h + 2 * tf * (b - tw) - s * tw * (b - tw) / 2 -
        4 * (t1 * (b / 4 * (tf - b / 4 * s) / 2)) +
        4 * (t2 * ((b / 4 - tw / 2) * (h / 2 - tf - (b / 4 - tw / 2) * s) / 2)) ∧
      0 < signedMoment 0 0 0 p.ext ∧
      ∀ m n, Odd m ∨ Odd n → signedMoment m n 0 p.ext = 0 := by
  obtain ⟨q1, q2, q3, q4, q5⟩ := taperI_quarter hf hw hh c1 c2
  obtain ⟨h0, h1, h2, h3, h4, h5, h6, h7, h8, h9⟩ := hf
  set q := taperIQuarter offs h b tw tf r1 r2 s with hqdef
  have q1' : ((0, -h / 2) : ℝ × ℝ) ∈ q := List.mem_of_head? q1
  have q2' : ((tw / 2, 0) : ℝ × ℝ) ∈ q := List.mem_of_getLast? q2
  -- first mirror
  set fx : ℝ × ℝ → ℝ × ℝ := fun p => (-1 * p.1, 1 * p.2) with hfx
  set fy : ℝ × ℝ → ℝ × ℝ := fun p => (1 * p.1, -1 * p.2) with hfy
  have bq := bounds_of_box q4 ⟨_, q1', rfl⟩ ⟨_, q3, rfl⟩ ⟨_, q1', rfl⟩ ⟨_, q2', rfl⟩ []
  have e1 : shiftLine (-b / 2) 0 (scaleCentre (-1) 1 q) = q.map fx := by
    rw [scaleCentre_eq bq, shiftLine, List.map_map]
    apply List.map_congr_left
    intro p _
    simp only [Function.comp, hfx, Prod.mk.injEq]
    constructor <;> ring
  have fxa : fx (0, -h / 2) = (0, -h / 2) := by simp [hfx]
  have ne1 : ((tw / 2, 0) : ℝ × ℝ) ≠ (0, -h / 2) := by
    intro he
    simp only [Prod.mk.injEq] at he
    linarith [he.1]
  have hhalf : linemerge [q, shiftLine (-b / 2) 0 (scaleCentre (-1) 1 q)] = (q.map fx).reverse ++ q.tail := by
    rw [e1]
    exact merge2_mirror q1 q2 fxa ne1
  set H := (q.map fx).reverse ++ q.tail with hH
  have memH : ∀ v, v ∈ H ↔ v ∈ q ∨ ∃ w ∈ q, fx w = v := mirror_mem q1 fxa
  have H1 : H.head? = some (-tw / 2, 0) := by
    rw [hH, mirror_head q2, hfx]
    simp only [one_mul, Option.some.injEq, Prod.mk.injEq, and_true]
    ring
  have H2 : H.getLast? = some (tw / 2, 0) := mirror_last q1 fxa q2
  have H4 : ∀ v ∈ H, v ∈ Set.Icc (-b / 2) (b / 2) ×ˢ Set.Icc (-h / 2) 0 := by
    intro v hv
    rw [memH] at hv
    rcases hv with hv | ⟨w, hw', rfl⟩
    · obtain ⟨⟨a1, a2⟩, a3⟩ := q4 v hv
      exact ⟨⟨by linarith, a2⟩, a3⟩
    · obtain ⟨⟨a1, a2⟩, a3, a4⟩ := q4 w hw'
      refine ⟨⟨?_, ?_⟩, ?_, ?_⟩ <;> simp only [hfx] <;> linarith
  have mH : ∀ v ∈ q, v ∈ H ∧ fx v ∈ H := fun v hv => ⟨(memH v).2 (Or.inl hv), (memH _).2 (Or.inr ⟨v, hv, rfl⟩)⟩
  have bH := bounds_of_box H4 ⟨_, (mH _ q3).2, by simp only [hfx]; ring⟩ ⟨_, (mH _ q3).1, rfl⟩ ⟨_, (mH _ q1').1, rfl⟩
    ⟨_, (mH _ q2').1, rfl⟩ []
  have e2 : shiftLine 0 (h / 2) (scaleCentre 1 (-1) H) = H.map fy := by
    rw [scaleCentre_eq bH, shiftLine, List.map_map]
    apply List.map_congr_left
    intro p _
    simp only [Function.comp, hfy, Prod.mk.injEq]
    constructor <;> ring
  have fya : fy (-tw / 2, 0) = (-tw / 2, 0) := by simp [hfy]
  have ne2 : ((tw / 2, 0) : ℝ × ℝ) ≠ (-tw / 2, 0) := by
    intro he
    simp only [Prod.mk.injEq] at he
    linarith [he.1]
  have hring : taperIOutline b h q = (H.map fy).reverse ++ H.tail := by
    simp only [taperIOutline, hhalf]
    rw [e2]
    exact merge2_mirror H1 H2 fya ne2
  set R := (H.map fy).reverse ++ H.tail with hR
  have memR : ∀ v, v ∈ R ↔ v ∈ H ∨ ∃ w ∈ H, fy w = v := mirror_mem H1 fya
  have R1 : R.head? = some (tw / 2, 0) := by
    rw [hR, mirror_head H2, hfy]
    simp
  have R2 : R.getLast? = some (tw / 2, 0) := mirror_last H1 fya H2
  have hcl : Closed R := R1.trans R2.symm
  have R4 : ∀ v ∈ R, v ∈ Set.Icc (-b / 2) (b / 2) ×ˢ Set.Icc (-h / 2) (h / 2) := by
    intro v hv
    rw [memR] at hv
    rcases hv with hv | ⟨w, hw', rfl⟩
    · obtain ⟨a1, a3, a4⟩ := H4 v hv
      exact ⟨a1, a3, by linarith⟩
    · obtain ⟨⟨a1, a2⟩, a3, a4⟩ := H4 w hw'
      refine ⟨⟨?_, ?_⟩, ?_, ?_⟩ <;> simp only [hfy] <;> linarith
  have mR : ∀ v ∈ H, v ∈ R ∧ fy v ∈ R := fun v hv => ⟨(memR v).2 (Or.inl hv), (memR _).2 (Or.inr ⟨v, hv, rfl⟩)⟩
  have bR := bounds_of_box R4 ⟨_, (mR _ (mH _ q3).2).1, by simp only [hfx]; ring⟩ ⟨_, (mR _ (mH _ q3).1).1, rfl⟩
    ⟨_, (mR _ (mH _ q1').1).1, rfl⟩ ⟨_, (mR _ (mH _ q1').1).2, by simp only [hfy]; ring⟩ []
  have hlen : 4 ≤ R.length := by
    have hq2 : 2 ≤ q.length := by
      rcases hql : q with _ | ⟨x, _ | ⟨y, l⟩⟩
      · rw [hql] at q1; simp at q1
      · rw [hql] at q1 q2
        simp only [List.head?_cons, List.getLast?_singleton, Option.some.injEq] at q1 q2
        rw [q1] at q2
        exact absurd q2.symm ne1
      · simp
    simp only [hR, hH, List.length_append, List.length_reverse, List.length_map, List.length_tail]
    omega
  have hmom : ∀ m n, marin R m n = (1 + (-1) ^ n) * ((1 + (-1) ^ m) * marin q m n) := by
    intro m n
    rw [hR, mirror_marin H1 fya, hfy, marin_flip, hH, mirror_marin q1 fxa, hfx, marin_flip]
    simp only [one_pow]
    ring
  have harea : marin R 0 0 = tw * h + 2 * tf * (b - tw) - s * tw * (b - tw) / 2 -
        4 * (t1 * (b / 4 * (tf - b / 4 * s) / 2)) +
        4 * (t2 * ((b / 4 - tw / 2) * (h / 2 - tf - (b / 4 - tw / 2) * s) / 2)) := by
    rw [hmom, q5]
    ring
  have hpos : 0 < marin R 0 0 := by
    rw [harea]
    exact taperI_area_pos h0 h1 h2 h3 h6 (by linarith) (by linarith) hw hh c1.part c2.part
  refine ⟨⟨R, []⟩, ?_, hcl, rfl, bR, ?_, ?_, ?_, ?_⟩
  · simp only [createTaperI, ← hqdef, hring]
    rw [ringPolygon_ok hcl hlen]
    show Except.ok _ = _
    rw [orientCcw_pos hpos.le]
  · intro v hv
    have key : ∀ v ∈ R, (-v.1, v.2) ∈ R ∧ (v.1, -v.2) ∈ R := by
      have hx : ∀ v ∈ H, fx v ∈ H := by
        intro v hv
        rcases (memH v).1 hv with hv | ⟨w, hw', rfl⟩
        · exact (mH v hv).2
        · have : fx (fx w) = w := by simp [hfx]
          rw [this]
          exact (mH w hw').1
      intro v hv
      rcases (memR v).1 hv with hv | ⟨w, hw', rfl⟩
      · have a1 := (mR _ (hx v hv)).1
        have a2 := (mR _ hv).2
        simp only [hfx, hfy, one_mul, neg_mul] at a1 a2
        exact ⟨a1, a2⟩
      · have a1 := (mR _ (hx w hw')).2
        have a2 := (mR _ hw').1
        simp only [hfx, hfy, one_mul, neg_mul] at a1 ⊢
        exact ⟨a1, by simpa using a2⟩
    exact key v hv
  · rw [← marin_signed hcl, harea]
  · rw [← marin_signed hcl]
    exact hpos
  · intro m n hmn
    rw [← marin_signed hcl, hmom]
    rcases hmn with hm | hn
    · rw [hm.neg_one_pow]; ring
    · rw [hn.neg_one_pow]; ring

end taperI

/-! ### Sections moved to their centroid -/

/-- Signed area of a translated polyline. -/
theorem marin_shift_open (l : Polyline) (a z : ℝ × ℝ) (ha : l.head? = some a) (hz : l.getLast? = some z) (dx dy : ℝ) :
    marin (shiftLine dx dy l) 0 0 = marin l 0 0 + (dx * (z.2 - a.2) - dy * (z.1 - a.1)) / 2 := by
  have t := telescope (fun p => (dx * p.2 - dy * p.1) / 2) l a z ha hz
  have e : (dx * (z.2 - a.2) - dy * (z.1 - a.1)) / 2 = (dx * z.2 - dy * z.1) / 2 - (dx * a.2 - dy * a.1) / 2 := by ring
  rw [e, ← t]
  simp only [marin_edgeTerm, shiftLine, edges_map, List.map_map, Function.comp_def, (edgeTerm_explicit _ _).1]
  rw [← List.sum_map_add]
  congr 1
  apply List.map_congr_left
  intro e _
  simp only [det2]
  ring

theorem shiftLine_closed {l : Polyline} (h : Closed l) (dx dy : ℝ) : Closed (shiftLine dx dy l) := by
  unfold Closed at h ⊢
  rw [shiftLine, List.head?_map, List.getLast?_map, h]

theorem shiftLine_shiftLine (l : Polyline) (a b c d : ℝ) :
    shiftLine a b (shiftLine c d l) = shiftLine (c + a) (d + b) l := by
  simp only [shiftLine, List.map_map]
  apply List.map_congr_left
  intro p _
  simp only [Function.comp, Prod.mk.injEq]
  constructor <;> ring

/-- The centroid of a ring of positive area. -/
theorem centroid_ring {l : Polyline} (h : 0 < marin l 0 0) :
    Polygon.centroid ⟨l, []⟩ = (marin l 1 0 / marin l 0 0, marin l 0 1 / marin l 0 0) := by
  simp only [Polygon.centroid, sign_pos h, List.map_nil, List.sum_nil, sub_zero, SignType.coe_one, one_mul]

/-- Moving a ring to its centroid. -/
theorem toCentroid_ring {l : Polyline} (hc : Closed l) (h : 0 < marin l 0 0) (ints : List Polyline) (hi : ints = []) :
    let F := shiftLine (-(marin l 1 0 / marin l 0 0)) (-(marin l 0 1 / marin l 0 0)) l
    orientCcw (toCentroid ⟨l, ints⟩) = ⟨F, []⟩ ∧ Closed F ∧ marin F 0 0 = marin l 0 0 ∧ marin F 1 0 = 0 ∧ marin F 0 1 = 0 := by
  subst hi
  intro F
  obtain ⟨e0, e1, e2⟩ := marin_shift l hc (-(marin l 1 0 / marin l 0 0)) (-(marin l 0 1 / marin l 0 0))
  refine ⟨?_, shiftLine_closed hc _ _, e0, ?_, ?_⟩
  · rw [toCentroid, centroid_ring h]
    exact orientCcw_pos (e0.symm ▸ h.le) []
  · rw [e1]; field_simp; ring
  · rw [e2]; field_simp; ring

theorem shift_box {l : Polyline} {x0 x1 y0 y1 : ℝ} (h : ∀ v ∈ l, v ∈ Set.Icc x0 x1 ×ˢ Set.Icc y0 y1)
    (hx0 : ∃ v ∈ l, v.1 = x0) (hx1 : ∃ v ∈ l, v.1 = x1) (hy0 : ∃ v ∈ l, v.2 = y0) (hy1 : ∃ v ∈ l, v.2 = y1)
    (dx dy : ℝ) (ints : List Polyline) :
    Polygon.bounds ⟨shiftLine dx dy l, ints⟩ = (x0 + dx, y0 + dy, x1 + dx, y1 + dy) := by
  apply bounds_of_box
  · intro v hv
    obtain ⟨w, hw, rfl⟩ := List.mem_map.1 hv
    obtain ⟨⟨a1, a2⟩, a3, a4⟩ := h w hw
    refine ⟨⟨?_, ?_⟩, ?_, ?_⟩ <;> simp only <;> linarith
  · obtain ⟨v, hv, rfl⟩ := hx0
    exact ⟨_, List.mem_map_of_mem hv, rfl⟩
  · obtain ⟨v, hv, rfl⟩ := hx1
    exact ⟨_, List.mem_map_of_mem hv, rfl⟩
  · obtain ⟨v, hv, rfl⟩ := hy0
    exact ⟨_, List.mem_map_of_mem hv, rfl⟩
  · obtain ⟨v, hv, rfl⟩ := hy1
    exact ⟨_, List.mem_map_of_mem hv, rfl⟩

/-! ### Tapered U section -/

section taperU
variable {offs : Polyline → ℝ → Polyline} {h b tw tf r1 r2 s u t1 t2 : ℝ}

/-- What is needed of the half outline. -/
theorem taperU_half
    (hf : FitsTogether (.taperU h b tw tf r1 r2 s u)) (hh : tf + s * (b - u - tw) ≤ h / 2)
    (c1 : Rounds (rounded offs r2 (b, 0) (b, tf - s * u) (b - u, tf)) (b, 0) (b, tf - s * u) (b - u, tf) t1)
    (c2 : Rounds (rounded offs (-r1) (b - u, tf) (tw, tf + s * (b - u - tw)) (tw, h / 2))
      (b - u, tf) (tw, tf + s * (b - u - tw)) (tw, h / 2) t2) :
    (taperUHalf offs h b tw tf r1 r2 s u).head? = some (0, h / 2) ∧
    (taperUHalf offs h b tw tf r1 r2 s u).getLast? = some (tw, h / 2) ∧
    (0, 0) ∈ taperUHalf offs h b tw tf r1 r2 s u ∧ (b, 0) ∈ taperUHalf offs h b tw tf r1 r2 s u ∧
    (∀ v ∈ taperUHalf offs h b tw tf r1 r2 s u, v ∈ Set.Icc 0 b ×ˢ Set.Icc 0 (h / 2)) ∧
    3 ≤ (taperUHalf offs h b tw tf r1 r2 s u).length ∧
    marin (taperUHalf offs h b tw tf r1 r2 s u) 0 0 =
      tw * (h / 2) / 2 + (b - tw) * (tf + s * ((b - tw) / 2 - u)) - t1 * (u * (tf - s * u) / 2) +
        t2 * ((b - u - tw) * (h / 2 - tf - s * (b - u - tw)) / 2) := by
  obtain ⟨h0, h1, h2, h3, h4, h5, h6, h6', h7, h8, h8', h9⟩ := hf
  set f1 := rounded offs r2 (b, 0) (b, tf - s * u) (b - u, tf) with hf1
  set f2 := rounded offs (-r1) (b - u, tf) (tw, tf + s * (b - u - tw)) (tw, h / 2) with hf2
  have l1 : ([(0, h / 2), (0, 0), (b, 0)] : Polyline).getLast? = some (b, 0) := rfl
  have l2 := chain_last l1 c1.start c1.finish
  have hq : taperUHalf offs h b tw tf r1 r2 s u = ([(0, h / 2), (0, 0), (b, 0)] ++ f1.tail) ++ f2.tail := by
    simp only [taperUHalf, linemerge, List.foldl_cons, List.foldl_nil]
    rw [merge2_chain (l1.trans c1.start.symm), merge2_chain (l2.trans c2.start.symm)]
  have hm : ∀ v, v ∈ taperUHalf offs h b tw tf r1 r2 s u ↔
      (v = (0, h / 2) ∨ v = (0, 0) ∨ v = (b, 0)) ∨ v ∈ f1 ∨ v ∈ f2 := by
    intro v
    rw [hq, mem_chain l2 c2.start, mem_chain l1 c1.start]
    simp only [List.mem_cons, List.not_mem_nil, or_false]
    tauto
  refine ⟨?_, ?_, ?_, ?_, ?_, ?_, ?_⟩
  · rw [hq]
    rfl
  · rw [hq]
    exact chain_last l2 c2.start c2.finish
  · rw [hm]
    simp
  · rw [hm]
    simp
  · have g1 : 0 ≤ s * u := by positivity
    have g2 : 0 ≤ s * (b - u - tw) := mul_nonneg h6.le (by linarith)
    intro v hv
    rw [hm] at hv
    rcases hv with (rfl | rfl | rfl) | hv | hv
    · exact ⟨⟨le_rfl, h1.le⟩, by simp only; linarith, le_rfl⟩
    · exact ⟨⟨le_rfl, h1.le⟩, le_rfl, by simp only; linarith⟩
    · exact ⟨⟨h1.le, le_rfl⟩, le_rfl, by simp only; linarith⟩
    · refine triangle_box (c1.inside v hv) ⟨⟨?_, ?_⟩, ?_, ?_⟩ ⟨⟨?_, ?_⟩, ?_, ?_⟩ ⟨⟨?_, ?_⟩, ?_, ?_⟩ <;> simp only <;> linarith
    · refine triangle_box (c2.inside v hv) ⟨⟨?_, ?_⟩, ?_, ?_⟩ ⟨⟨?_, ?_⟩, ?_, ?_⟩ ⟨⟨?_, ?_⟩, ?_, ?_⟩ <;> simp only <;> linarith
  · rw [hq]
    simp only [List.length_append, List.length_cons, List.length_nil]
    omega
  · rw [hq, marin_chain l2 c2.start, marin_chain l1 c1.start, c1.area, c2.area, marin_cons_cons, marin_cons_cons, marin_single,
      (edgeTerm_explicit _ _).1, (edgeTerm_explicit _ _).1]
    simp only [det2, cross]
    ring

/-- The area of the rounded tapered U section is positive. -/
theorem taperU_area_pos (h0 : 0 < h) (h2 : 0 < tw) (h6 : 0 < s) (h6' : 0 < u)
    (h8 : u < b - tw) (h9 : s * u ≤ tf) (hh : tf + s * (b - u - tw) ≤ h / 2)
    (p1 : 0 ≤ t1 ∧ t1 ≤ 1) (p2 : 0 ≤ t2 ∧ t2 ≤ 1) :
    0 < tw * h + 2 * (b - tw) * (tf + s * ((b - tw) / 2 - u)) - 2 * (t1 * (u * (tf - s * u) / 2)) +
        2 * (t2 * ((b - u - tw) * (h / 2 - tf - s * (b - u - tw)) / 2)) := by
  have g0 : 0 ≤ tf - s * u := by linarith
  have g1 : 0 ≤ u * (tf - s * u) / 2 := by positivity
  have g2 : t1 * (u * (tf - s * u) / 2) ≤ u * (tf - s * u) / 2 := mul_le_of_le_one_left g1 p1.2
  have g3 : 0 ≤ t2 * ((b - u - tw) * (h / 2 - tf - s * (b - u - tw)) / 2) :=
    mul_nonneg p2.1 (div_nonneg (mul_nonneg (by linarith) (by linarith)) (by norm_num))
  have g4 : u * (tf - s * u) ≤ (b - tw) * (tf - s * u) := mul_le_mul_of_nonneg_right h8.le g0
  have g5 : 0 < tw * h := by positivity
  have g6 : 0 ≤ (b - tw) * (s * ((b - tw) / 2)) := by
    have : 0 ≤ b - tw := by linarith
    positivity
  have g7 : 2 * (b - tw) * (tf + s * ((b - tw) / 2 - u)) = 2 * ((b - tw) * (tf - s * u)) + 2 * ((b - tw) * (s * ((b - tw) / 2))) := by
    ring
  linarith

/-- **C69** (tapered U).  The outline is closed, its box is `b × h`, its centroid is the origin, it is symmetric about the
horizontal axis, all moments odd in the second coordinate vanish, and its area is that of the sharp outline without the
cut-off corners and with the filled ones. -/
theorem C69_taperU
    (hf : FitsTogether (.taperU h b tw tf r1 r2 s u)) (hh : tf + s * (b - u - tw) ≤ h / 2)
    (c1 : Rounds (rounded offs r2 (b, 0) (b, tf - s * u) (b - u, tf)) (b, 0) (b, tf - s * u) (b - u, tf) t1)
    (c2 : Rounds (rounded offs (-r1) (b - u, tf) (tw, tf + s * (b - u - tw)) (tw, h / 2))
      (b - u, tf) (tw, tf + s * (b - u - tw)) (tw, h / 2) t2) :
    ∃ p x0, createTaperU offs h b tw tf r1 r2 s u = .ok p ∧ Closed p.ext ∧ p.ints = [] ∧
      p.bounds = (x0, -h / 2, x0 + b, h / 2) ∧
      (∀ v ∈ p.ext, (v.1, -v.2) ∈ p.ext) ∧
      signedMoment 0 0 0 p.ext = tw * h + 2 * (b - tw) * (tf + s * ((b - tw) / 2 - u)) - 2 * (t1 * (u * (tf - s * u) / 2)) +
        2 * (t2 * ((b - u - tw) * (h / 2 - tf - s * (b - u - tw)) / 2)) ∧
      0 < signedMoment 0 0 0 p.ext ∧
      signedMoment 1 0 0 p.ext = 0 ∧
      ∀ m n, Odd n → signedMoment m n 0 p.ext = 0 := by
  obtain ⟨q1, q2, q3, q3', q4, q6, q5⟩ := taperU_half hf hh c1 c2
  obtain ⟨h0, h1, h2, h3, h4, h5, h6, h6', h7, h8, h8', h9⟩ := hf
  set H := taperUHalf offs h b tw tf r1 r2 s u with hH
  have q1' : ((0, h / 2) : ℝ × ℝ) ∈ H := List.mem_of_head? q1
  set g : ℝ × ℝ → ℝ × ℝ := fun p => (p.1, h - p.2) with hg
  have bH := bounds_of_box q4 ⟨_, q3, rfl⟩ ⟨_, q3', rfl⟩ ⟨_, q3, rfl⟩ ⟨_, q1', rfl⟩ []
  have e1 : shiftLine 0 (h / 2) (scaleCentre 1 (-1) H) = H.map g := by
    rw [scaleCentre_eq bH, shiftLine, List.map_map]
    apply List.map_congr_left
    intro p _
    simp only [Function.comp, hg, Prod.mk.injEq]
    constructor <;> ring
  have ga : g (0, h / 2) = (0, h / 2) := by
    simp only [hg, Prod.mk.injEq, true_and]; ring
  have ne1 : ((tw, h / 2) : ℝ × ℝ) ≠ (0, h / 2) := by
    intro he
    simp only [Prod.mk.injEq, and_true] at he
    linarith
  have hring : linemerge [H, shiftLine 0 (h / 2) (scaleCentre 1 (-1) H)] = (H.map g).reverse ++ H.tail := by
    rw [e1]
    exact merge2_mirror q1 q2 ga ne1
  set R := (H.map g).reverse ++ H.tail with hR
  have memR : ∀ v, v ∈ R ↔ v ∈ H ∨ ∃ w ∈ H, g w = v := mirror_mem q1 ga
  have R1 : R.head? = some (tw, h / 2) := by
    rw [hR, mirror_head q2, hg]
    simp only [Option.some.injEq, Prod.mk.injEq, true_and]
    ring
  have R2 : R.getLast? = some (tw, h / 2) := mirror_last q1 ga q2
  have hcl : Closed R := R1.trans R2.symm
  have mR : ∀ v ∈ H, v ∈ R ∧ g v ∈ R := fun v hv => ⟨(memR v).2 (Or.inl hv), (memR _).2 (Or.inr ⟨v, hv, rfl⟩)⟩
  have R4 : ∀ v ∈ R, v ∈ Set.Icc 0 b ×ˢ Set.Icc 0 h := by
    intro v hv
    rw [memR] at hv
    rcases hv with hv | ⟨w, hw', rfl⟩
    · obtain ⟨a1, a3, a4⟩ := q4 v hv
      exact ⟨a1, a3, by linarith⟩
    · obtain ⟨⟨a1, a2⟩, a3, a4⟩ := q4 w hw'
      refine ⟨⟨?_, ?_⟩, ?_, ?_⟩ <;> simp only [hg] <;> linarith
  have hlen : 4 ≤ R.length := by
    simp only [hR, List.length_append, List.length_reverse, List.length_map, List.length_tail]
    omega
  -- every horizontal shift of the ring about its axis is a mirrored line
  set fy : ℝ × ℝ → ℝ × ℝ := fun p => (1 * p.1, -1 * p.2) with hfy
  have mir : ∀ d, shiftLine d (-(h / 2)) R = ((shiftLine d (-(h / 2)) H).map fy).reverse ++ (shiftLine d (-(h / 2)) H).tail := by
    intro d
    simp only [hR, shiftLine, List.map_append, List.map_reverse, List.map_map, List.map_tail]
    congr 2
    apply List.map_congr_left
    intro p _
    simp only [Function.comp, hg, hfy, Prod.mk.injEq]
    constructor <;> ring
  have head : ∀ d, (shiftLine d (-(h / 2)) H).head? = some (d, 0) := by
    intro d
    rw [shiftLine, List.head?_map, q1]
    simp
  have fya : ∀ d, fy (d, 0) = (d, 0) := by intro d; simp [hfy]
  have hmom : ∀ d m n, marin (shiftLine d (-(h / 2)) R) m n = (1 + (-1) ^ n) * marin (shiftLine d (-(h / 2)) H) m n := by
    intro d m n
    rw [mir, mirror_marin (head d) (fya d), hfy, marin_flip]
    simp only [one_pow]
    ring
  obtain ⟨s0, -, s2⟩ := marin_shift R hcl 0 (-(h / 2))
  have harea : marin R 0 0 = tw * h + 2 * (b - tw) * (tf + s * ((b - tw) / 2 - u)) - 2 * (t1 * (u * (tf - s * u) / 2)) +
        2 * (t2 * ((b - u - tw) * (h / 2 - tf - s * (b - u - tw)) / 2)) := by
    rw [← s0, hmom, marin_shift_open H _ _ q1 q2, q5]
    ring
  have hpos : 0 < marin R 0 0 := by
    rw [harea]
    exact taperU_area_pos h0 h2 h6 h6' h8' (by linarith) hh c1.part c2.part
  have hz : marin R 0 1 / marin R 0 0 = h / 2 := by
    rw [hmom 0 0 1] at s2
    rw [div_eq_iff hpos.ne']
    norm_num at s2
    linarith
  obtain ⟨k1, k2, k3, k4, -⟩ := toCentroid_ring hcl hpos [] rfl
  rw [hz] at k1 k2 k3 k4
  set d := -(marin R 1 0 / marin R 0 0) with hd
  refine ⟨⟨shiftLine d (-(h / 2)) R, []⟩, d, ?_, k2, rfl, ?_, ?_, ?_, ?_, ?_, ?_⟩
  · simp only [createTaperU, ← hH, hring]
    rw [ringPolygon_ok hcl hlen]
    exact congrArg Except.ok k1
  · rw [shift_box R4 ⟨_, (mR _ q3).1, rfl⟩ ⟨_, (mR _ q3').1, rfl⟩ ⟨_, (mR _ q3).1, rfl⟩
      ⟨_, (mR _ q3).2, by simp only [hg]; ring⟩]
    simp only [Prod.mk.injEq]
    refine ⟨?_, ?_, ?_, ?_⟩ <;> ring
  · intro v hv
    obtain ⟨w, hw, rfl⟩ := List.mem_map.1 hv
    have : g w ∈ R := by
      rcases (memR w).1 hw with hw | ⟨x, hx, rfl⟩
      · exact (mR w hw).2
      · have : g (g x) = x := by simp [hg]
        rw [this]
        exact (mR x hx).1
    refine List.mem_map.2 ⟨g w, this, ?_⟩
    simp only [hg, Prod.mk.injEq, true_and]
    ring
  · rw [← marin_signed k2, k3, harea]
  · rw [← marin_signed k2, k3]
    exact hpos
  · rw [← marin_signed k2, k4]
  · intro m n hn
    rw [← marin_signed k2, hmom, hn.neg_one_pow]
    ring

end taperU

/-! ### Angles -/

section angle
variable {offs : Polyline → ℝ → Polyline} {h b w1 w2 r1 r2 t1 t2 t3 : ℝ}

/-- **C69** (angles).  The outline is closed, its box is `b × h`, its centroid is the origin, and its area is that of
the two legs (horizontal of thickness `w1`, vertical of thickness `w2`) without the rounded toes and with the filled inner
corner. -/
theorem C69_angle
    (hf : FitsTogether (.L h b w1 w2 r1 r2))
    (c1 : Rounds (rounded offs r2 (b, 0) (b, w1) (b / 2, w1)) (b, 0) (b, w1) (b / 2, w1) t1)
    (c2 : Rounds (rounded offs (-r1) (b / 2, w1) (w2, w1) (w2, h / 2)) (b / 2, w1) (w2, w1) (w2, h / 2) t2)
    (c3 : Rounds (rounded offs r2 (w2, h / 2) (w2, h) (0, h)) (w2, h / 2) (w2, h) (0, h) t3) :
    ∃ p x0 y0, createL offs h b w1 w2 r1 r2 = .ok p ∧ Closed p.ext ∧ p.ints = [] ∧
      p.bounds = (x0, y0, x0 + b, y0 + h) ∧
      signedMoment 0 0 0 p.ext = b * w1 + w2 * (h - w1) - t1 * (b / 2 * w1 / 2) +
        t2 * ((b / 2 - w2) * (h / 2 - w1) / 2) - t3 * (w2 * (h / 2) / 2) ∧
      0 < signedMoment 0 0 0 p.ext ∧
      signedMoment 1 0 0 p.ext = 0 ∧ signedMoment 0 1 0 p.ext = 0 := by
  obtain ⟨h0, h1, h2, h3, h4, h5, h6, h7, h8, h9, h10, h11⟩ := hf
  set f1 := rounded offs r2 (b, 0) (b, w1) (b / 2, w1) with hf1
  set f2 := rounded offs (-r1) (b / 2, w1) (w2, w1) (w2, h / 2) with hf2
  set f3 := rounded offs r2 (w2, h / 2) (w2, h) (0, h) with hf3
  have l1 : ([(0, h), (0, 0), (b, 0)] : Polyline).getLast? = some (b, 0) := rfl
  have l2 := chain_last l1 c1.start c1.finish
  have l3 := chain_last l2 c2.start c2.finish
  have hq : angleOutline offs h b w1 w2 r1 r2 = ([(0, h), (0, 0), (b, 0)] ++ f1.tail ++ f2.tail) ++ f3.tail := by
    simp only [angleOutline, linemerge, List.foldl_cons, List.foldl_nil]
    rw [merge2_chain (l1.trans c1.start.symm), merge2_chain (l2.trans c2.start.symm), merge2_chain (l3.trans c3.start.symm)]
  set R := angleOutline offs h b w1 w2 r1 r2 with hR
  have hm : ∀ v, v ∈ R ↔ (v = (0, h) ∨ v = (0, 0) ∨ v = (b, 0)) ∨ v ∈ f1 ∨ v ∈ f2 ∨ v ∈ f3 := by
    intro v
    rw [hq, mem_chain l3 c3.start, mem_chain l2 c2.start, mem_chain l1 c1.start]
    simp only [List.mem_cons, List.not_mem_nil, or_false]
    tauto
  have hcl : Closed R := by
    unfold Closed
    rw [hq, chain_last l3 c3.start c3.finish]
    rfl
  have R4 : ∀ v ∈ R, v ∈ Set.Icc 0 b ×ˢ Set.Icc 0 h := by
    intro v hv
    rw [hm] at hv
    rcases hv with (rfl | rfl | rfl) | hv | hv | hv
    · exact ⟨⟨le_rfl, h1.le⟩, h0.le, le_rfl⟩
    · exact ⟨⟨le_rfl, h1.le⟩, le_rfl, h0.le⟩
    · exact ⟨⟨h1.le, le_rfl⟩, le_rfl, h0.le⟩
    · refine triangle_box (c1.inside v hv) ⟨⟨?_, ?_⟩, ?_, ?_⟩ ⟨⟨?_, ?_⟩, ?_, ?_⟩ ⟨⟨?_, ?_⟩, ?_, ?_⟩ <;> simp only <;> linarith
    · refine triangle_box (c2.inside v hv) ⟨⟨?_, ?_⟩, ?_, ?_⟩ ⟨⟨?_, ?_⟩, ?_, ?_⟩ ⟨⟨?_, ?_⟩, ?_, ?_⟩ <;> simp only <;> linarith
    · refine triangle_box (c3.inside v hv) ⟨⟨?_, ?_⟩, ?_, ?_⟩ ⟨⟨?_, ?_⟩, ?_, ?_⟩ ⟨⟨?_, ?_⟩, ?_, ?_⟩ <;> simp only <;> linarith
  have hlen : 4 ≤ R.length := by
    have : 1 ≤ f3.tail.length := by
      rcases hl : f3 with _ | ⟨x, _ | ⟨y, l⟩⟩
      · have := c3.start; rw [hl] at this; simp at this
      · have k1 := c3.start
        have k2 := c3.finish
        rw [hl] at k1 k2
        simp only [List.head?_cons, List.getLast?_singleton, Option.some.injEq] at k1 k2
        rw [k1] at k2
        simp only [Prod.mk.injEq] at k2
        linarith [k2.1]
      · simp
    rw [hq]
    simp only [List.length_append, List.length_cons, List.length_nil]
    omega
  have harea : marin R 0 0 = b * w1 + w2 * (h - w1) - t1 * (b / 2 * w1 / 2) +
        t2 * ((b / 2 - w2) * (h / 2 - w1) / 2) - t3 * (w2 * (h / 2) / 2) := by
    rw [hq, marin_chain l3 c3.start, marin_chain l2 c2.start, marin_chain l1 c1.start, c1.area, c2.area, c3.area,
      marin_cons_cons, marin_cons_cons, marin_single, (edgeTerm_explicit _ _).1, (edgeTerm_explicit _ _).1]
    simp only [det2, cross]
    ring
  have hpos : 0 < marin R 0 0 := by
    rw [harea]
    have g1 : t1 * (b / 2 * w1 / 2) ≤ b / 2 * w1 / 2 := mul_le_of_le_one_left (by positivity) c1.part.2
    have g2 : t3 * (w2 * (h / 2) / 2) ≤ w2 * (h / 2) / 2 := mul_le_of_le_one_left (by positivity) c3.part.2
    have g3 : 0 ≤ t2 * ((b / 2 - w2) * (h / 2 - w1) / 2) :=
      mul_nonneg c2.part.1 (div_nonneg (mul_nonneg (by linarith) (by linarith)) (by norm_num))
    have g4 : w2 * (h / 2) ≤ w2 * (h - w1) := mul_le_mul_of_nonneg_left (by linarith) h3.le
    have g5 : 0 < b * w1 := by positivity
    have g6 : 0 < w2 * h := by positivity
    linarith
  obtain ⟨k1, k2, k3, k4, k5⟩ := toCentroid_ring hcl hpos [] rfl
  have m1 : ((0, 0) : ℝ × ℝ) ∈ R := by rw [hm]; simp
  have m2 : ((b, 0) : ℝ × ℝ) ∈ R := by rw [hm]; simp
  have m3 : ((0, h) : ℝ × ℝ) ∈ R := by rw [hm]; simp
  refine ⟨⟨shiftLine (-(marin R 1 0 / marin R 0 0)) (-(marin R 0 1 / marin R 0 0)) R, []⟩,
    -(marin R 1 0 / marin R 0 0), -(marin R 0 1 / marin R 0 0), ?_, k2, rfl, ?_, ?_, ?_, ?_, ?_⟩
  · simp only [createL, ← hR]
    rw [ringPolygon_ok hcl hlen]
    exact congrArg Except.ok k1
  · rw [shift_box R4 ⟨_, m1, rfl⟩ ⟨_, m2, rfl⟩ ⟨_, m1, rfl⟩ ⟨_, m3, rfl⟩]
    simp only [Prod.mk.injEq]
    refine ⟨?_, ?_, ?_, ?_⟩ <;> ring
  · rw [← marin_signed k2, k3, harea]
  · rw [← marin_signed k2, k3]
    exact hpos
  · rw [← marin_signed k2, k4]
  · rw [← marin_signed k2, k5]

end angle

end SC
