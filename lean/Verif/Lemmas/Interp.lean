import Verif.Model.UserDefined
import Verif.Lemmas.LawsBounds
import Verif.Spec.Poly

/-! Lemmas on `np.interp` over strictly increasing nodes. -/

set_option autoImplicit false

namespace SC

/-- Strictly increasing abscissae. -/
def Increasing (pts : List (ℝ × ℝ)) : Prop := pts.Pairwise fun p q => p.1 < q.1

/-- the chord through two points -/
noncomputable def chord (p q : ℝ × ℝ) (x : ℝ) : ℝ := p.2 + (q.2 - p.2) / (q.1 - p.1) * (x - p.1)

theorem chord_left (p q : ℝ × ℝ) : chord p q p.1 = p.2 := by simp [chord]
theorem chord_right (p q : ℝ × ℝ) (h : p.1 < q.1) : chord p q q.1 = q.2 := by
  have : q.1 - p.1 ≠ 0 := by linarith
  unfold chord; field_simp; ring

theorem interpGo_head (p : ℝ × ℝ) (post : List (ℝ × ℝ)) (h : Increasing (p :: post)) (r : ℝ) :
    interpGo p.1 r (p :: post) = p.2 := by
  cases post with
  | nil => simp [interpGo]
  | cons q post =>
    have : p.1 < q.1 := by
      unfold Increasing at h; exact (List.pairwise_cons.1 h).1 q (by simp)
    simp [interpGo, this]

theorem interpGo_segment (pre : List (ℝ × ℝ)) (p q : ℝ × ℝ) (post : List (ℝ × ℝ))
    (h : Increasing (pre ++ p :: q :: post)) {x : ℝ} (h1 : p.1 ≤ x) (h2 : x ≤ q.1) (r : ℝ) :
    interpGo x r (pre ++ p :: q :: post) = chord p q x := by
  induction pre with
  | nil =>
    have hpq : p.1 < q.1 := (List.pairwise_cons.1 h).1 q (by simp)
    rcases h2.lt_or_eq with h2 | h2
    · simp [interpGo, h2, chord]; ring
    · subst h2
      have : Increasing (q :: post) := (List.pairwise_cons.1 h).2
      simp only [List.nil_append, interpGo, lt_irrefl, if_false]
      rw [chord_right _ _ hpq]
      exact interpGo_head q post this r
  | cons a pre ih =>
    have h' : Increasing (pre ++ p :: q :: post) := (List.pairwise_cons.1 h).2
    have ih := ih h'
    cases pre with
    | nil =>
      simp only [List.nil_append, List.cons_append] at *
      have : ¬ x < p.1 := not_lt.2 h1
      simp only [interpGo, this, if_false]
      exact ih
    | cons b pre =>
      simp only [List.cons_append] at *
      have hb : b.1 < p.1 := (List.pairwise_cons.1 h').1 p (by simp)
      have : ¬ x < b.1 := not_lt.2 (by linarith)
      rw [interpGo, if_neg this]
      exact ih

theorem interp_segment (pre : List (ℝ × ℝ)) (p q : ℝ × ℝ) (post : List (ℝ × ℝ))
    (h : Increasing (pre ++ p :: q :: post)) {x : ℝ} (h1 : p.1 ≤ x) (h2 : x ≤ q.1) (l r : ℝ) :
    interp x (pre ++ p :: q :: post) l r = chord p q x := by
  rw [← interpGo_segment pre p q post h h1 h2 r]
  cases pre with
  | nil =>
    have : ¬ x < p.1 := not_lt.2 h1
    simp [interp, this]
  | cons a pre =>
    have ha : a.1 < p.1 := (List.pairwise_cons.1 h).1 p (by simp)
    have : ¬ x < a.1 := not_lt.2 (by linarith)
    simp [interp, this]

theorem interp_left (p : ℝ × ℝ) (post : List (ℝ × ℝ)) {x : ℝ} (h : x < p.1) (l r : ℝ) :
    interp x (p :: post) l r = l := by simp [interp, h]

theorem interpGo_right (pts : List (ℝ × ℝ)) {x : ℝ} (h : ∀ p ∈ pts, p.1 < x) (r : ℝ) :
    interpGo x r pts = r := by
  induction pts with
  | nil => rfl
  | cons p pts ih =>
    cases pts with
    | nil =>
      have : x ≠ p.1 := (h p (by simp)).ne'
      simp [interpGo, this]
    | cons q pts =>
      have : ¬ x < q.1 := not_lt.2 (h q (by simp)).le
      rw [interpGo, if_neg this]
      exact ih (fun p hp => h p (by simp [hp]))

theorem interp_right (pts : List (ℝ × ℝ)) {x : ℝ} (h : ∀ p ∈ pts, p.1 < x) (l r : ℝ) :
    interp x pts l r = r := by
  cases pts with
  | nil => rfl
  | cons p pts =>
    have : ¬ x < p.1 := not_lt.2 (h p (by simp)).le
    simp only [interp, this, if_false]
    exact interpGo_right _ h r

/-- Where a value can be relative to sorted nodes. -/
theorem locate (p : ℝ × ℝ) (pts : List (ℝ × ℝ)) (x : ℝ) (hs : Increasing (p :: pts)) :
    x < p.1 ∨ (∀ q ∈ p :: pts, q.1 < x) ∨ (pts = [] ∧ x = p.1) ∨
      ∃ pre a b post, p :: pts = pre ++ a :: b :: post ∧ a.1 ≤ x ∧ x ≤ b.1 := by
  induction pts generalizing p with
  | nil =>
    rcases lt_trichotomy x p.1 with h | h | h
    · exact .inl h
    · exact .inr (.inr (.inl ⟨rfl, h⟩))
    · exact .inr (.inl (by simpa using h))
  | cons q pts ih =>
    rcases lt_or_ge x p.1 with h | h
    · exact .inl h
    · rcases le_or_gt x q.1 with h' | h'
      · exact .inr (.inr (.inr ⟨[], p, q, pts, rfl, h, h'⟩))
      · rcases ih q (List.pairwise_cons.1 hs).2 with c | c | ⟨-, c⟩ | ⟨pre, a, b, post, e, c1, c2⟩
        · linarith
        · refine .inr (.inl ?_)
          intro r hr
          rcases List.mem_cons.1 hr with rfl | hr
          · have := (List.pairwise_cons.1 hs).1 q (by simp); linarith
          · exact c r hr
        · linarith
        · exact .inr (.inr (.inr ⟨p :: pre, a, b, post, by rw [e]; rfl, c1, c2⟩))

end SC

namespace SC

open Spec

theorem searchsorted_append (pre : List ℝ) (x a : ℝ) (rest : List ℝ) (h : ∀ b ∈ pre, b < x)
    (ha : a < x) (c : ℝ) (hc : x ≤ c) : searchsorted (pre ++ a :: c :: rest) x = pre.length + 1 := by
  induction pre with
  | nil => simp [searchsorted, ha, not_lt.2 hc]
  | cons b pre ih =>
    have hb := h b (by simp)
    simp only [List.cons_append, searchsorted, hb, if_true, List.length_cons]
    rw [ih (fun b hb => h b (by simp [hb]))]

theorem slopes_append (pre : List (ℝ × ℝ)) (p q : ℝ × ℝ) (post : List (ℝ × ℝ)) :
    (UserDefined.slopes (pre ++ p :: q :: post))[pre.length]? = some ((q.2 - p.2) / (q.1 - p.1)) := by
  induction pre with
  | nil => rcases p with ⟨a, b⟩; rcases q with ⟨c, d⟩; simp [UserDefined.slopes]
  | cons a pre ih =>
    cases pre with
    | nil => 
      rcases a with ⟨a1, a2⟩; rcases p with ⟨b1, b2⟩
      simpa [UserDefined.slopes] using ih
    | cons b pre =>
      rcases a with ⟨a1, a2⟩; rcases b with ⟨b1, b2⟩
      simpa [UserDefined.slopes] using ih

/-- tangent on a half-open segment -/
theorem UserDefined.tangent_segment (l : UserDefined) (hs : Increasing l.pts)
    {pre post : List (ℝ × ℝ)} {p q : ℝ × ℝ} (hp : l.pts = pre ++ p :: q :: post) {e : ℝ}
    (h1 : p.1 < e) (h2 : e ≤ q.1) : l.tangent e = (q.2 - p.2) / (q.1 - p.1) := by
  rw [hp] at hs
  have hpre : ∀ b ∈ pre, b.1 < p.1 := fun b hb => (List.pairwise_append.1 hs).2.2 b hb p (by simp)
  have hpost : ∀ b ∈ post, q.1 < b.1 := by
    have := (List.pairwise_append.1 hs).2.1
    exact (List.pairwise_cons.1 (List.pairwise_cons.1 this).2).1
  have hss : searchsorted (l.pts.map Prod.fst) e = pre.length + 1 := by
    rw [hp]
    simp only [List.map_append, List.map_cons]
    have := searchsorted_append (pre.map Prod.fst) e p.1 (post.map Prod.fst)
      (by intro b hb; obtain ⟨b', hb', rfl⟩ := List.mem_map.1 hb; linarith [hpre b' hb']) h1 q.1 h2
    simpa using this
  have hsl := slopes_append pre p q post
  rw [← hp] at hsl
  have hlt : pre.length < (UserDefined.slopes l.pts).length := by
    by_contra hc
    rw [List.getElem?_eq_none (not_lt.1 hc)] at hsl
    cases hsl
  have hslope : l.slopeAt e = (q.2 - p.2) / (q.1 - p.1) := by
    simp only [UserDefined.slopeAt, hss, Nat.add_sub_cancel]
    rw [min_eq_left (by omega), List.getD_eq_getElem?_getD, hsl]; rfl
  have hhead : ¬ e < (l.pts.map Prod.fst).headD 0 := by
    rw [hp]
    cases pre with
    | nil => simp; exact h1.le
    | cons a pre => simp; linarith [hpre a (by simp)]
  have hlast : ¬ e > (l.pts.map Prod.fst).getLastD 0 := by
    rw [hp]
    have : ∀ b ∈ (q :: post), q.1 ≤ b.1 := by
      intro b hb
      rcases List.mem_cons.1 hb with rfl | hb
      · exact le_rfl
      · exact (hpost b hb).le
    have h3 := this ((q :: post).getLast (by simp)) (List.getLast_mem _)
    have h4 : (List.map Prod.fst (pre ++ p :: q :: post)).getLastD 0 = ((q :: post).getLast (by simp)).1 := by
      rw [List.getLastD_eq_getLast?, List.getLast?_map]
      have : (pre ++ p :: q :: post) = (pre ++ [p]) ++ (q :: post) := by simp
      rw [this, List.getLast?_append_of_ne_nil _ (by simp), List.getLast?_eq_getLast_of_ne_nil (by simp)]
      rfl
    rw [h4]; linarith
  unfold UserDefined.tangent
  simp only []
  rw [if_neg (by push Not; exact ⟨not_lt.1 hhead, not_lt.1 hlast⟩), hslope]

theorem marinFind_eq (pts : List (ℝ × ℝ)) (hs : Increasing pts) (h2 : 2 ≤ pts.length) (e0 y : ℝ) :
    evalPoly (UserDefined.marinFind e0 0 pts) y = interp e0 pts 0 0 := by
  induction pts with
  | nil => simp at h2
  | cons p pts ih =>
    cases pts with
    | nil => simp at h2
    | cons q pts =>
      rcases p with ⟨a, b⟩; rcases q with ⟨c, d⟩
      have hac : a < c := (List.pairwise_cons.1 hs).1 (c, d) (by simp)
      have hs' : Increasing ((c, d) :: pts) := (List.pairwise_cons.1 hs).2
      by_cases hin : a ≤ e0 ∧ c ≥ e0
      · have := interp_segment [] (a, b) (c, d) pts hs hin.1 hin.2 0 0
        simp only [List.nil_append] at this
        rw [this]
        simp only [UserDefined.marinFind, if_pos hin, evalPoly, chord]; ring
      · simp only [UserDefined.marinFind, if_neg hin]
        cases pts with
        | nil =>
          simp only [UserDefined.marinFind, evalPoly]
          by_cases h : e0 < a
          · simp [interp, h]
          · have : c < e0 := by
              by_contra hc; exact hin ⟨not_lt.1 h, not_lt.1 hc⟩
            rw [interp_right]
            · simp
            · intro p hp
              simp at hp
              rcases hp with rfl | rfl <;> simp only <;> linarith
        | cons r pts =>
          rw [ih hs' (by simp)]
          by_cases h : e0 < a
          · have h' : e0 < c := by linarith
            simp [interp, h, h']
          · have h' : c < e0 := by
              by_contra hc; exact hin ⟨not_lt.1 h, not_lt.1 hc⟩
            have h'' : ¬ e0 < c := not_lt.2 h'.le
            simp [interp, interpGo, h, h'']

theorem zip_marin (e0 e1 : ℝ) (pts : List (ℝ × ℝ)) :
    ∀ rc ∈ (UserDefined.marinRanges pts).zip (UserDefined.marinCoeffs e0 e1 pts),
      ∃ pre p q post, pts = pre ++ p :: q :: post ∧ rc.1 = (p.1, q.1) ∧
        rc.2 = [(q.2 - p.2) / (q.1 - p.1) * (e0 - p.1) + p.2, (q.2 - p.2) / (q.1 - p.1) * e1] := by
  induction pts with
  | nil => simp [UserDefined.marinRanges]
  | cons p pts ih =>
    cases pts with
    | nil => simp [UserDefined.marinRanges]
    | cons q pts =>
      rcases p with ⟨a, b⟩; rcases q with ⟨c, d⟩
      intro rc hrc
      simp only [UserDefined.marinRanges, UserDefined.marinCoeffs, List.zip_cons_cons, List.mem_cons] at hrc
      rcases hrc with rfl | hrc
      · exact ⟨[], (a, b), (c, d), pts, rfl, rfl, rfl⟩
      · obtain ⟨pre, p, q, post, he, h1, h2⟩ := ih rc hrc
        exact ⟨(a, b) :: pre, p, q, post, by rw [he]; rfl, h1, h2⟩

theorem zip_marinT (pts : List (ℝ × ℝ)) :
    ∀ rc ∈ (UserDefined.marinRanges pts).zip ((UserDefined.slopes pts).map fun s => [s]),
      ∃ pre p q post, pts = pre ++ p :: q :: post ∧ rc.1 = (p.1, q.1) ∧
        rc.2 = [(q.2 - p.2) / (q.1 - p.1)] := by
  induction pts with
  | nil => simp [UserDefined.marinRanges]
  | cons p pts ih =>
    cases pts with
    | nil => simp [UserDefined.marinRanges]
    | cons q pts =>
      rcases p with ⟨a, b⟩; rcases q with ⟨c, d⟩
      intro rc hrc
      simp only [UserDefined.marinRanges, UserDefined.slopes, List.map_cons, List.zip_cons_cons,
        List.mem_cons] at hrc
      rcases hrc with rfl | hrc
      · exact ⟨[], (a, b), (c, d), pts, rfl, rfl, rfl⟩
      · obtain ⟨pre, p, q, post, he, h1, h2⟩ := ih rc hrc
        exact ⟨(a, b) :: pre, p, q, post, by rw [he]; rfl, h1, h2⟩

theorem mem_marinRanges (pre : List (ℝ × ℝ)) (p q : ℝ × ℝ) (post : List (ℝ × ℝ)) :
    (p.1, q.1) ∈ UserDefined.marinRanges (pre ++ p :: q :: post) := by
  induction pre with
  | nil => rcases p with ⟨a, b⟩; rcases q with ⟨c, d⟩; simp [UserDefined.marinRanges]
  | cons a pre ih =>
    cases pre with
    | nil =>
      rcases a with ⟨a1, a2⟩; rcases p with ⟨b1, b2⟩
      simp only [List.nil_append, List.cons_append, UserDefined.marinRanges, List.mem_cons] at ih ⊢
      exact .inr ih
    | cons b pre =>
      rcases a with ⟨a1, a2⟩; rcases b with ⟨b1, b2⟩
      simp only [List.cons_append, UserDefined.marinRanges, List.mem_cons] at ih ⊢
      exact .inr ih

theorem marinRanges_lengths (e0 e1 : ℝ) (pts : List (ℝ × ℝ)) :
    (UserDefined.marinRanges pts).length = (UserDefined.marinCoeffs e0 e1 pts).length ∧
    (UserDefined.marinRanges pts).length = (UserDefined.slopes pts).length := by
  induction pts with
  | nil => simp [UserDefined.marinRanges, UserDefined.marinCoeffs, UserDefined.slopes]
  | cons p pts ih =>
    cases pts with
    | nil => simp [UserDefined.marinRanges, UserDefined.marinCoeffs, UserDefined.slopes]
    | cons q pts =>
      rcases p with ⟨a, b⟩; rcases q with ⟨c, d⟩
      simpa [UserDefined.marinRanges, UserDefined.marinCoeffs, UserDefined.slopes] using ih

theorem marinRanges_tiling (pts : List (ℝ × ℝ)) (hs : Increasing pts) :
    Tiling (UserDefined.marinRanges pts) ∧
      ∀ p rest, pts = p :: rest → ∀ r ∈ UserDefined.marinRanges pts, p.1 ≤ r.1 := by
  induction pts with
  | nil => simp [UserDefined.marinRanges, Tiling]
  | cons p pts ih =>
    cases pts with
    | nil => simp [UserDefined.marinRanges, Tiling]
    | cons q pts =>
      rcases p with ⟨a, b⟩; rcases q with ⟨c, d⟩
      have hac : a < c := (List.pairwise_cons.1 hs).1 (c, d) (by simp)
      have ih := ih (List.pairwise_cons.1 hs).2
      have hge := ih.2 (c, d) pts rfl
      refine ⟨⟨?_, ?_⟩, ?_⟩
      · intro r hr
        simp only [UserDefined.marinRanges, List.mem_cons] at hr
        rcases hr with rfl | hr
        · exact hac.le
        · exact ih.1.1 r hr
      · simp only [UserDefined.marinRanges, List.pairwise_cons]
        exact ⟨fun r hr => .inl (hge r hr), ih.1.2⟩
      · rintro p rest he r hr
        cases he
        simp only [UserDefined.marinRanges, List.mem_cons] at hr
        rcases hr with rfl | hr
        · exact le_rfl
        · have := hge r hr; simp only at this ⊢; linarith

end SC
