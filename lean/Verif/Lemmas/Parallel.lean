import Verif.Model.Parallel
import Verif.Spec.Poly
import Mathlib.Data.List.TakeWhile

/-! Lemmas for C16. -/

set_option autoImplicit false

namespace SC

open Classical Spec Parallel

theorem evalPoly_addInto (t c : List ℝ) (h : c.length ≤ t.length) (y : ℝ) :
    evalPoly (addInto t c) y = evalPoly t y + evalPoly c y := by
  induction t generalizing c with
  | nil =>
    have : c = [] := by simpa using h
    subst this; simp [addInto, evalPoly]
  | cons a t ih =>
    cases c with
    | nil => simp [addInto, evalPoly]
    | cons b c =>
      simp only [addInto, evalPoly, ih c (by simpa using h)]; ring

theorem addInto_length (t c : List ℝ) (h : c.length ≤ t.length) : (addInto t c).length = t.length := by
  induction t generalizing c with
  | nil =>
    have : c = [] := by simpa using h
    subst this; simp [addInto]
  | cons a t ih =>
    cases c with
    | nil => simp [addInto]
    | cons b c => simp only [addInto, List.length_cons, ih c (by simpa using h)]

theorem evalPoly_zeros (n : ℕ) (y : ℝ) : evalPoly (List.replicate n 0) y = 0 := by
  induction n with
  | zero => simp [evalPoly]
  | succ n ih => simp [List.replicate_succ, evalPoly, ih]

theorem evalPoly_smul (w : ℝ) (c : List ℝ) (y : ℝ) : evalPoly (c.map fun x => w * x) y = w * evalPoly c y := by
  induction c with
  | nil => simp [evalPoly]
  | cons a c ih => simp only [List.map_cons, evalPoly, ih]; ring

theorem foldl_max_le (l : List ℕ) (a : ℕ) : a ≤ l.foldl max a ∧ ∀ x ∈ l, x ≤ l.foldl max a := by
  induction l generalizing a with
  | nil => simp
  | cons b l ih =>
    have := ih (max a b)
    simp only [List.foldl_cons, List.mem_cons, forall_eq_or_imp]
    exact ⟨by omega, by omega, this.2⟩

theorem evalPoly_foldl (cs : List (List ℝ)) (t : List ℝ) (h : ∀ c ∈ cs, c.length ≤ t.length) (y : ℝ) :
    evalPoly (cs.foldl addInto t) y = evalPoly t y + (cs.map fun c => evalPoly c y).sum := by
  induction cs generalizing t with
  | nil => simp
  | cons c cs ih =>
    have hc := h c (by simp)
    simp only [List.foldl_cons, List.map_cons, List.sum_cons]
    rw [ih _ (by intro d hd; rw [addInto_length t c hc]; exact h d (by simp [hd])),
      evalPoly_addInto t c hc]
    ring

theorem evalPoly_combine (wcs : List (ℝ × List ℝ)) (y : ℝ) :
    evalPoly (combine wcs) y = (wcs.map fun wc => wc.1 * evalPoly wc.2 y).sum := by
  simp only [combine]
  rw [evalPoly_foldl, evalPoly_zeros, zero_add, List.map_map]
  · congr 1
    apply List.map_congr_left
    intro wc _
    simp [evalPoly_smul]
  · intro c hc
    rw [List.length_replicate]
    exact (foldl_max_le _ 0).2 _ (List.mem_map_of_mem hc)

/-- the refined range lies in a given range -/
def Contains (r s : ℝ × ℝ) : Prop := r.1 ≤ s.1 ∧ s.2 ≤ r.2

theorem mapCoeffs_length (rem : List ((ℝ × ℝ) × List ℝ)) (refined : List (ℝ × ℝ)) :
    (mapCoeffs rem refined).length = refined.length := by
  induction refined generalizing rem with
  | nil => simp [mapCoeffs]
  | cons r rs ih => simp [mapCoeffs, ih]

theorem mapCoeffs_spec (refined : List (ℝ × ℝ)) : ∀ (rem : List ((ℝ × ℝ) × List ℝ)),
    rem.Pairwise (fun a b => a.1.1 ≤ b.1.1) →
    rem.Pairwise (fun a b => a.1.2 ≤ b.1.1 ∨ b.1.2 ≤ a.1.1) →
    refined.Pairwise (fun r s => r.2 ≤ s.2) → (∀ r ∈ refined, r.1 < r.2) →
    ∀ rc ∈ refined.zip (mapCoeffs rem refined),
      (∃ q ∈ rem, Contains q.1 rc.1 ∧ rc.2 = q.2) ∨
      (rc.2 = [] ∧ ∀ q ∈ rem, ¬ Contains q.1 rc.1) := by
  induction refined with
  | nil => intro rem _ _ _ _ rc h; simp at h
  | cons r rs ih =>
    intro rem hs ht hp hlt rc hrc
    simp only [mapCoeffs, List.zip_cons_cons, List.mem_cons] at hrc
    set rem' := rem.dropWhile fun rc => decide (r.2 > rc.1.2) with hrem
    have hsuf : rem' <:+ rem := List.dropWhile_suffix _
    have hdrop : ∀ q ∈ rem, q ∉ rem' → q.1.2 < r.2 := by
      intro q hq hq'
      have := List.takeWhile_append_dropWhile (p := fun rc : (ℝ × ℝ) × List ℝ => decide (r.2 > rc.1.2)) (l := rem)
      rw [← this] at hq
      rcases List.mem_append.1 hq with h | h
      · have := List.mem_takeWhile_imp h
        simpa using this
      · exact absurd h hq'
    rcases hrc with rfl | hrc
    · have hr : r.1 < r.2 := hlt r (by simp)
      cases hrem' : rem' with
      | nil =>
        right
        refine ⟨rfl, fun q hq hc => ?_⟩
        have := hdrop q hq (by rw [hrem']; simp)
        exact absurd hc.2 (not_le.2 this)
      | cons a tl =>
        simp only []
        by_cases hc : r.1 ≥ a.1.1 ∧ r.2 ≤ a.1.2
        · left
          rw [if_pos hc]
          exact ⟨a, hsuf.subset (by rw [hrem']; simp), ⟨hc.1, hc.2⟩, rfl⟩
        · right
          rw [if_neg hc]
          refine ⟨rfl, fun q hq hcq => ?_⟩
          by_cases hq' : q ∈ rem'
          · have hs' := hs.sublist hsuf.sublist
            have ht' := ht.sublist hsuf.sublist
            rw [hrem'] at hs' ht' hq'
            rcases List.mem_cons.1 hq' with rfl | hq'
            · exact hc ⟨hcq.1, hcq.2⟩
            · have h1 := (List.pairwise_cons.1 hs').1 q hq'
              have h2 := (List.pairwise_cons.1 ht').1 q hq'
              have h3 : ¬ r.2 > a.1.2 := by
                have := List.head?_dropWhile_not (fun rc : (ℝ × ℝ) × List ℝ => decide (r.2 > rc.1.2)) rem
                rw [← hrem, hrem'] at this
                simpa using this
              have h4 := hcq.1
              have h5 := hcq.2
              push Not at h3
              have h6 : r.1 < a.1.1 ∨ a.1.2 < r.2 := by
                by_contra hcon
                push Not at hcon
                exact hc ⟨hcon.1, hcon.2⟩
              rcases h6 with h6 | h6 <;> linarith
          · have := hdrop q hq hq'
            exact absurd hcq.2 (not_le.2 this)
    · have hp' := List.pairwise_cons.1 hp
      rcases ih rem' (hs.sublist hsuf.sublist) (ht.sublist hsuf.sublist) hp'.2
        (fun s hs => hlt s (by simp [hs])) rc hrc with ⟨q, hq, h⟩ | ⟨h0, h⟩
      · exact Or.inl ⟨q, hsuf.subset hq, h⟩
      · refine Or.inr ⟨h0, fun q hq hc => ?_⟩
        by_cases hq' : q ∈ rem'
        · exact h q hq' hc
        · have h1 := hdrop q hq hq'
          have h2 := hp'.1 rc.1 (List.of_mem_zip hrc).1
          have := hc.2
          linarith

/-! consecutive pairs of a sorted list -/

theorem consecutive_spec (l : List ℝ) (h : l.Pairwise (· < ·)) :
    (∀ r ∈ consecutive l, r.1 < r.2 ∧ r.1 ∈ l ∧ r.2 ∈ l ∧ ∀ b ∈ l, b ≤ r.1 ∨ r.2 ≤ b) ∧
    (consecutive l).Pairwise (fun r s => r.2 ≤ s.1) := by
  induction l with
  | nil => simp [consecutive]
  | cons a l ih =>
    cases l with
    | nil => simp [consecutive]
    | cons b l =>
      have hp := List.pairwise_cons.1 h
      obtain ⟨i1, i2⟩ := ih hp.2
      have hab : a < b := hp.1 b (by simp)
      refine ⟨?_, ?_⟩
      · intro r hr
        simp only [consecutive, List.mem_cons] at hr
        rcases hr with rfl | hr
        · refine ⟨hab, by simp, by simp, ?_⟩
          intro c hc
          rcases List.mem_cons.1 hc with rfl | hc
          · left; exact le_rfl
          · right
            rcases List.mem_cons.1 hc with rfl | hc
            · exact le_rfl
            · exact ((List.pairwise_cons.1 hp.2).1 c hc).le
        · obtain ⟨j1, j2, j3, j4⟩ := i1 r hr
          refine ⟨j1, List.mem_cons_of_mem _ j2, List.mem_cons_of_mem _ j3, ?_⟩
          intro c hc
          rcases List.mem_cons.1 hc with rfl | hc
          · left; exact (hp.1 r.1 j2).le
          · exact j4 c hc
      · simp only [consecutive, List.pairwise_cons]
        refine ⟨?_, i2⟩
        intro s hs
        obtain ⟨-, j2, -, -⟩ := i1 s hs
        rcases List.mem_cons.1 j2 with h' | h'
        · exact h'.ge
        · exact ((List.pairwise_cons.1 hp.2).1 s.1 h').le

theorem consecutive_cover (l : List ℝ) (h : l.Pairwise (· < ·)) (x : ℝ)
    (hx : ∀ r ∈ consecutive l, x < r.1 ∨ r.2 < x) :
    (∀ b ∈ l, x < b) ∨ (∀ b ∈ l, b < x) ∨ l = [x] := by
  induction l with
  | nil => simp
  | cons a l ih =>
    cases l with
    | nil => rcases lt_trichotomy x a with h | h | h <;> simp [h]
    | cons b l =>
      have hp := List.pairwise_cons.1 h
      have hab : a < b := hp.1 b (by simp)
      have := hx (a, b) (by simp [consecutive])
      rcases this with h1 | h1
      · left
        intro c hc
        rcases List.mem_cons.1 hc with rfl | hc
        · exact h1
        · exact lt_trans h1 (hp.1 c hc)
      · rcases ih hp.2 (fun r hr => hx r (by simp [consecutive, hr])) with h2 | h2 | h2
        · have := h2 b (by simp)
          simp only at h1
          linarith
        · right; left
          intro c hc
          rcases List.mem_cons.1 hc with rfl | hc
          · exact lt_trans hab h1
          · exact h2 c hc
        · simp only [List.cons.injEq] at h2
          simp only at h1
          linarith [h2.1]

theorem breakpoints_sorted (outs : List MarinOut) : (breakpoints outs).Pairwise (· < ·) := by
  unfold breakpoints
  exact Finset.sortedLT_sort _ |>.pairwise

theorem mem_breakpoints (outs : List MarinOut) (x : ℝ) : x ∈ breakpoints outs ↔
    ∃ o ∈ outs, ∃ rs, o.ranges = some rs ∧ ∃ r ∈ rs, x = r.1 ∨ x = r.2 := by
  unfold breakpoints
  simp only [Finset.mem_sort, List.mem_toFinset, List.mem_flatMap, List.mem_cons, List.not_mem_nil, or_false]
  constructor
  · rintro ⟨o, ho, r, hr, h⟩
    cases hrs : o.ranges with
    | none => simp [hrs] at hr
    | some rs => exact ⟨o, ho, rs, hrs, r, by simpa [hrs] using hr, h⟩
  · rintro ⟨o, ho, rs, hrs, r, hr, h⟩
    exact ⟨o, ho, r, by simpa [hrs] using hr, h⟩

theorem mapM_ok {α β : Type} (f : α → Except PyErr β) (g : α → β) (l : List α)
    (h : ∀ a ∈ l, f a = .ok (g a)) : l.mapM f = .ok (l.map g) := by
  induction l with
  | nil => rfl
  | cons a l ih =>
    rw [List.mapM_cons, h a (by simp), ih (fun b hb => h b (by simp [hb]))]
    rfl

/-- the sorted (range, coefficients) pairs of one law -/
noncomputable def sortedPieces (o : MarinOut) : List ((ℝ × ℝ) × List ℝ) :=
  ((o.ranges.getD []).zip o.coeffs).mergeSort fun a b => decide (a.1.1 ≤ b.1.1)

theorem sortedPieces_perm (o : MarinOut) : (sortedPieces o).Perm ((o.ranges.getD []).zip o.coeffs) :=
  List.mergeSort_perm _ _

theorem sortedPieces_sorted (o : MarinOut) :
    (sortedPieces o).Pairwise (fun a b => a.1.1 ≤ b.1.1) := by
  have := List.pairwise_mergeSort (le := fun a b : (ℝ × ℝ) × List ℝ => decide (a.1.1 ≤ b.1.1))
    (by intro a b c h1 h2; simp only [decide_eq_true_eq] at *; exact h1.trans h2)
    (by intro a b; simp only [Bool.or_eq_true, decide_eq_true_eq]; exact le_total _ _)
    ((o.ranges.getD []).zip o.coeffs)
  refine this.imp ?_
  intro a b h
  simpa using h

/-- On one refined range the piece selected for a law reproduces that law. -/
theorem selected_piece {f : ℝ → ℝ} {e0 e1 : ℝ} {ok : ℝ → Prop} {o : MarinOut} {rs : List (ℝ × ℝ)}
    (hr : o.ranges = some rs) (h : PiecesMatchInterior f e0 e1 ok rs o.coeffs)
    (bps : List ℝ) (hb : bps.Pairwise (· < ·)) (hin : ∀ r ∈ rs, r.1 ∈ bps ∧ r.2 ∈ bps)
    (rc : (ℝ × ℝ) × List ℝ)
    (hrc : rc ∈ (consecutive bps).zip (mapCoeffs (sortedPieces o) (consecutive bps)))
    (y : ℝ) (hok : ok (e0 + e1 * y)) (h1 : rc.1.1 < e0 + e1 * y) (h2 : e0 + e1 * y < rc.1.2) :
    evalPoly rc.2 y = f (e0 + e1 * y) := by
  obtain ⟨c1, c2⟩ := consecutive_spec bps hb
  have hz : (o.ranges.getD []).zip o.coeffs = rs.zip o.coeffs := by rw [hr]; rfl
  have htile : (rs.zip o.coeffs).Pairwise (fun a b => a.1.2 ≤ b.1.1 ∨ b.1.2 ≤ a.1.1) := by
    have := h.tiling.2
    have hm : rs = (rs.zip o.coeffs).map Prod.fst := by
      rw [List.map_fst_zip h.length.le]
    rw [hm, List.pairwise_map] at this
    exact this
  have htile' : (sortedPieces o).Pairwise (fun a b => a.1.2 ≤ b.1.1 ∨ b.1.2 ≤ a.1.1) := by
    have hp := sortedPieces_perm o
    rw [hz] at hp
    exact (hp.pairwise_iff (by intro a b h; exact h.symm)).2 htile
  have hmem : ∀ q, q ∈ sortedPieces o ↔ q ∈ rs.zip o.coeffs := by
    intro q; rw [(sortedPieces_perm o).mem_iff, hz]
  rcases mapCoeffs_spec (consecutive bps) (sortedPieces o) (sortedPieces_sorted o) htile'
    (c2.imp_of_mem (by
      intro r s hr' hs' hrs
      have := (c1 s hs').1
      linarith)) (fun r hr => (c1 r hr).1) rc hrc with ⟨q, hq, hc, he⟩ | ⟨he, hno⟩
  · rw [he]
    exact h.inside q ((hmem q).1 hq) y hok (lt_of_le_of_lt hc.1 h1) (lt_of_lt_of_le h2 hc.2)
  · rw [he]
    simp only [evalPoly]
    symm
    refine h.outside y hok fun r hr' => ?_
    have hrc1 := (List.of_mem_zip hrc).1
    obtain ⟨-, -, -, d⟩ := c1 rc.1 hrc1
    obtain ⟨b1, b2⟩ := hin r hr'
    have hnc : ¬ Contains r rc.1 := by
      obtain ⟨i, hi, rfl⟩ := List.mem_iff_getElem.1 hr'
      have hi' : i < o.coeffs.length := h.length ▸ hi
      have hz' : (rs[i], o.coeffs[i]) ∈ rs.zip o.coeffs := by
        rw [List.mem_iff_getElem]
        exact ⟨i, by simp [hi, hi'], by simp⟩
      exact hno _ ((hmem _).2 hz')
    rcases d r.1 b1 with d1 | d1
    · rcases d r.2 b2 with d2 | d2
      · right; linarith
      · exact absurd ⟨d1, d2⟩ hnc
    · left; linarith

end SC
