import Verif.Props.RCCurvature

/-! # C78: a moment-curvature diagram as a chain of searches -/

set_option autoImplicit false

namespace SC

open Spec MeasureTheory

/-- The axial force of the section under the axial strain `e` and the curvature `c` about the axis inclined by `th`. -/
noncomputable def planeForce (S : CrossSection) (th e c : ℝ) : ℝ := S.forces ![e, c * Real.cos th, c * Real.sin th] 0

/-- The axial strains `es` are what the searches at the curvatures `cs` return, each started from the strain before. -/
inductive Chain (N : ℝ → ℝ → ℝ) (n : ℝ) : ℝ → List ℝ → List ℝ → Prop
  | nil (e : ℝ) : Chain N n e [] []
  | cons {e c x : ℝ} {cs xs : List ℝ} {k : ℕ} (h : fixedCurvature N n c e = some (.ok (x, c, 0), k)) (t : Chain N n x cs xs) :
      Chain N n e (c :: cs) (x :: xs)

/-- Each strain of a chain is what the search returns, started from the strain before. -/
theorem Chain.step {N : ℝ → ℝ → ℝ} {n e0 : ℝ} {cs es : List ℝ} (h : Chain N n e0 cs es) :
    ∀ {α : Type} (xs : List α) (g : α → ℝ) (v : α → ℝ × ℝ) (w : ℝ → ℝ × ℝ), xs.map g = es → xs.map v = cs.map w →
    ∀ q ∈ (e0 :: es).zip xs, ∃ c ∈ cs, ∃ k, v q.2 = w c ∧ fixedCurvature N n c q.1 = some (.ok (g q.2, c, 0), k) := by
  induction h with
  | nil e =>
    intro α xs g v w hg _ q hq
    rw [List.map_eq_nil_iff] at hg
    subst hg
    simp at hq
  | @cons e c x cs es k h t ih =>
    intro α xs g v w hg hv q hq
    cases xs with
    | nil => simp at hq
    | cons y ys =>
      simp only [List.map_cons, List.cons.injEq] at hg hv
      rw [List.zip_cons_cons, List.mem_cons] at hq
      rcases hq with rfl | hq
      · exact ⟨c, by simp, k, hv.1, by rw [hg.1]; exact h⟩
      · obtain ⟨c', hc', k', h1, h2⟩ := ih ys g v w hg.2 hv.2 q hq
        exact ⟨c', by simp [hc'], k', h1, h2⟩

theorem consecutive {α : Type} (g : α → ℝ) (e0 : ℝ) : ∀ (xs : List α), ∀ q ∈ xs.zip xs.tail, (g q.1, q.2) ∈ (e0 :: xs.map g).zip xs
  | [], q, hq => by simp at hq
  | x :: xs, q, hq => by
    rw [List.tail_cons] at hq
    rw [List.map_cons, List.zip_cons_cons, List.mem_cons]
    right
    rw [← List.map_cons, List.zip_map_left]
    exact List.mem_map.2 ⟨q, hq, rfl⟩

/-- The search on the turned section with cached data. -/
theorem curvature_search {E : Engine} {D : List Group} {S : CrossSection} {th c : ℝ} (hA : E.AnswersAt D S th c) (n e0 : ℝ)
    (lim : Option (ℝ × ℝ)) : curvatureM E (-th) n c e0 ⟨some (D.map (rotGroup (-th))), lim⟩ =
      (⟨some (D.map (rotGroup (-th))), lim⟩, searchResult (fixedCurvature (planeForce S th) n c e0)) := by
  obtain ⟨F1, hF1, -⟩ := hA e0 defaultMesh
  unfold curvatureM
  rw [CalcM.bind_ok (s' := ⟨some (D.map (rotGroup (-th))), lim⟩) (a := .forces F1) (by rw [call_some, hF1])]
  simp only [withData]
  rw [fixedCurvatureE_at (N' := planeForce S th) (fun e => by
    obtain ⟨F, h1, h2, -⟩ := hA e defaultMesh
    rw [oracleN, h1]
    simp only [Response.N, h2]
    rfl)]

/-- The points of a diagram are a chain. -/
theorem mcLoop_chain {E : Engine} {D : List Group} {S : CrossSection} {th : ℝ} (n : ℝ) (lim : Option (ℝ × ℝ)) :
    ∀ (chis : List ℝ) (e0 : ℝ) (s' : CalcState) (pts : List MCPoint), (∀ c ∈ chis, E.AnswersAt D S th c) →
    mcLoop E th n e0 chis ⟨some (D.map (rotGroup (-th))), lim⟩ = (s', .ok pts) →
    Chain (planeForce S th) n e0 chis (pts.map Prod.fst) ∧
    pts.map (fun p => p.2.2) = chis.map (fun c => (c * Real.cos th, c * Real.sin th)) ∧
    ∀ p ∈ pts, (S.forces p.plane 1, S.forces p.plane 2) = p.2.1 := by
  intro chis
  induction chis with
  | nil =>
    intro e0 s' pts _ h
    simp only [mcLoop, CalcM.pure_def, Prod.mk.injEq, Except.ok.injEq] at h
    rw [← h.2]
    exact ⟨.nil _, rfl, by simp⟩
  | cons c chis ih =>
    intro e0 s' pts hA h
    have hAc := hA c (by simp)
    rw [mcLoop] at h
    obtain ⟨s1, v, hv, h⟩ := CalcM.bind_eq_ok h
    rw [curvature_search hAc, Prod.mk.injEq] at hv
    obtain ⟨rfl, hv⟩ := hv
    obtain ⟨e, c', z, k, hrun, rfl⟩ := searchResult_ok hv
    have hcz : c' = c ∧ z = 0 := by
      rw [← fixedCurvatureE_pure] at hrun
      obtain ⟨h1, h2⟩ := fixedCurvatureE_snd hrun
      exact ⟨h1, h2⟩
    obtain ⟨rfl, rfl⟩ := hcz
    obtain ⟨F, hF1, hF2, hF3⟩ := hAc e defaultMesh
    rw [CalcM.bind_ok (s' := ⟨some (D.map (rotGroup (-th))), lim⟩) (a := .forces F) (by rw [call_some, hF1])] at h
    obtain ⟨s2, tail, ht, h⟩ := CalcM.bind_eq_ok h
    obtain ⟨ih1, ih2, ih3⟩ := ih _ _ _ (fun c hc => hA c (by simp [hc])) ht
    simp only [CalcM.pure_def, Prod.mk.injEq, Except.ok.injEq] at h
    obtain ⟨-, rfl⟩ := h
    have hchi : rot2 th (c', 0) = (c' * Real.cos th, c' * Real.sin th) := by
      simp only [rot2, rotPt, Prod.mk.injEq]; constructor <;> ring
    refine ⟨.cons hrun ih1, ?_, ?_⟩
    · simp only [List.map_cons, ih2, hchi]
    · intro p hp
      rcases List.mem_cons.1 hp with rfl | hp
      · simp only [MCPoint.plane, Response.M, hchi, Matrix.cons_val]
        rw [show rot2 th (F 1, F 2) = rotPt th (F 1, F 2) from rfl, hF3]
      · exact ih3 p hp

/-- A chain is returned as a diagram. -/
theorem chain_mcLoop {E : Engine} {D : List Group} {S : CrossSection} {th : ℝ} {n : ℝ} (lim : Option (ℝ × ℝ)) {chis es : List ℝ} {e0 : ℝ}
    (h : Chain (planeForce S th) n e0 chis es) (hA : ∀ c ∈ chis, E.AnswersAt D S th c) :
    ∃ pts : List MCPoint, mcLoop E th n e0 chis ⟨some (D.map (rotGroup (-th))), lim⟩ =
      (⟨some (D.map (rotGroup (-th))), lim⟩, .ok pts) ∧ pts.map Prod.fst = es := by
  induction h with
  | nil e => exact ⟨[], rfl, rfl⟩
  | @cons e c x cs xs k h t ih =>
    have hAc := hA c (by simp)
    obtain ⟨pts, h1, h2⟩ := ih fun c hc => hA c (by simp [hc])
    obtain ⟨F, hF1, -⟩ := hAc x defaultMesh
    refine ⟨(x, rot2 th (F 1, F 2), rot2 th (c, 0)) :: pts, ?_, by simp [h2]⟩
    rw [mcLoop, CalcM.bind_ok (s' := ⟨some (D.map (rotGroup (-th))), lim⟩) (a := ![x, c, 0]) (by rw [curvature_search hAc, h]; rfl),
      CalcM.bind_ok (s' := ⟨some (D.map (rotGroup (-th))), lim⟩) (a := .forces F) (by rw [call_some, hF1])]
    rw [CalcM.bind_ok (show mcLoop E th n ((![x, c, 0] : Fin 3 → ℝ) 0) cs _ = _ from h1)]
    rfl

/-- A search that fails ends the diagram. -/
theorem chain_mcLoop_error {E : Engine} {D : List Group} {S : CrossSection} {th : ℝ} {n : ℝ} (lim : Option (ℝ × ℝ)) {chis es : List ℝ}
    {e0 c : ℝ} {rest : List ℝ} {err : PyErr} (h : Chain (planeForce S th) n e0 chis es) (hA : ∀ c ∈ chis, E.AnswersAt D S th c)
    (hAc : E.AnswersAt D S th c)
    (hlast : ∃ k, fixedCurvature (planeForce S th) n c ((e0 :: es).getLast (by simp)) = some (.error err, k)) :
    (mcLoop E th n e0 (chis ++ c :: rest) ⟨some (D.map (rotGroup (-th))), lim⟩).2 = .error err := by
  induction h with
  | nil e =>
    obtain ⟨k, hk⟩ := hlast
    simp only [List.getLast_singleton] at hk
    rw [List.nil_append, mcLoop, CalcM.bind_error (s' := ⟨some (D.map (rotGroup (-th))), lim⟩) (e := err)
      (by rw [curvature_search hAc, hk]; rfl)]
  | @cons e c' x cs xs k h t ih =>
    have hAc' := hA c' (by simp)
    have := ih (fun c hc => hA c (by simp [hc])) (by simpa using hlast)
    obtain ⟨F, hF1, -⟩ := hAc' x defaultMesh
    rw [List.cons_append, mcLoop,
      CalcM.bind_ok (s' := ⟨some (D.map (rotGroup (-th))), lim⟩) (a := ![x, c', 0]) (by rw [curvature_search hAc', h]; rfl),
      CalcM.bind_ok (s' := ⟨some (D.map (rotGroup (-th))), lim⟩) (a := .forces F) (by rw [call_some, hF1])]
    obtain ⟨s', hs'⟩ : ∃ s', mcLoop E th n ((![x, c', 0] : Fin 3 → ℝ) 0) (cs ++ c :: rest) ⟨some (D.map (rotGroup (-th))), lim⟩ =
        (s', .error err) := ⟨_, Prod.ext rfl this⟩
    rw [CalcM.bind_error hs']

/-- The pivot search on the turned section with cached data. -/
theorem pivot_search {E : Engine} {D : List Group} {S : CrossSection} {th : ℝ} (hA : E.Answers D S th) (n : ℝ) {y : Bool}
    {yn yp : ℝ} {st : Fin 3 → ℝ} (hbal : E.balanced (-th) y = .ok (yn, yp, st)) (hsteep : st 1 < 0) (hst2 : st 2 = 0)
    (lim : Option (ℝ × ℝ)) : pivotM E (-th) n y ⟨some (D.map (rotGroup (-th))), lim⟩ =
      (⟨some (D.map (rotGroup (-th))), lim⟩, searchResult (fixedPivotFrom (planeForce S th) n yn yp st)) := by
  have hst : st = ![st 0, st 1, 0] := by funext i; fin_cases i; rfl; rfl; exact hst2
  obtain ⟨F1, hF1, -⟩ := hA (st 1) hsteep (st 0) E.meshSize
  rw [← hst] at hF1
  have hN : ∀ e c, c < 0 → oracleN E (-th) (some (D.map (rotGroup (-th)))) e c = .ok (planeForce S th e c) := by
    intro e c hc
    obtain ⟨F, h1, h2, -⟩ := hA c hc e defaultMesh
    rw [oracleN, h1]
    simp only [Response.N, h2]
    rfl
  unfold pivotM
  rw [CalcM.bind_ok (s' := ⟨some (D.map (rotGroup (-th))), lim⟩) (a := (yn, yp, st)) (by simp only [liftE, hbal])]
  rw [CalcM.bind_ok (s' := ⟨some (D.map (rotGroup (-th))), lim⟩) (a := .forces F1) (by rw [call_some, hF1])]
  simp only [withData, fixedPivotFromE_congr hN hsteep]

/-- A diagram that was returned: the load was accepted, the searches form a chain over the curvatures. -/
theorem mc_chain {E : Engine} {base : ℝ → Except PyErr (List Group)} (hE : E.Lawful base) {D : List Group}
    (hD : base E.meshSize = .ok D) {S : CrossSection} {th : ℝ} (hA : E.Answers D S th)
    {n cf : ℝ} {a b : ℕ} {chi : Option (List ℝ)} (hchi : ∀ l, chi = some l → ∀ c ∈ l, c < 0) (hcf : cf ≠ 0) (ha : 1 ≤ a)
    {yn yp yn' yp' : ℝ} {st sty : Fin 3 → ℝ} (hbal : E.balanced (-th) false = .ok (yn, yp, st))
    (hbaly : E.balanced (-th) true = .ok (yn', yp', sty)) (hst : st 1 ≤ -1e-13) (hsty : sty 1 ≤ -1e-13)
    (hst2 : st 2 = 0) (hsty2 : sty 2 = 0)
    {s : CalcState} (hs : Canonical E base s) {pts : List MCPoint} (hrun : (momentCurvature E th n cf a b chi s).2 = .ok pts) :
    ∃ grid : List ℝ, Chain (planeForce S th) n 0 grid (pts.map Prod.fst) ∧
      pts.map (fun p => p.2.2) = grid.map (fun c => (c * Real.cos th, c * Real.sin th)) ∧
      (∀ p ∈ pts, (S.forces p.plane 1, S.forces p.plane 2) = p.2.1) ∧
      (∀ l, chi = some l → grid = l) ∧
      (chi = none → ∃ eu cu ku ey cy ky, fixedPivotFrom (planeForce S th) n yn yp st = some (.ok (eu, cu, 0), ku) ∧
        fixedPivotFrom (planeForce S th) n yn' yp' sty = some (.ok (ey, cy, 0), ky) ∧ grid = curvatureGrid cf cy cu a b) := by
  have hneg : st 1 < 0 := lt_of_le_of_lt hst (by norm_num)
  have hnegy : sty 1 < 0 := lt_of_le_of_lt hsty (by norm_num)
  have h : momentCurvature E th n cf a b chi s = (_, .ok pts) := Prod.ext rfl hrun
  obtain ⟨s1, _, hc, h⟩ := CalcM.bind_eq_ok h
  obtain ⟨D', L, hD', rfl⟩ := check_ok_state hE hs hc
  rw [hD] at hD'
  cases hD'
  obtain ⟨s2, _, hr, h⟩ := CalcM.bind_eq_ok h
  simp only [rotateData, Option.map_some, Prod.mk.injEq, and_true] at hr
  subst hr
  obtain ⟨s3, g, hg, h⟩ := CalcM.bind_eq_ok h
  obtain ⟨s4, p, hp, h⟩ := CalcM.bind_eq_ok h
  obtain ⟨s5, _, h5, h⟩ := CalcM.bind_eq_ok h
  simp only [CalcM.pure_def, Prod.mk.injEq, Except.ok.injEq] at h
  obtain ⟨-, rfl⟩ := h
  cases chi with
  | some l =>
    simp only [CalcM.pure_def, Prod.mk.injEq, Except.ok.injEq] at hg
    obtain ⟨rfl, rfl⟩ := hg
    obtain ⟨h1, h2, h3⟩ := mcLoop_chain n _ _ _ _ _ (fun c hc => hA c (hchi _ rfl c hc)) hp
    exact ⟨l, h1, h2, h3, fun l' hl' => by cases hl'; rfl, by simp⟩
  | none =>
    simp only at hg
    obtain ⟨s6, su, hsu, hg⟩ := CalcM.bind_eq_ok hg
    rw [pivot_search hA n hbal hneg hst2, Prod.mk.injEq] at hsu
    obtain ⟨rfl, hsu⟩ := hsu
    obtain ⟨eu, cu, z, ku, hu, rfl⟩ := searchResult_ok hsu
    obtain ⟨s7, sy, hsy, hg⟩ := CalcM.bind_eq_ok hg
    rw [pivot_search hA n hbaly hnegy hsty2, Prod.mk.injEq] at hsy
    obtain ⟨rfl, hsy⟩ := hsy
    obtain ⟨ey, cy, z', ky, hy, rfl⟩ := searchResult_ok hsy
    obtain ⟨rfl, -⟩ := fixedPivotFrom_spec _ _ _ _ _ _ _ _ _ hu
    obtain ⟨rfl, -⟩ := fixedPivotFrom_spec _ _ _ _ _ _ _ _ _ hy
    obtain ⟨hcu, hcu0⟩ := pivot_curvature hst hu
    obtain ⟨hcy, hcy0⟩ := pivot_curvature hsty hy
    have hpos : ¬ (![eu, cu, 0] : Fin 3 → ℝ) 1 * (![ey, cy, 0] : Fin 3 → ℝ) 1 < 0 := by
      simp only [Matrix.cons_val]
      exact not_lt.2 (mul_nonneg_of_nonpos_of_nonpos hcu0.le hcy0.le)
    rw [if_neg hpos] at hg
    simp only [CalcM.pure_def, Prod.mk.injEq, Except.ok.injEq, Matrix.cons_val] at hg
    obtain ⟨rfl, rfl⟩ := hg
    obtain ⟨h1, h2, h3⟩ := mcLoop_chain n _ _ _ _ _ (fun c hc => hA c (grid_neg (b := b) hcf hcy0 hcu0 ha c hc)) hp
    exact ⟨_, h1, h2, h3, by simp, fun _ => ⟨eu, cu, ku, ey, cy, ky, hu, hy, rfl⟩⟩

/-- An accepted load: the diagram is that of the loop over the default curvatures. -/
theorem mc_default_run {E : Engine} {base : ℝ → Except PyErr (List Group)} (hE : E.Lawful base) {D : List Group}
    (hD : base E.meshSize = .ok D) {S : CrossSection} {th : ℝ} (hA : E.Answers D S th) {n : ℝ} (cf : ℝ) (a b : ℕ)
    {yn yp yn' yp' : ℝ} {st sty : Fin 3 → ℝ} (hbal : E.balanced (-th) false = .ok (yn, yp, st))
    (hbaly : E.balanced (-th) true = .ok (yn', yp', sty)) (hst : st 1 ≤ -1e-13) (hsty : sty 1 ≤ -1e-13)
    (hst2 : st 2 = 0) (hsty2 : sty 2 = 0) {s : CalcState} (hs : Canonical E base s) (hcheck : (checkAxialLoad E n s).2 = .ok ())
    {eu cu ey cy : ℝ} {ku ky : ℕ} (hu : fixedPivotFrom (planeForce S th) n yn yp st = some (.ok (eu, cu, 0), ku))
    (hy : fixedPivotFrom (planeForce S th) n yn' yp' sty = some (.ok (ey, cy, 0), ky)) :
    ∃ L, (momentCurvature E th n cf a b none s).2 =
      (mcLoop E th n 0 (curvatureGrid cf cy cu a b) ⟨some (D.map (rotGroup (-th))), L⟩).2 := by
  have hneg : st 1 < 0 := lt_of_le_of_lt hst (by norm_num)
  have hnegy : sty 1 < 0 := lt_of_le_of_lt hsty (by norm_num)
  obtain ⟨D', L, hD', hs1⟩ := check_ok_state hE hs (Prod.ext rfl hcheck : checkAxialLoad E n s = (_, .ok ()))
  rw [hD] at hD'
  cases hD'
  have h1 : checkAxialLoad E n s = (⟨some D, some L⟩, .ok ()) := Prod.ext hs1 hcheck
  obtain ⟨-, hcu0⟩ := pivot_curvature hst hu
  obtain ⟨-, hcy0⟩ := pivot_curvature hsty hy
  refine ⟨some L, ?_⟩
  unfold momentCurvature
  rw [CalcM.bind_ok h1]
  rw [CalcM.bind_ok (s' := ⟨some (D.map (rotGroup (-th))), some L⟩) (a := ()) rfl]
  rw [CalcM.bind_ok (s' := ⟨some (D.map (rotGroup (-th))), some L⟩) (a := curvatureGrid cf cy cu a b) (by
    simp only
    rw [CalcM.bind_ok (s' := ⟨some (D.map (rotGroup (-th))), some L⟩) (a := ![eu, cu, 0])
      (by rw [pivot_search hA n hbal hneg hst2, hu]; rfl)]
    rw [CalcM.bind_ok (s' := ⟨some (D.map (rotGroup (-th))), some L⟩) (a := ![ey, cy, 0])
      (by rw [pivot_search hA n hbaly hnegy hsty2, hy]; rfl)]
    rw [if_neg (by
      simp only [Matrix.cons_val]
      exact not_lt.2 (mul_nonneg_of_nonpos_of_nonpos hcu0.le hcy0.le))]
    rfl)]
  rcases hq : mcLoop E th n 0 (curvatureGrid cf cy cu a b) ⟨some (D.map (rotGroup (-th))), some L⟩ with ⟨s', r⟩
  cases r with
  | ok pts => rw [CalcM.bind_ok hq]; rfl
  | error e => rw [CalcM.bind_error hq]

end SC
