import Verif.Model.ProfileShapes
import Mathlib.Tactic

/-! # C61: standard profiles, lookup and tables -/

set_option autoImplicit false

namespace SC

noncomputable section

/-! ### Specification: what a row of a table stands for -/

open Classical in
/-- The section a row of the table of class `c` stands for: dimensions as listed (in millimetres); IPN flanges have
slope 14 %; UPN flanges 8 % measured at half the width up to a height of 300 mm, 5 % measured at half of the flange
outstand above; U flanges 8 %; angles have the same thickness in both legs. -/
def rowShape (c : ProfClass) : ProfRow → ShapeArgs
  | .i h b tw tf r =>
    if c = .UPE then .parallelU (h / 10) (b / 10) (tw / 10) (tf / 10) (r / 10)
    else .I (h / 10) (b / 10) (tw / 10) (tf / 10) (r / 10)
  | .taper h b tw tf r1 r2 _ =>
    if c = .IPN then .taperI (h / 10) (b / 10) (tw / 10) (tf / 10) (r1 / 10) (r2 / 10) 0.14
    else if c = .UPN ∧ 300 < (h / 10 : ℝ) then
      .taperU (h / 10) (b / 10) (tw / 10) (tf / 10) (r1 / 10) (r2 / 10) 0.05 ((b / 10 - tw / 10) / 2)
    else .taperU (h / 10) (b / 10) (tw / 10) (tf / 10) (r1 / 10) (r2 / 10) 0.08 (b / 10 / 2)
  | .angle h b t r1 r2 => .L (h / 10) (b / 10) (t / 10) (t / 10) (r1 / 10) (r2 / 10)

/-- The kind of row belonging to a class. -/
def rowKind (c : ProfClass) (row : ProfRow) : Bool :=
  match c, row with
  | .IPN, .taper .. | .UPN, .taper .. | .U, .taper .. | .L, .angle .. | .LI, .angle .. => true
  | .IPE, .i .. | .HE, .i .. | .HD, .i .. | .HP, .i .. | .UB, .i .. | .UBP, .i .. | .UC, .i .. | .W, .i ..
  | .UPE, .i .. => true
  | _, _ => false

/-! ### Facts about the tables -/

set_option maxRecDepth 100000 in
theorem table_kind (c : ProfClass) : (c.table.all fun e => rowKind c e.2) = true := by
  cases c <;> decide +kernel

set_option maxRecDepth 100000 in
set_option maxHeartbeats 4000000 in
theorem table_nodup (c : ProfClass) : (c.table.map Prod.fst).Nodup := by
  cases c <;> decide +kernel

/-! ### Rows -/

/-- The dictionary of a row after `get_polygon`. -/
def prepared (c : ProfClass) (row : ProfRow) : Dict :=
  match prepareRow c row.dict with
  | .ok d => d
  | .error _ => []

theorem row_facts (c : ProfClass) (row : ProfRow) (hk : rowKind c row = true) :
    prepareRow c row.dict = .ok (prepared c row) ∧ prepareRow c (prepared c row) = .ok (prepared c row) ∧
      polygonCall c (prepared c row) = .ok (rowShape c row) ∧
      constructorCall c row.dict = .ok (rowShape c row) ∧
      constructorCall c (prepared c row) = .ok (rowShape c row) := by
  cases row with
  | i h b tw tf r =>
    cases c <;> simp [rowKind] at hk <;>
      simp [prepared, prepareRow, ProfRow.dict, polygonCall, constructorCall, rowShape, bindArgs, Dict.lookup,
        Dict.item, mm, bind, Except.bind, pure, Except.pure, List.mapM_cons, List.mapM_nil, List.find?]
  | taper h b tw tf r1 r2 d =>
    cases c <;> simp [rowKind] at hk
    all_goals
      by_cases hh : (h / 10 : ℝ) ≤ 300
      · have hh' := not_lt.2 hh
        cases d <;>
        simp [prepared, prepareRow, ProfRow.dict, polygonCall, constructorCall, rowShape, bindArgs, Dict.lookup,
          Dict.item, Dict.set, Dict.only, mm, bind, Except.bind, pure, Except.pure, List.mapM_cons, List.mapM_nil,
          List.find?, hh, hh']
      · have hh' := not_le.1 hh
        cases d <;>
        simp [prepared, prepareRow, ProfRow.dict, polygonCall, constructorCall, rowShape, bindArgs, Dict.lookup,
          Dict.item, Dict.set, Dict.only, mm, bind, Except.bind, pure, Except.pure, List.mapM_cons, List.mapM_nil,
          List.find?, hh, hh']
  | angle h b t r1 r2 =>
    cases c <;> simp [rowKind] at hk <;>
      simp [prepared, prepareRow, ProfRow.dict, polygonCall, constructorCall, rowShape, bindArgs, Dict.lookup,
        Dict.item, Dict.set, Dict.only, mm, bind, Except.bind, pure, Except.pure, List.mapM_cons, List.mapM_nil,
        List.find?]

/-! ### Histories -/

/-- Every row of every table is as written in the source or as `get_polygon` leaves it. -/
def TablesInv (t : Tables) : Prop :=
  ∀ c, List.Forall₂ (fun (e : String × ProfRow) (x : String × Dict) =>
    x.1 = e.1 ∧ (x.2 = e.2.dict ∨ x.2 = prepared c e.2)) c.table (t c)

theorem inv_initial : TablesInv Tables.initial := by
  intro c
  unfold Tables.initial
  rw [List.forall₂_map_right_iff]
  exact List.forall₂_same.2 fun e _ => ⟨rfl, Or.inl rfl⟩

theorem inv_names {t : Tables} (h : TablesInv t) (c : ProfClass) : (t c).map Prod.fst = c.table.map Prod.fst := by
  have := h c
  generalize c.table = l at this ⊢
  generalize t c = m at this ⊢
  induction this with
  | nil => rfl
  | cons h1 _ ih => simp [h1.1, ih]

theorem find_none {t : Tables} (h : TablesInv t) {c : ProfClass} {k : String}
    (hk : k ∉ c.table.map Prod.fst) : (t c).find? (fun e => e.1 == k) = none := by
  rw [List.find?_eq_none]
  intro x hx
  have : x.1 ∈ (t c).map Prod.fst := List.mem_map_of_mem hx
  rw [inv_names h] at this
  simp only [beq_iff_eq]
  rintro rfl
  exact hk this

theorem find_some {t : Tables} (h : TablesInv t) {c : ProfClass} {k : String} {row : ProfRow}
    (hk : (k, row) ∈ c.table) :
    ∃ d, (t c).find? (fun e => e.1 == k) = some (k, d) ∧ (d = row.dict ∨ d = prepared c row) := by
  have hn := table_nodup c
  have hf := h c
  generalize c.table = l at hf hk hn
  generalize t c = m at hf
  induction hf with
  | nil => simp at hk
  | @cons e x l' m' h1 h2 ih =>
    by_cases hek : e.1 = k
    · have : e = (k, row) := by
        rcases List.mem_cons.1 hk with h3 | h3
        · exact h3.symm
        · exfalso
          rw [List.map_cons, List.nodup_cons] at hn
          exact hn.1 (hek ▸ List.mem_map_of_mem h3)
      subst this
      refine ⟨x.2, ?_, h1.2⟩
      rw [List.find?_cons_of_pos (by simp [h1.1])]
      exact congrArg some (Prod.ext h1.1 rfl)
    · rw [List.find?_cons_of_neg (by simpa [h1.1] using hek)]
      refine ih ?_ (by simpa using (List.nodup_cons.1 (by simpa using hn)).2)
      rcases List.mem_cons.1 hk with h3 | h3
      · exact absurd (by rw [← h3]) hek
      · exact h3

theorem inv_put {t : Tables} (h : TablesInv t) {c : ProfClass} {k : String} {row : ProfRow}
    (hk : (k, row) ∈ c.table) : TablesInv (t.put c k (prepared c row)) := by
  intro c'
  unfold Tables.put
  by_cases hc : c' = c
  · subst hc
    rw [if_pos rfl]
    have hn := table_nodup c'
    have hf := h c'
    generalize c'.table = l at hf hk hn
    generalize t c' = m at hf
    rw [List.forall₂_map_right_iff]
    have key : ∀ e ∈ l, e.1 = k → e.2 = row := by
      intro e he hek
      have := List.inj_on_of_nodup_map hn he hk hek
      rw [this]
    clear hk hn
    induction hf with
    | nil => exact .nil
    | @cons e x l' m' h1 h2 ih =>
      refine .cons ?_ (ih fun e he => key e (List.mem_cons_of_mem _ he))
      by_cases hx : x.1 = k
      · rw [if_pos (by simpa using hx)]
        refine ⟨h1.1, Or.inr ?_⟩
        rw [key e (by simp) (h1.1 ▸ hx)]
      · rw [if_neg (by simpa using hx)]
        exact h1
  · rw [if_neg hc]
    exact h c'

theorem row_kind {c : ProfClass} {k : String} {row : ProfRow} (hk : (k, row) ∈ c.table) : rowKind c row = true := by
  have := table_kind c
  rw [List.all_eq_true] at this
  exact this _ hk

/-- What a use of a profile class gives, read off the tables of the source. -/
def Answers (o : ProfOp) (r : Except PyErr ProfOut) : Prop :=
  match o with
  | .profiles c => r = .ok (.names (c.table.map Prod.fst))
  | .getPolygon c name | .new c name =>
    (∀ k row, c.key name = some k → (k, row) ∈ c.table → r = .ok (.shape (rowShape c row))) ∧
      ((∀ k, c.key name = some k → k ∉ c.table.map Prod.fst) → r = .error .valueError)

theorem run_ok (o : ProfOp) {t : Tables} (h : TablesInv t) :
    TablesInv (o.run t).1 ∧ Answers o (o.run t).2 := by
  cases o with
  | profiles c => exact ⟨h, by simp only [ProfOp.run, Answers, inv_names h]⟩
  | getPolygon c name =>
    simp only [ProfOp.run, Answers]
    cases hkey : c.key name with
    | none => simp only [Tables.get, Option.bind_none]; exact ⟨h, by simp, by simp⟩
    | some k =>
      by_cases hk : k ∈ c.table.map Prod.fst
      · obtain ⟨⟨k', row⟩, he, rfl⟩ := List.mem_map.1 hk
        obtain ⟨d, hd, hdd⟩ := find_some h he
        obtain ⟨f1, f2, f3, -, -⟩ := row_facts c row (row_kind he)
        have hp : prepareRow c d = .ok (prepared c row) := by rcases hdd with rfl | rfl <;> assumption
        simp only [Tables.get, Option.bind_some, hd, Option.map_some, hp, f3]
        refine ⟨inv_put h he, ?_, ?_⟩
        · intro k2 row2 h1 h2
          cases h1
          have := List.inj_on_of_nodup_map (table_nodup c) he h2 rfl
          cases this
          rfl
        · intro hn
          exact absurd hk (hn _ rfl)
      · simp only [Tables.get, Option.bind_some, find_none h hk, Option.map_none]
        refine ⟨h, ?_, by simp⟩
        intro k2 row2 h1 h2
        cases h1
        exact absurd (List.mem_map_of_mem (f := Prod.fst) h2) hk
  | new c name =>
    simp only [ProfOp.run, Answers]
    cases hkey : c.key name with
    | none => simp only [Tables.get, Option.bind_none]; exact ⟨h, by simp, by simp⟩
    | some k =>
      by_cases hk : k ∈ c.table.map Prod.fst
      · obtain ⟨⟨k', row⟩, he, rfl⟩ := List.mem_map.1 hk
        obtain ⟨d, hd, hdd⟩ := find_some h he
        obtain ⟨-, -, -, f4, f5⟩ := row_facts c row (row_kind he)
        have hp : constructorCall c d = .ok (rowShape c row) := by rcases hdd with rfl | rfl <;> assumption
        simp only [Tables.get, Option.bind_some, hd, Option.map_some, hp]
        refine ⟨h, ?_, ?_⟩
        · intro k2 row2 h1 h2
          cases h1
          have := List.inj_on_of_nodup_map (table_nodup c) he h2 rfl
          cases this
          rfl
        · intro hn
          exact absurd hk (hn _ rfl)
      · simp only [Tables.get, Option.bind_some, find_none h hk, Option.map_none]
        refine ⟨h, ?_, by simp⟩
        intro k2 row2 h1 h2
        cases h1
        exact absurd (List.mem_map_of_mem (f := Prod.fst) h2) hk

theorem runAll_ok (l : List ProfOp) {t : Tables} (h : TablesInv t) :
    List.Forall₂ Answers l (ProfOp.runAll l t).2 := by
  induction l generalizing t with
  | nil => exact .nil
  | cons o l ih => exact .cons (run_ok o h).2 (ih (run_ok o h).1)

/-- **C61, any history.** In every program that uses the profile classes, each `get_polygon(name)` and each constructor
call with a listed name gives the section of that row of the table as written in the source, each other name raises
`ValueError`, and `profiles()` always lists the same names. -/
theorem C61_history (l : List ProfOp) : List.Forall₂ Answers l (ProfOp.runAll l Tables.initial).2 :=
  runAll_ok l inv_initial

/-- **C61, numbers.** IPE, IPN, UPE and UPN accept a number as designation and the other classes raise `ValueError`. -/
theorem C61_numbers (l : List ProfOp) (c : ProfClass) (x : ℝ) (r : Except PyErr ProfOut) (i : ℕ)
    (ho : l[i]? = some (.new c (.num x))) (hr : (ProfOp.runAll l Tables.initial).2[i]? = some r) :
    (∀ pre row, c.numPrefix = some pre → (pre ++ toString (truncInt x), row) ∈ c.table →
      r = .ok (.shape (rowShape c row))) ∧
    (c.numPrefix = none → r = .error .valueError) := by
  have h := C61_history l
  rw [List.forall₂_iff_get] at h
  obtain ⟨h1, e1⟩ := List.getElem?_eq_some_iff.1 ho
  obtain ⟨h2, e2⟩ := List.getElem?_eq_some_iff.1 hr
  have := h.2 i h1 h2
  simp only [List.get_eq_getElem, e1, e2, Answers] at this
  refine ⟨fun pre row hp he => this.1 _ row ?_ he, fun hp => this.2 ?_⟩
  · simp [ProfClass.key, hp]
  · simp [ProfClass.key, hp]

/-- **C61, violated part.** A number that is no listed size is silently cut to an integer: `IPE(80.9)` is `IPE80`
instead of a `ValueError`. -/
theorem C61_number_violated :
    (ProfOp.runAll [.new .IPE (.num 80.9)] Tables.initial).2 =
      [.ok (.shape (rowShape .IPE (.i 800 460 38 52 50)))] := by
  have h := C61_history [.new .IPE (.num 80.9)]
  have hk : ProfClass.key .IPE (.num 80.9) = some "IPE80" := by
    have : truncInt 80.9 = 80 := by
      unfold truncInt
      rw [if_pos (by norm_num), Int.floor_eq_iff]
      norm_num
    simp only [ProfClass.key, ProfClass.numPrefix, Option.map_some, this]
    rfl
  cases hl : (ProfOp.runAll [.new .IPE (.num 80.9)] Tables.initial).2 with
  | nil => rw [hl] at h; cases h
  | cons a m =>
    rw [hl] at h
    cases h with
    | cons h1 h2 =>
      cases h2
      have := h1.1 "IPE80" (.i 800 460 38 52 50) hk (List.mem_cons_self)
      rw [this]

/-! ### Dimensions -/

/-- Dimensions that make a section: thicknesses and radii positive, flanges, web and fillets fit into the height and
width. -/
def FitsTogether : ShapeArgs → Prop
  | .I h b tw tf r => 0 < h ∧ 0 < b ∧ 0 < tw ∧ 0 < tf ∧ 0 < r ∧ tw + 2 * r ≤ b ∧ 2 * tf + 2 * r ≤ h
  | .parallelU h b tw tf r => 0 < h ∧ 0 < b ∧ 0 < tw ∧ 0 < tf ∧ 0 < r ∧ tw + r ≤ b ∧ 2 * tf + 2 * r ≤ h
  | .taperI h b tw tf r1 r2 s => 0 < h ∧ 0 < b ∧ 0 < tw ∧ 0 < tf ∧ 0 < r1 ∧ 0 < r2 ∧ 0 < s ∧
      tw + 2 * r1 ≤ b ∧ 2 * tf + 2 * r1 ≤ h ∧ r2 + s * (b / 4) ≤ tf
  | .taperU h b tw tf r1 r2 s u => 0 < h ∧ 0 < b ∧ 0 < tw ∧ 0 < tf ∧ 0 < r1 ∧ 0 < r2 ∧ 0 < s ∧ 0 < u ∧
      tw + r1 ≤ b ∧ 2 * tf + 2 * r1 ≤ h ∧ u < b - tw ∧ r2 + s * u ≤ tf
  | .L h b t1 t2 r1 r2 => 0 < h ∧ 0 < b ∧ 0 < t1 ∧ 0 < t2 ∧ 0 < r1 ∧ 0 < r2 ∧ t2 + r1 ≤ b / 2 ∧ t1 + r1 ≤ h / 2 ∧
      r2 ≤ t1 ∧ r2 ≤ t2 ∧ t2 < b ∧ t1 < h

/-- `FitsTogether` in tenths of millimetres, for evaluation. -/
def fitsNat (c : ProfClass) : ProfRow → Bool
  | .i h b tw tf r => 0 < h && 0 < b && 0 < tw && 0 < tf && 0 < r &&
      (if c = .UPE then tw + r ≤ b else tw + 2 * r ≤ b) && 2 * tf + 2 * r ≤ h
  | .taper h b tw tf r1 r2 _ => 0 < h && 0 < b && 0 < tw && 0 < tf && 0 < r1 && 0 < r2 &&
      (if c = .IPN then tw + 2 * r1 ≤ b && 400 * r2 + 14 * b ≤ 400 * tf
        else tw + r1 ≤ b && 2 * tw < b && 1000 * r2 + 40 * b ≤ 1000 * tf) && 2 * tf + 2 * r1 ≤ h
  | .angle h b t r1 r2 => 0 < h && 0 < b && 0 < t && 0 < r1 && 0 < r2 && 2 * t + 2 * r1 ≤ b && 2 * t + 2 * r1 ≤ h &&
      r2 ≤ t

set_option maxRecDepth 100000 in
set_option maxHeartbeats 4000000 in
theorem table_fits (c : ProfClass) : (c.table.all fun e => fitsNat c e.2) = true := by
  cases c <;> decide +kernel

/-- **C61, dimensions.** All listed dimensions are positive and fit together. -/
theorem C61_dimensions (c : ProfClass) (k : String) (row : ProfRow) (hmem : (k, row) ∈ c.table) :
    FitsTogether (rowShape c row) := by
  have hf := table_fits c
  rw [List.all_eq_true] at hf
  have := hf _ hmem
  clear hmem hf
  cases row with
  | i h b tw tf r =>
    simp only [fitsNat, Bool.and_eq_true, decide_eq_true_eq] at this
    obtain ⟨⟨⟨⟨⟨⟨h1, h2⟩, h3⟩, h4⟩, h5⟩, h6⟩, h7⟩ := this
    have h1 : (0 : ℝ) < h := by exact_mod_cast h1
    have h2 : (0 : ℝ) < b := by exact_mod_cast h2
    have h3 : (0 : ℝ) < tw := by exact_mod_cast h3
    have h4 : (0 : ℝ) < tf := by exact_mod_cast h4
    have h5 : (0 : ℝ) < r := by exact_mod_cast h5
    have h7 : (2 : ℝ) * tf + 2 * r ≤ h := by exact_mod_cast h7
    by_cases hc : c = .UPE
    · rw [if_pos hc, decide_eq_true_eq] at h6
      have h6 : (tw : ℝ) + r ≤ b := by exact_mod_cast h6
      simp only [rowShape, if_pos hc, FitsTogether]
      refine ⟨by positivity, by positivity, by positivity, by positivity, by positivity, ?_, ?_⟩ <;> linarith
    · rw [if_neg hc, decide_eq_true_eq] at h6
      have h6 : (tw : ℝ) + 2 * r ≤ b := by exact_mod_cast h6
      simp only [rowShape, if_neg hc, FitsTogether]
      refine ⟨by positivity, by positivity, by positivity, by positivity, by positivity, ?_, ?_⟩ <;> linarith
  | taper h b tw tf r1 r2 d =>
    simp only [fitsNat, Bool.and_eq_true, decide_eq_true_eq] at this
    obtain ⟨⟨⟨⟨⟨⟨⟨h1, h2⟩, h3⟩, h4⟩, h5⟩, h5'⟩, h6⟩, h7⟩ := this
    have h1 : (0 : ℝ) < h := by exact_mod_cast h1
    have h2 : (0 : ℝ) < b := by exact_mod_cast h2
    have h3 : (0 : ℝ) < tw := by exact_mod_cast h3
    have h4 : (0 : ℝ) < tf := by exact_mod_cast h4
    have h5 : (0 : ℝ) < r1 := by exact_mod_cast h5
    have h5' : (0 : ℝ) < r2 := by exact_mod_cast h5'
    have h7 : (2 : ℝ) * tf + 2 * r1 ≤ h := by exact_mod_cast h7
    by_cases hc : c = .IPN
    · rw [if_pos hc, Bool.and_eq_true, decide_eq_true_eq, decide_eq_true_eq] at h6
      have h8 : (tw : ℝ) + 2 * r1 ≤ b := by exact_mod_cast h6.1
      have h9 : (400 : ℝ) * r2 + 14 * b ≤ 400 * tf := by exact_mod_cast h6.2
      simp only [rowShape, if_pos hc, FitsTogether]
      refine ⟨by positivity, by positivity, by positivity, by positivity, by positivity, by positivity,
        by norm_num, ?_, ?_, ?_⟩ <;> linarith
    · rw [if_neg hc, Bool.and_eq_true, Bool.and_eq_true, decide_eq_true_eq, decide_eq_true_eq,
        decide_eq_true_eq] at h6
      have h8 : (tw : ℝ) + r1 ≤ b := by exact_mod_cast h6.1.1
      have h9 : (2 : ℝ) * tw < b := by exact_mod_cast h6.1.2
      have h10 : (1000 : ℝ) * r2 + 40 * b ≤ 1000 * tf := by exact_mod_cast h6.2
      simp only [rowShape, if_neg hc]
      split_ifs
      · simp only [FitsTogether]
        refine ⟨by positivity, by positivity, by positivity, by positivity, by positivity, by positivity,
          by norm_num, ?_, ?_, ?_, ?_, ?_⟩ <;> linarith
      · simp only [FitsTogether]
        refine ⟨by positivity, by positivity, by positivity, by positivity, by positivity, by positivity,
          by norm_num, ?_, ?_, ?_, ?_, ?_⟩ <;> linarith
  | angle h b t r1 r2 =>
    simp only [fitsNat, Bool.and_eq_true, decide_eq_true_eq] at this
    obtain ⟨⟨⟨⟨⟨⟨⟨h1, h2⟩, h3⟩, h4⟩, h5⟩, h6⟩, h7⟩, h8⟩ := this
    have h1 : (0 : ℝ) < h := by exact_mod_cast h1
    have h2 : (0 : ℝ) < b := by exact_mod_cast h2
    have h3 : (0 : ℝ) < t := by exact_mod_cast h3
    have h4 : (0 : ℝ) < r1 := by exact_mod_cast h4
    have h5 : (0 : ℝ) < r2 := by exact_mod_cast h5
    have h6 : (2 : ℝ) * t + 2 * r1 ≤ b := by exact_mod_cast h6
    have h7 : (2 : ℝ) * t + 2 * r1 ≤ h := by exact_mod_cast h7
    have h8 : (r2 : ℝ) ≤ t := by exact_mod_cast h8
    simp only [rowShape, FitsTogether]
    refine ⟨by positivity, by positivity, by positivity, by positivity, by positivity, by positivity,
      ?_, ?_, ?_, ?_, ?_, ?_⟩ <;> linarith

/-! ### Examples -/

/-- A history that writes into the table of UPN and then reads it again, with a failing call in between. -/
example : (ProfOp.runAll [.getPolygon .UPN (.str "UPN350"), .new .HE (.num 100), .new .UPN (.str "UPN350")]
      Tables.initial).2 =
    [.ok (.shape (.taperU 350 100 14 16 16 8 0.05 43)), .error .valueError,
      .ok (.shape (.taperU 350 100 14 16 16 8 0.05 43))] := by
  have hm : ("UPN350", ProfRow.taper 3500 1000 140 160 160 80 (some 2820)) ∈ ProfClass.table .UPN := by
    simp [ProfClass.table, tableUPN]
  have hs : rowShape .UPN (.taper 3500 1000 140 160 160 80 (some 2820)) = .taperU 350 100 14 16 16 8 0.05 43 := by
    simp only [rowShape, reduceCtorEq, if_false, true_and]
    norm_num
  have h := C61_history [.getPolygon .UPN (.str "UPN350"), .new .HE (.num 100), .new .UPN (.str "UPN350")]
  generalize (ProfOp.runAll _ Tables.initial).2 = m at h
  obtain _ | ⟨h1, h⟩ := h
  obtain _ | ⟨h2, h⟩ := h
  obtain _ | ⟨h3, h⟩ := h
  cases h
  rw [h1.1 _ _ rfl hm, h3.1 _ _ rfl hm, h2.2 (by simp [ProfClass.key, ProfClass.numPrefix]), hs]

example : FitsTogether (rowShape .UPN (.taper 3500 1000 140 160 160 80 (some 2820))) :=
  C61_dimensions .UPN "UPN350" _ (by simp [ProfClass.table, tableUPN])

end

end SC
