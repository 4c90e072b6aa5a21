import Verif.Model.Discretize
import Verif.Spec.Discretize
import Verif.Lemmas.Laws
import Verif.Lemmas.Interp
import Verif.Props.LawsAgree
import Verif.Props.LawsBounds
import Verif.Props.UserDefined
import Verif.Props.Geometry
import Verif.Props.Grid
import Mathlib.Analysis.Convex.SpecificFunctions.Basic
import Mathlib.Analysis.Calculus.MeanValue
import Mathlib.Analysis.SpecialFunctions.Pow.Deriv

/-!
# C65: laws without Marin expressions are replaced by an inscribed polygon
-/

set_option autoImplicit false

namespace SC

open Classical Spec

/-- An array call that works entry by entry: it returns `f` of the entries and leaves the snapped
strains in the caller's array. -/
structure Samples (c : StressCall) (f : ℝ → ℝ) (u : ℝ) : Prop where
  stress : ∀ n eps i, (c n eps).1 i = f (eps i)
  kept : ∀ n eps i, (c n eps).2 i = snap (-u, 100) (eps i)

theorem Samples.onList {c : StressCall} {f : ℝ → ℝ} {u : ℝ} (h : Samples c f u) (eps : List ℝ) :
    c.onList eps = (eps.map f, eps.map (snap (-u, 100))) := by
  have h1 : (c eps.length eps.get).1 = f ∘ eps.get := funext fun i => h.stress _ _ _
  have h2 : (c eps.length eps.get).2 = snap (-u, 100) ∘ eps.get := funext fun i => h.kept _ _ _
  simp only [StressCall.onList, h1, h2]
  rw [← List.map_ofFn, ← List.map_ofFn, List.ofFn_get]

theorem findXLim_zero (x y : List ℝ) (h : ∀ b ∈ y, b = 0) : findXLim x y = none := by
  have : ((x.zip y).filter fun p => decide (p.2 ≠ 0)) = [] := by
    rw [List.filter_eq_nil_iff]
    rintro ⟨a, b⟩ hp
    simpa using h b (List.of_mem_zip hp).2
  unfold findXLim; rw [this]; rfl

theorem findXLim_last (x y : List ℝ) (a b : ℝ) (hl : x.length = y.length) (hb : b ≠ 0) :
    findXLim (x ++ [a]) (y ++ [b]) = some a := by
  simp [findXLim, List.zip_append hl, List.filter_append, hb]

theorem cutSmall_zero (y : List ℝ) (h : ∀ b ∈ y, b = 0) : ∀ b ∈ cutSmall y, b = 0 := by
  intro b hb
  simp only [cutSmall, List.mem_map] at hb
  obtain ⟨a, ha, rfl⟩ := hb
  split_ifs
  · rfl
  · exact h a ha

theorem linspace_last (a b : ℝ) (n : ℕ) (hn : 2 ≤ n) :
    ∃ l : List ℝ, linspace a b n true = l ++ [b] := by
  obtain ⟨m, rfl⟩ : ∃ m, n = m + 1 := ⟨n - 1, by omega⟩
  have h1 : (m + 1 == 1) = false := by simp; omega
  have hm : (m : ℝ) ≠ 0 := by
    have : 0 < m := by omega
    positivity
  simp only [linspace, List.range_succ, List.map_append, List.map_cons, List.map_nil, h1, Bool.and_false,
    Bool.false_eq_true, if_false, if_true]
  refine ⟨_, congrArg (_ ++ [·]) ?_⟩
  push_cast
  rw [add_sub_cancel_right]; field_simp; ring

theorem linspace_nonneg {b : ℝ} (hb : 0 ≤ b) (n : ℕ) : ∀ x ∈ linspace 0 b n true, 0 ≤ x := by
  intro x hx
  simp only [linspace, List.mem_map, List.mem_range] at hx
  obtain ⟨i, hi, rfl⟩ := hx
  split_ifs with h1
  · exact le_rfl
  · have h2 : (n : ℝ) - 1 ≥ 0 := by
      have : (1 : ℝ) ≤ n := by exact_mod_cast (by omega : 1 ≤ n)
      linarith
    simp only [if_true, zero_add, sub_zero]
    positivity

/-- The nodes, `0` included. -/
noncomputable def nodes (f : ℝ → ℝ) (u : ℝ) : List (ℝ × ℝ) :=
  (List.range 11).map fun i => (tenth u i, f (tenth u i))

theorem tenth_snap {u : ℝ} (hu : 2e-5 ≤ u) (i : ℕ) (hi : i ≤ 10) : snap (-u, 100) (tenth u i) = tenth u i := by
  have hle : tenth u i ≤ 0 := by
    have : (i : ℝ) ≤ 10 := by exact_mod_cast hi
    unfold tenth; nlinarith
  rcases Nat.eq_zero_or_pos i with rfl | h
  · have h0 : tenth u 0 = -u := by simp [tenth]
    have h1 := (not_isclose_iff _ _).2 (clear_hundred_of_nonpos hle)
    rw [h0] at h1
    simp [snap, h0, isclose_self, h1]
  · refine snap_of_clear ?_ (clear_hundred_of_nonpos hle)
    have : (1 : ℝ) ≤ i := by exact_mod_cast h
    have hpos : 0 < u := by linarith
    simp only [Clear, tenth, abs_neg, abs_of_pos hpos]
    rw [show -u + (i : ℝ) * (u / 10) - -u = i * (u / 10) by ring, abs_of_nonneg (by positivity)]
    have : u / 10 ≤ i * (u / 10) := by nlinarith
    norm_num at hu ⊢
    linarith

theorem nodes_eq (f : ℝ → ℝ) (u : ℝ) :
    ((linspace (-u) 0 10 false ++ [0]).map fun e => (e, f e)) = nodes f u := by
  have h : linspace (-u) 0 10 false ++ [0] = (List.range 11).map (tenth u) := by
    simp only [linspace, List.range_succ, List.range_zero, List.map_append, List.map_cons, List.map_nil,
      List.nil_append, List.cons_append, Bool.false_and, Bool.false_eq_true, if_false, tenth]
    norm_num
    ring
  rw [h, nodes, List.map_map]; rfl

theorem two_le_searchCount : 2 ≤ searchCount := by unfold searchCount; norm_num

attribute [local irreducible] searchCount

theorem linspace_one (a b : ℝ) : linspace a b 1 true = [a] := by simp [linspace]

/-- **C65** what `_discretize_law` returns, for any compression-only law whose stress at its ultimate
strain is at least a millionth of its strength: the data points are the law's own values at eleven
equally spaced strains. -/
theorem C65_nodes {c : StressCall} {f : ℝ → ℝ} {u fc : ℝ} (hc : Samples c f u) (hf : CompressionOnly f fc u)
    (h0 : f 0 = 0) (hu : 2e-5 ≤ u) (hne : f (-u) ≠ 0) (hrel : fc * 1e-6 ≤ -f (-u)) :
    discretize c (-u, 100) = .ok ⟨nodes f u, -u, 0⟩ := by
  have hpos : 0 < u := by linarith
  have gp : gridPos c (-u, 100) = [0] := by
    have hz : ∀ b ∈ (linspace 0 (min 100 1) searchCount true).map f, b = 0 := by
      intro b hb
      obtain ⟨x, hx, rfl⟩ := List.mem_map.1 hb
      rcases (linspace_nonneg (by norm_num : (0:ℝ) ≤ min 100 1) searchCount x hx).eq_or_lt with h | h
      · rw [← h, h0]
      · exact hf.no_tension x h
    unfold gridPos
    dsimp only
    rw [hc.onList]
    dsimp only
    rw [findXLim_zero _ _ (cutSmall_zero _ hz)]
    exact linspace_one _ _
  have gn : gridNeg c (-u, 100) = linspace (-u) 0 10 false := by
    obtain ⟨l, hl⟩ := linspace_last 0 (-u) searchCount two_le_searchCount
    have hs : snap (-u, 100) (-u) = -u := by
      have := tenth_snap hu 0 (by norm_num)
      simpa [tenth] using this
    unfold gridNeg
    dsimp only
    rw [hc.onList, hl]
    dsimp only
    simp only [List.map_append, List.map_cons, List.map_nil, hs, neg_neg]
    have hcut : cutSmall (((l.map f).map fun s => -s) ++ [-f (-u)]) =
        (((l.map f).map fun s => -s).map fun s =>
          if s < listMax (((l.map f).map fun s => -s) ++ [-f (-u)]) * 1e-6 then 0 else s) ++ [-f (-u)] := by
      have hm : listMax (((l.map f).map fun s => -s) ++ [-f (-u)]) ≤ fc := by
        have := (listMax_spec (((l.map f).map fun s => -s) ++ [-f (-u)]) (by simp)).1
        simp only [List.mem_append, List.mem_map, List.mem_singleton] at this
        rcases this with ⟨s, ⟨x, -, rfl⟩, h⟩ | h
        · rw [← h]; linarith [(hf.bounded x).1]
        · rw [h]; linarith [(hf.bounded (-u)).1]
      have : ¬ -f (-u) < listMax (((l.map f).map fun s => -s) ++ [-f (-u)]) * 1e-6 := by
        rw [not_lt]
        refine le_trans ?_ hrel
        exact mul_le_mul_of_nonneg_right hm (by norm_num)
      unfold cutSmall
      dsimp only
      rw [List.map_append, List.map_cons, List.map_nil, if_neg this]
    rw [hcut, findXLim_last _ _ _ _ (by simp) (neg_ne_zero.2 hne)]
  have hkeep : (linspace (-u) 0 10 false ++ [0]).map (snap (-u, 100)) = linspace (-u) 0 10 false ++ [0] := by
    have h := congrArg (List.map Prod.fst) (nodes_eq f u)
    simp only [nodes, List.map_map, Function.comp_def, List.map_id'] at h
    rw [h, List.map_map]
    refine List.map_congr_left fun i hi => ?_
    exact tenth_snap hu i (by have := List.mem_range.1 hi; omega)
  simp only [discretize, gp, gn, hc.onList, hkeep]
  have hz : (linspace (-u) 0 10 false ++ [0]).zip ((linspace (-u) 0 10 false ++ [0]).map f) = nodes f u := by
    rw [← nodes_eq]
    generalize linspace (-u) 0 10 false ++ [0] = l
    induction l with
    | nil => rfl
    | cons a l ih => simp [ih]
  have hmir : UserDefined.mirror (nodes f u) = nodes f u := by
    rw [UserDefined.mirror, if_pos]
    refine ⟨(tenth u 0, f (tenth u 0)), ?_, ?_⟩
    · exact List.mem_map.2 ⟨0, by simp, rfl⟩
    · simpa [tenth] using hpos
  unfold UserDefined.new?
  rw [if_neg (by simp)]
  simp only [hz, hmir]
  simp [nodes, List.range_succ, UserDefined.extend, tenth]
  ring


/-! ## The discretised law is the inscribed polygon -/

theorem tenth_zero (u : ℝ) : tenth u 0 = -u := by simp [tenth]
theorem tenth_ten (u : ℝ) : tenth u 10 = 0 := by simp [tenth]; ring
theorem tenth_succ (u : ℝ) (i : ℕ) : tenth u (i + 1) = tenth u i + u / 10 := by
  simp only [tenth]; push_cast; ring

theorem tenth_lt {u : ℝ} (hu : 0 < u) {i j : ℕ} (h : i < j) : tenth u i < tenth u j := by
  have : (i : ℝ) < j := by exact_mod_cast h
  unfold tenth; nlinarith

theorem tenth_mem {u : ℝ} (hu : 0 < u) {i : ℕ} (h : i ≤ 10) : -u ≤ tenth u i ∧ tenth u i ≤ 0 := by
  have : (i : ℝ) ≤ 10 := by exact_mod_cast h
  have : (0 : ℝ) ≤ i := by positivity
  constructor <;> unfold tenth <;> nlinarith

theorem nodes_increasing (f : ℝ → ℝ) {u : ℝ} (hu : 0 < u) : Increasing (nodes f u) := by
  unfold Increasing nodes
  rw [List.pairwise_map]
  exact List.pairwise_lt_range.imp fun h => tenth_lt hu h

theorem nodes_split (f : ℝ → ℝ) (u : ℝ) (i : ℕ) (hi : i < 10) : ∃ pre post,
    nodes f u = pre ++ (tenth u i, f (tenth u i)) :: (tenth u (i + 1), f (tenth u (i + 1))) :: post := by
  refine ⟨(nodes f u).take i, (nodes f u).drop (i + 2), ?_⟩
  have hl : (nodes f u).length = 11 := by simp [nodes]
  have h1 : (nodes f u)[i]'(by omega) = (tenth u i, f (tenth u i)) := by simp [nodes]
  have h2 : (nodes f u)[i + 1]'(by omega) = (tenth u (i + 1), f (tenth u (i + 1))) := by simp [nodes]
  rw [← h1, ← h2, ← List.drop_eq_getElem_cons, ← List.drop_eq_getElem_cons, List.take_append_drop]

/-- **C65** the law that the Marin integrator uses in place of `f` is the polygon inscribed in `f`. -/
theorem C65_inscribed {f : ℝ → ℝ} {u : ℝ} (hu : 2e-5 ≤ u) :
    Inscribed f (UserDefined.stress ⟨nodes f u, -u, 0⟩) u := by
  have hpos : 0 < u := by linarith
  set d : UserDefined := ⟨nodes f u, -u, 0⟩ with hd
  have hinc : Increasing d.pts := nodes_increasing f hpos
  have hun : d.ult = (-u, 0) := rfl
  have hchord : ∀ i < 10, ∀ x, tenth u i ≤ x → x ≤ tenth u (i + 1) → interp x d.pts 0 0 =
      f (tenth u i) + (f (tenth u (i + 1)) - f (tenth u i)) / (u / 10) * (x - tenth u i) := by
    intro i hi x h1 h2
    obtain ⟨pre, post, hp⟩ := nodes_split f u i hi
    have hs' := hinc
    rw [show d.pts = nodes f u from rfl, hp] at hs' ⊢
    rw [interp_segment pre _ _ post hs' h1 h2]
    simp only [chord]
    rw [show tenth u (i + 1) - tenth u i = u / 10 by rw [tenth_succ]; ring]
  have hnode : ∀ i ≤ 10, interp (tenth u i) d.pts 0 0 = f (tenth u i) := by
    intro i hi
    rcases Nat.lt_or_ge i 10 with h | h
    · rw [hchord i h _ le_rfl (tenth_lt hpos (Nat.lt_succ_self i)).le]; ring
    · obtain rfl : i = 10 := by omega
      rw [hchord 9 (by norm_num) _ (tenth_lt hpos (by norm_num)).le le_rfl, tenth_succ u 9]
      field_simp; ring
  have hend : ∀ e, (¬ Clear e (-u) → Clear e 0 → d.stress e = f (-u)) ∧ (¬ Clear e 0 → d.stress e = f 0) := by
    intro e
    constructor
    · intro h1 h2
      rw [← not_isclose_iff] at h1 h2
      have : snap d.ult e = -u := by rw [hun]; unfold snap; rw [if_neg h2, if_pos (not_not.1 h1)]
      rw [UserDefined.stress, this]
      simpa [tenth_zero] using hnode 0 (by norm_num)
    · intro h1
      rw [← not_isclose_iff] at h1
      have : snap d.ult e = 0 := by rw [hun]; unfold snap; rw [if_pos (not_not.1 h1)]
      rw [UserDefined.stress, this]
      simpa [tenth_ten] using hnode 10 le_rfl
  refine ⟨fun i hi => ?_, fun i hi t ht0 ht1 hc1 hc2 => ?_, hend, fun e h1 h2 h => ?_⟩
  · by_cases h2 : Clear (tenth u i) 0
    · by_cases h1 : Clear (tenth u i) (-u)
      · rw [UserDefined.stress, hun, snap_of_clear h1 h2, hnode i hi]
      · have hs := tenth_snap hu i hi
        have hc := clear_hundred_of_nonpos (tenth_mem hpos hi).2
        rw [← not_isclose_iff] at hc h1
        unfold snap at hs
        rw [if_neg hc, if_pos (not_not.1 h1)] at hs
        rw [(hend _).1 (by rw [← not_isclose_iff]; exact h1) h2, ← hs]
    · rw [(hend _).2 h2]
      have : tenth u i = 0 := by
        by_contra hne
        have h10 : i < 10 := by
          rcases Nat.lt_or_ge i 10 with h | h
          · exact h
          · exact absurd (by rw [show i = 10 by omega, tenth_ten]) hne
        apply h2
        have h9 : tenth u i ≤ tenth u 9 := by
          rcases Nat.lt_or_ge i 9 with h | h
          · exact (tenth_lt hpos h).le
          · rw [show i = 9 by omega]
        have e9 : tenth u 9 = -(u / 10) := by simp only [tenth]; push_cast; ring
        rw [Clear, sub_zero, abs_of_nonpos (tenth_mem hpos hi).2]
        norm_num at hu ⊢
        linarith
      rw [this]
  · have hx2 : tenth u i + t * (u / 10) ≤ tenth u (i + 1) := by rw [tenth_succ]; nlinarith
    have hx1 : tenth u i ≤ tenth u i + t * (u / 10) := by nlinarith
    rw [UserDefined.stress, hun, snap_of_clear hc1 hc2, hchord i hi _ hx1 hx2]
    field_simp; ring
  · refine C17_outside d ⟨h1, h2⟩ ?_
    rcases h with h | h
    · left
      intro p hp
      obtain ⟨i, hi, rfl⟩ := List.mem_map.1 hp
      exact lt_of_lt_of_le h (tenth_mem hpos (by have := List.mem_range.1 hi; omega)).1
    · right
      intro p hp
      obtain ⟨i, hi, rfl⟩ := List.mem_map.1 hp
      exact lt_of_le_of_lt (tenth_mem hpos (by have := List.mem_range.1 hi; omega)).2 h

/-! ## Consequences for the user -/

/-- every strain of the range lies in one of the ten parts -/
theorem tenth_cover {u e : ℝ} (hu : 0 < u) (h1 : -u ≤ e) (h2 : e ≤ 0) :
    ∃ i < 10, ∃ t, 0 ≤ t ∧ t ≤ 1 ∧ e = tenth u i + t * (u / 10) := by
  have key : ∀ n : ℕ, n ≤ 10 → e ≤ tenth u n → ∃ i < 10, tenth u i ≤ e ∧ e ≤ tenth u (i + 1) := by
    intro n
    induction n with
    | zero =>
      intro _ h
      rw [tenth_zero] at h
      have : e = -u := le_antisymm h h1
      refine ⟨0, by norm_num, ?_, ?_⟩
      · rw [tenth_zero, this]
      · rw [tenth_succ, tenth_zero, this]; linarith
    | succ n ih =>
      intro hn h
      rcases le_total e (tenth u n) with h' | h'
      · exact ih (by omega) h'
      · exact ⟨n, by omega, h', h⟩
  obtain ⟨i, hi, ha, hb⟩ := key 10 le_rfl (by rwa [tenth_ten])
  rw [tenth_succ] at hb
  refine ⟨i, hi, (e - tenth u i) / (u / 10), div_nonneg (by linarith) (by linarith), ?_, ?_⟩
  · rw [div_le_one (by linarith)]; linarith
  · field_simp; ring

/-- The polygon of a compression-only law is a compression-only law with the same strength and the same
ultimate strain. -/
theorem Inscribed_compressionOnly {f d : ℝ → ℝ} {u fc : ℝ} (hd : Inscribed f d u) (hu : 2e-5 ≤ u)
    (hf : CompressionOnly f fc u) (h0 : f 0 = 0) : CompressionOnly d fc u := by
  have hpos : 0 < u := by linarith
  have hfc : 0 ≤ fc := by linarith [(hf.bounded 0).1]
  refine ⟨fun e he => ?_, fun e he hc => ?_, fun e => ?_⟩
  · by_cases h2 : Clear e 0
    · by_cases h1 : Clear e (-u)
      · exact hd.outside e h1 h2 (.inr he)
      · exfalso
        apply h1
        rw [Clear, abs_neg, abs_of_pos hpos, abs_of_pos (by linarith)]
        norm_num at hu ⊢; linarith
    · rw [(hd.ends e).2 h2, h0]
  · have h2 : Clear e 0 := by
      rw [Clear, abs_zero, sub_zero, abs_of_neg (by linarith)]
      norm_num at hu ⊢; linarith
    exact hd.outside e hc h2 (.inl he)
  · by_cases h2 : Clear e 0
    · by_cases h1 : Clear e (-u)
      · rcases lt_or_ge e (-u) with h | h
        · rw [hd.outside e h1 h2 (.inl h)]; exact ⟨by linarith, le_rfl⟩
        · rcases lt_or_ge 0 e with h' | h'
          · rw [hd.outside e h1 h2 (.inr h')]; exact ⟨by linarith, le_rfl⟩
          · obtain ⟨i, hi, t, ht0, ht1, rfl⟩ := tenth_cover hpos h h'
            rw [hd.straight i hi t ht0 ht1 h1 h2]
            have a := hf.bounded (tenth u i)
            have b := hf.bounded (tenth u (i + 1))
            constructor <;> nlinarith
      · rw [(hd.ends e).1 h1 h2]; exact hf.bounded _
    · rw [(hd.ends e).2 h2]; exact hf.bounded _

/-- General comparison: if on every part the difference between chord and law lies in `S`, so does the difference between
polygon and law everywhere. -/
theorem Inscribed_compare {f g d : ℝ → ℝ} {u fc : ℝ} {S : Set ℝ} (hd : Inscribed f d u) (hu : 2e-5 ≤ u)
    (hf : CompressionOnly f fc u) (h0 : f 0 = 0) (hfg : ∀ e, f e = g (snap (-u, 100) e))
    (hS : 0 ∈ S) (hnear : ∀ e, -1e-6 ≤ e → e ≤ 0 → -g e ∈ S)
    (hch : ∀ i < 10, ∀ t, 0 ≤ t → t ≤ 1 →
      (1 - t) * g (tenth u i) + t * g (tenth u (i + 1)) - g (tenth u i + t * (u / 10)) ∈ S) (e : ℝ) :
    d e - f e ∈ S := by
  have hpos : 0 < u := by linarith
  have hnode : ∀ i ≤ 10, f (tenth u i) = g (tenth u i) := fun i hi => by rw [hfg, tenth_snap hu i hi]
  have hclear : ∀ x, x ≤ 0 → Clear x (-u) → f x = g x := fun x h1 h2 => by
    rw [hfg, snap_of_clear h2 (clear_hundred_of_nonpos h1)]
  rcases lt_or_ge 0 e with hp | hn
  · rw [hf.no_tension e hp, (Inscribed_compressionOnly hd hu hf h0).no_tension e hp]
    simpa using hS
  by_cases h2 : Clear e 0
  · by_cases h1 : Clear e (-u)
    · rcases lt_or_ge e (-u) with h | h
      · rw [hd.outside e h1 h2 (.inl h), hf.failed e h h1]; simpa using hS
      · rw [hclear e hn h1]
        obtain ⟨i, hi', t, ht0, ht1, rfl⟩ := tenth_cover hpos h hn
        rw [hd.straight i hi' t ht0 ht1 h1 h2, hnode i (by omega), hnode (i + 1) (by omega)]
        exact hch i hi' t ht0 ht1
    · rw [(hd.ends e).1 h1 h2]
      have : f e = f (-u) := by
        rw [hfg e, hfg (-u)]
        have e1 : snap (-u, 100) e = -u := by
          have := (not_isclose_iff _ _).2 (clear_hundred_of_nonpos hn)
          rw [← not_isclose_iff] at h1
          unfold snap; rw [if_neg this, if_pos (not_not.1 h1)]
        have e2 : snap (-u, 100) (-u) = -u := by
          have := tenth_snap hu 0 (by norm_num)
          rwa [tenth_zero] at this
        rw [e1, e2]
      rw [this, sub_self]; exact hS
  · rw [(hd.ends e).2 h2, h0]
    rw [Clear, abs_zero, mul_zero, add_zero, sub_zero, not_lt, abs_of_nonpos hn] at h2
    have hc : Clear e (-u) := by
      rw [Clear, abs_neg, abs_of_pos hpos]
      rw [abs_of_nonneg (by norm_num at hu h2 ⊢; linarith)]
      norm_num at hu h2 ⊢; linarith
    rw [hclear e hn hc, zero_sub]
    exact hnear e (by linarith) hn

theorem chord_convex {g : ℝ → ℝ} {u : ℝ} (hpos : 0 < u) (hconv : ConvexOn ℝ (Set.Icc (-u) 0) g) (i : ℕ) (hi : i < 10)
    (t : ℝ) (ht0 : 0 ≤ t) (ht1 : t ≤ 1) :
    0 ≤ (1 - t) * g (tenth u i) + t * g (tenth u (i + 1)) - g (tenth u i + t * (u / 10)) := by
  have := hconv.2 (show tenth u i ∈ Set.Icc (-u) 0 from tenth_mem hpos (by omega))
    (show tenth u (i + 1) ∈ Set.Icc (-u) 0 from tenth_mem hpos (by omega))
    (show 0 ≤ 1 - t by linarith) ht0 (show 1 - t + t = 1 by ring)
  simp only [smul_eq_mul] at this
  rw [show (1 - t) * tenth u i + t * tenth u (i + 1) = tenth u i + t * (u / 10) by
    rw [tenth_succ]; ring] at this
  linarith

/-- **C65** safe side: if the law is convex on its range (compression grows ever more slowly), the polygon
never carries more compression than the law, at any strain. -/
theorem C65_safe {f g d : ℝ → ℝ} {u fc : ℝ} (hd : Inscribed f d u) (hu : 2e-5 ≤ u)
    (hf : CompressionOnly f fc u) (h0 : f 0 = 0) (hfg : ∀ e, f e = g (snap (-u, 100) e))
    (hconv : ConvexOn ℝ (Set.Icc (-u) 0) g) (e : ℝ) : f e ≤ d e ∧ d e ≤ 0 := by
  have hpos : 0 < u := by linarith
  refine ⟨?_, ((Inscribed_compressionOnly hd hu hf h0).bounded e).2⟩
  have hg : ∀ e, -1e-6 ≤ e → e ≤ 0 → 0 ≤ -g e := by
    intro e h1 h2
    have hc : Clear e (-u) := by
      rw [Clear, abs_neg, abs_of_pos hpos, abs_of_nonneg (by norm_num at hu h1 ⊢; linarith)]
      norm_num at hu h1 ⊢; linarith
    have := hfg e
    rw [snap_of_clear hc (clear_hundred_of_nonpos h2)] at this
    rw [← this]; linarith [(hf.bounded e).2]
  have := Inscribed_compare (S := Set.Ici 0) hd hu hf h0 hfg (Set.mem_Ici.2 le_rfl) hg (by
    intro i hi t ht0 ht1
    exact chord_convex hpos hconv i hi t ht0 ht1) e
  linarith [Set.mem_Ici.1 this]

theorem chord_lip {g : ℝ → ℝ} {u L : ℝ} (hpos : 0 < u) (hL : 0 ≤ L)
    (hlip : ∀ a b, -u ≤ a → a ≤ b → b ≤ 0 → |g a - g b| ≤ L * (b - a)) (i : ℕ) (hi : i < 10) (t : ℝ) (ht0 : 0 ≤ t)
    (ht1 : t ≤ 1) :
    |(1 - t) * g (tenth u i) + t * g (tenth u (i + 1)) - g (tenth u i + t * (u / 10))| ≤ L * u / 20 := by
  have ha := tenth_mem hpos (show i ≤ 10 by omega)
  have hb := tenth_mem hpos (show i + 1 ≤ 10 by omega)
  have hs := tenth_succ u i
  have hx1 : tenth u i ≤ tenth u i + t * (u / 10) := by nlinarith
  have hx2 : tenth u i + t * (u / 10) ≤ tenth u (i + 1) := by rw [hs]; nlinarith
  have h1 := abs_le.1 (hlip _ _ ha.1 hx1 (hx2.trans hb.2))
  have h2 := abs_le.1 (hlip _ _ (ha.1.trans hx1) hx2 hb.2)
  set A := g (tenth u i)
  set B := g (tenth u (i + 1))
  set X := g (tenth u i + t * (u / 10))
  have e1 : tenth u i + t * (u / 10) - tenth u i = t * (u / 10) := by ring
  have e2 : tenth u (i + 1) - (tenth u i + t * (u / 10)) = (1 - t) * (u / 10) := by rw [hs]; ring
  rw [e1] at h1
  rw [e2] at h2
  have hq : L * (u / 10) * (2 * (t * (1 - t))) ≤ L * (u / 10) * (1 / 2) := by
    apply mul_le_mul_of_nonneg_left _ (by positivity)
    nlinarith [sq_nonneg (t - 1 / 2)]
  have c1 := mul_le_mul_of_nonneg_left h1.1 (by linarith : (0:ℝ) ≤ 1 - t)
  have c2 := mul_le_mul_of_nonneg_left h1.2 (by linarith : (0:ℝ) ≤ 1 - t)
  have c3 := mul_le_mul_of_nonneg_left h2.1 ht0
  have c4 := mul_le_mul_of_nonneg_left h2.2 ht0
  rw [abs_le]
  constructor <;> nlinarith

/-- **C65** accuracy: if the law is Lipschitz on its range with constant `L`, the polygon differs from it
by at most `L * u / 20`, at every strain. -/
theorem C65_error {f g d : ℝ → ℝ} {u fc L : ℝ} (hd : Inscribed f d u) (hu : 2e-5 ≤ u)
    (hf : CompressionOnly f fc u) (h0 : f 0 = 0) (hfg : ∀ e, f e = g (snap (-u, 100) e)) (hL : 0 ≤ L)
    (hlip : ∀ a b, -u ≤ a → a ≤ b → b ≤ 0 → |g a - g b| ≤ L * (b - a)) (e : ℝ) :
    |d e - f e| ≤ L * u / 20 := by
  have hpos : 0 < u := by linarith
  have hg0 : g 0 = 0 := by
    have h := hfg 0
    have := tenth_snap hu 10 le_rfl
    rw [tenth_ten] at this
    rw [this, h0] at h
    exact h.symm
  refine Inscribed_compare (S := {x | |x| ≤ L * u / 20}) hd hu hf h0 hfg ?_ ?_ ?_ e
  · simp only [Set.mem_ofPred_eq, abs_zero]; positivity
  · intro e h1 h2
    have := hlip e 0 (by norm_num at hu h1; linarith) h2 le_rfl
    rw [hg0, sub_zero, zero_sub] at this
    simp only [Set.mem_ofPred_eq, abs_neg]
    refine this.trans ?_
    norm_num at hu h1
    nlinarith
  · intro i hi t ht0 ht1
    exact chord_lip hpos hL hlip i hi t ht0 ht1

/-! ## Sargin -/

theorem sargin_samples (fc e1 u k : ℝ) :
    Samples (fun n => (Sargin.new fc e1 u k).getStressCall (ι := Fin n)) (Sargin.new fc e1 u k).stress |u| := by
  refine ⟨fun n eps i => C05_sargin fc e1 u k (Fin n) eps i, fun n eps i => ?_⟩
  exact snapArr_apply (lim := (-|u|, 100)) (not_isclose_hundred u) eps i

/-- The chord of the Sargin curve, exactly. -/
theorem sargin_chord {k a h t : ℝ} (hA : 1 + (k - 2) * a ≠ 0) (hX : 1 + (k - 2) * (a - t * h) ≠ 0)
    (hB : 1 + (k - 2) * (a - h) ≠ 0) :
    (k * (a - t * h) - (a - t * h) ^ 2) / (1 + (k - 2) * (a - t * h)) -
      ((1 - t) * ((k * a - a ^ 2) / (1 + (k - 2) * a)) +
        t * ((k * (a - h) - (a - h) ^ 2) / (1 + (k - 2) * (a - h)))) =
    (k - 1) ^ 2 * (t * (1 - t) * h ^ 2) /
      ((1 + (k - 2) * a) * (1 + (k - 2) * (a - t * h)) * (1 + (k - 2) * (a - h))) := by
  have gen : ∀ nx na nb A X B : ℝ, A ≠ 0 → X ≠ 0 → B ≠ 0 → nx / X - ((1 - t) * (na / A) + t * (nb / B)) =
      (nx * A * B - (1 - t) * na * X * B - t * nb * X * A) / (A * X * B) := by
    intro nx na nb A X B h1 h2 h3
    field_simp
    ring
  rw [gen _ _ _ _ _ _ hA hX hB]
  congr 1
  ring

theorem sargin_chord_bound {k a h t m r : ℝ} (ht0 : 0 ≤ t) (ht1 : t ≤ 1) (hm : 0 < m) (hr : h = r / 10)
    (dA : m ≤ 1 + (k - 2) * a) (dX : m ≤ 1 + (k - 2) * (a - t * h)) (dB : m ≤ 1 + (k - 2) * (a - h)) :
    0 ≤ (k - 1) ^ 2 * (t * (1 - t) * h ^ 2) /
      ((1 + (k - 2) * a) * (1 + (k - 2) * (a - t * h)) * (1 + (k - 2) * (a - h))) ∧
    (k - 1) ^ 2 * (t * (1 - t) * h ^ 2) /
      ((1 + (k - 2) * a) * (1 + (k - 2) * (a - t * h)) * (1 + (k - 2) * (a - h))) ≤
      (k - 1) ^ 2 * r ^ 2 / (400 * m ^ 3) := by
  generalize 1 + (k - 2) * a = A at *
  generalize 1 + (k - 2) * (a - t * h) = X at *
  generalize 1 + (k - 2) * (a - h) = B at *
  have hq0 : 0 ≤ t * (1 - t) := mul_nonneg ht0 (by linarith)
  have hden0 : 0 < A * X * B := mul_pos (mul_pos (by linarith) (by linarith)) (by linarith)
  have hq : t * (1 - t) ≤ 1 / 4 := by nlinarith [sq_nonneg (t - 1 / 2)]
  have hden : m ^ 3 ≤ A * X * B := by
    have h1 : m * m ≤ A * X := mul_le_mul dA dX hm.le (by linarith)
    have h2 : m * m * m ≤ A * X * B := mul_le_mul h1 dB hm.le (mul_nonneg (by linarith) (by linarith))
    linarith [h2, (by ring : m ^ 3 = m * m * m)]
  refine ⟨by positivity, ?_⟩
  calc (k - 1) ^ 2 * (t * (1 - t) * h ^ 2) / (A * X * B)
      ≤ (k - 1) ^ 2 * (1 / 4 * h ^ 2) / m ^ 3 := by
        apply div_le_div₀ (by positivity) _ (by positivity) hden
        apply mul_le_mul_of_nonneg_left _ (sq_nonneg _)
        exact mul_le_mul_of_nonneg_right hq (sq_nonneg _)
    _ = _ := by rw [hr]; field_simp; ring

theorem clear_near {v e : ℝ} (hv : 2e-5 ≤ v) (h1 : -1e-6 ≤ e) : -v ≤ e ∧ Clear e (-v) := by
  norm_num at hv h1
  refine ⟨by linarith, ?_⟩
  rw [Clear, abs_neg, abs_of_pos (by linarith : 0 < v), abs_of_nonneg (by linarith)]
  norm_num; linarith

theorem sargin_core (fc e1 u k : ℝ) {e : ℝ} (h1 : -|u| ≤ e) (h2 : e ≤ 0) : (Sargin.new fc e1 u k).core e =
    -(|fc| * ((k * (-e / |e1|) - (-e / |e1|) ^ 2) / (1 + (k - 2) * (-e / |e1|)))) := by
  have c : ¬ (e < (Sargin.new fc e1 u k).eps_cu1 ∨ e > 0) := by push Not; exact ⟨h1, h2⟩
  have : e / -|e1| = -e / |e1| := by rw [div_neg, neg_div]
  simp only [Sargin.core]
  rw [if_neg c]
  simp only [Sargin.new, this]
  ring

theorem sargin_den {e1 u k m : ℝ} (hm1 : m ≤ 1) (hmu : m ≤ 1 + (k - 2) * (|u| / |e1|)) {x : ℝ} (hx : 0 ≤ x)
    (hx' : x ≤ |u| / |e1|) : m ≤ 1 + (k - 2) * x := by
  rcases le_total 2 k with h | h
  · nlinarith
  · nlinarith

/-- On each of the ten parts the chord of the Sargin law lies above it (less compression) by at most
`fc (k - 1)^2 (u / e1)^2 / (400 m^3)`. -/
theorem sargin_part (fc e1 u k m : ℝ) (h0 : 0 < |e1|) (hpos : 0 < |u|)
    (hm : 0 < m) (hm1 : m ≤ 1) (hmu : m ≤ 1 + (k - 2) * (|u| / |e1|)) (i : ℕ) (hi : i < 10) (t : ℝ) (ht0 : 0 ≤ t)
    (ht1 : t ≤ 1) :
    (1 - t) * (Sargin.new fc e1 u k).core (tenth |u| i) + t * (Sargin.new fc e1 u k).core (tenth |u| (i + 1)) -
      (Sargin.new fc e1 u k).core (tenth |u| i + t * (|u| / 10)) ∈
      Set.Icc 0 (|fc| * ((k - 1) ^ 2 * (|u| / |e1|) ^ 2 / (400 * m ^ 3))) := by
  have hfc := abs_nonneg fc
  have ha := tenth_mem hpos (show i ≤ 10 by omega)
  have hb := tenth_mem hpos (show i + 1 ≤ 10 by omega)
  have hs := tenth_succ |u| i
  have hx1 : tenth |u| i ≤ tenth |u| i + t * (|u| / 10) := by nlinarith
  have hx2 : tenth |u| i + t * (|u| / 10) ≤ tenth |u| (i + 1) := by rw [hs]; nlinarith
  rw [sargin_core fc e1 u k ha.1 ha.2, sargin_core fc e1 u k hb.1 hb.2,
    sargin_core fc e1 u k (ha.1.trans hx1) (hx2.trans hb.2)]
  have eb : -(tenth |u| (i + 1)) / |e1| = -(tenth |u| i) / |e1| - |u| / 10 / |e1| := by rw [hs]; ring
  have ex : -(tenth |u| i + t * (|u| / 10)) / |e1| = -(tenth |u| i) / |e1| - t * (|u| / 10 / |e1|) := by ring
  have dA := sargin_den hm1 hmu (x := -(tenth |u| i) / |e1|) (div_nonneg (by linarith) h0.le)
    (div_le_div_of_nonneg_right (by linarith) h0.le)
  have dX := sargin_den hm1 hmu (x := -(tenth |u| i + t * (|u| / 10)) / |e1|) (div_nonneg (by linarith) h0.le)
    (div_le_div_of_nonneg_right (by linarith) h0.le)
  have dB := sargin_den hm1 hmu (x := -(tenth |u| (i + 1)) / |e1|) (div_nonneg (by linarith) h0.le)
    (div_le_div_of_nonneg_right (by linarith) h0.le)
  rw [ex] at dX ⊢
  rw [eb] at dB ⊢
  have key := sargin_chord (k := k) (a := -(tenth |u| i) / |e1|) (h := |u| / 10 / |e1|) (t := t)
    (by linarith) (by linarith) (by linarith)
  obtain ⟨hE, hE2⟩ := sargin_chord_bound (k := k) (a := -(tenth |u| i) / |e1|) (h := |u| / 10 / |e1|) (t := t)
    (r := |u| / |e1|) ht0 ht1 hm (by ring) dA dX dB
  rw [← key] at hE hE2
  have h1 := mul_nonneg hfc hE
  have h2 := mul_le_mul_of_nonneg_left hE2 hfc
  constructor
  · linarith
  · linarith

/-- **C65** for Sargin (`1 < k`, `|u| ≤ k |e1|`, the range in which the law is in compression): the Marin
integrator uses the polygon inscribed in the law; it is a compression-only law with the same strength and ultimate
strain, never stronger than the law itself, and weaker by at most
`fc ((k - 1)^2 (u / e1)^2 / (400 m^3) + 1e-6 k / (e1 m))`, where `m` bounds the denominator of the law from below. -/
theorem C65_sargin (fc e1 u k m : ℝ) (h0 : 0 < |e1|) (hu : 2e-5 ≤ |u|) (hk : 1 < k) (hku : |u| ≤ k * |e1|)
    (hm : 0 < m) (hm1 : m ≤ 1) (hmu : m ≤ 1 + (k - 2) * (|u| / |e1|))
    (hne : (Sargin.new fc e1 u k).stress (-|u|) ≠ 0)
    (hrel : |fc| * 1e-6 ≤ -(Sargin.new fc e1 u k).stress (-|u|)) :
    ∃ d, (Sargin.new fc e1 u k).discretized = .ok d ∧ Inscribed (Sargin.new fc e1 u k).stress d.stress |u| ∧
      CompressionOnly d.stress |fc| |u| ∧
      ∀ e, 0 ≤ d.stress e - (Sargin.new fc e1 u k).stress e ∧
        d.stress e - (Sargin.new fc e1 u k).stress e ≤
          |fc| * ((k - 1) ^ 2 * (|u| / |e1|) ^ 2 / (400 * m ^ 3) + k * 1e-6 / (|e1| * m)) := by
  set l := Sargin.new fc e1 u k with hl
  have hpos : 0 < |u| := by linarith
  have hco : CompressionOnly l.stress |fc| |u| := C08_sargin_partial fc e1 u k h0 (by linarith) hk hku
  have hult : l.ult false = (-|u|, 100) := rfl
  have hs0 : snap (-|u|, 100) 0 = 0 := by
    have := tenth_snap hu 10 le_rfl
    rwa [tenth_ten] at this
  have hz : l.stress 0 = 0 := by
    rw [Sargin.stress, hult, hs0]
    simp [Sargin.core]
  have hin := C65_inscribed (f := l.stress) hu
  refine ⟨_, C65_nodes (sargin_samples fc e1 u k) hco hz hu hne hrel, hin,
    Inscribed_compressionOnly hin hu hco hz, fun e => ?_⟩
  have hfc := abs_nonneg fc
  have hB : 0 ≤ (k - 1) ^ 2 * (|u| / |e1|) ^ 2 / (400 * m ^ 3) := by positivity
  have hC : 0 ≤ k * 1e-6 / (|e1| * m) := by
    have : 0 < k := by linarith
    positivity
  refine Inscribed_compare (g := l.core)
    (S := Set.Icc 0 (|fc| * ((k - 1) ^ 2 * (|u| / |e1|) ^ 2 / (400 * m ^ 3) + k * 1e-6 / (|e1| * m))))
    hin hu hco hz (fun e => rfl) ?_ ?_ ?_ e
  · exact ⟨le_rfl, by positivity⟩
  · intro e h1 h2
    obtain ⟨hge, hc⟩ := clear_near hu h1
    have hval : l.stress e = l.core e := by
      rw [Sargin.stress, hult, snap_of_clear hc (clear_hundred_of_nonpos h2)]
    refine ⟨by rw [← hval]; linarith [(hco.bounded e).2], ?_⟩
    rw [sargin_core fc e1 u k hge h2, neg_neg]
    apply mul_le_mul_of_nonneg_left _ hfc
    have hx0 : 0 ≤ -e / |e1| := div_nonneg (by linarith) h0.le
    have hx1 : -e / |e1| ≤ |u| / |e1| := div_le_div_of_nonneg_right (by linarith) h0.le
    have hDx := sargin_den hm1 hmu hx0 hx1
    have hnum : k * (-e / |e1|) - (-e / |e1|) ^ 2 ≤ k * 1e-6 / |e1| := by
      have : k * (-e / |e1|) ≤ k * 1e-6 / |e1| := by
        rw [mul_div_assoc]
        apply mul_le_mul_of_nonneg_left _ (by linarith)
        exact div_le_div_of_nonneg_right (by linarith) h0.le
      nlinarith [sq_nonneg (-e / |e1|)]
    have hk0 : 0 ≤ k * 1e-6 / |e1| := by
      have : 0 < k := by linarith
      positivity
    calc _ ≤ (k * 1e-6 / |e1|) / m := div_le_div₀ hk0 hnum hm hDx
      _ = k * 1e-6 / (|e1| * m) := by rw [div_div]
      _ ≤ _ := by linarith
  · intro i hi t ht0 ht1
    have h3 := mul_nonneg hfc hC
    obtain ⟨h1, h2⟩ := sargin_part fc e1 u k m h0 hpos hm hm1 hmu i hi t ht0 ht1
    exact ⟨h1, by linarith⟩

example : (2e-5 : ℝ) ≤ |0.0035| ∧ |(0.0035 : ℝ)| ≤ 2 * |0.002| ∧
    (1 : ℝ) ≤ 1 + (2 - 2) * (|0.0035| / |0.002|) ∧
    (Sargin.new 30 0.002 0.0035 2).stress (-|0.0035|) = -13.125 ∧
    |(30 : ℝ)| * 1e-6 ≤ -(Sargin.new 30 0.002 0.0035 2).stress (-|0.0035|) := by
  have hv : (Sargin.new 30 0.002 0.0035 2).stress (-|0.0035|) = -13.125 := by
    have h : snap (-|0.0035|, 100) (-|(0.0035 : ℝ)|) = -|0.0035| := by
      have := tenth_snap (u := |0.0035|) (by norm_num [abs_of_pos]) 0 (by norm_num)
      rwa [tenth_zero] at this
    rw [Sargin.stress, show (Sargin.new 30 0.002 0.0035 2).ult false = (-|0.0035|, 100) from rfl, h]
    norm_num [Sargin.core, abs_of_pos]
  rw [hv]
  norm_num [abs_of_pos]

/-! ## Parabola-rectangle with an exponent other than 2 -/

theorem parabola_samples (fc e0 u n : ℝ) (h : |e0| ≤ |u|) :
    Samples (fun m => (ParabolaRectangle.new fc e0 u n).getStressCall (ι := Fin m))
      (ParabolaRectangle.new fc e0 u n).stress |u| := by
  refine ⟨fun m eps i => C05_parabola_rectangle_partial fc e0 u n h (Fin m) eps i, fun m eps i => ?_⟩
  exact snapArr_apply (lim := (-|u|, 100)) (not_isclose_hundred u) eps i

theorem parabola_core (fc e0 u n : ℝ) (h0 : 0 < |e0|) (hn : 1 ≤ n) {e : ℝ} (h1 : -|u| ≤ e) (h2 : e ≤ 0) :
    (ParabolaRectangle.new fc e0 u n).core e = |fc| * ((max 0 (1 + e / |e0|)) ^ n - 1) := by
  have hne : n ≠ 0 := by linarith
  simp only [ParabolaRectangle.core, ParabolaRectangle.new]
  rcases lt_or_ge e (-|e0|) with h | h
  · rw [if_pos ⟨h1, h⟩]
    have : 1 + e / |e0| ≤ 0 := by
      have : e / |e0| ≤ -1 := by rw [div_le_iff₀ h0]; linarith
      linarith
    rw [max_eq_left this, Real.zero_rpow hne]; ring
  · rw [if_neg (by push Not; intro; exact h), if_pos ⟨h, h2⟩]
    have : 0 ≤ 1 + e / |e0| := by
      have : -1 ≤ e / |e0| := by rw [le_div_iff₀ h0]; linarith
      linarith
    rw [max_eq_right this]
    have e1 : 1 - e / -|e0| = 1 + e / |e0| := by rw [div_neg]; ring
    rw [e1]; ring

theorem parabola_convex (c n fc : ℝ) (hn : 1 ≤ n) (hc : 0 < c) (hfc : 0 ≤ fc) (s : Set ℝ) (hs : Convex ℝ s) :
    ConvexOn ℝ s fun e => fc * ((max 0 (1 + e / c)) ^ n - 1) := by
  have h1 : ConvexOn ℝ s fun e : ℝ => max 0 (1 + e / c) := by
    refine ⟨hs, ?_⟩
    intro x _ y _ a b ha hb hab
    simp only [smul_eq_mul]
    refine max_le (by positivity) ?_
    have hx := le_max_right 0 (1 + x / c)
    have hy := le_max_right 0 (1 + y / c)
    have : 1 + (a * x + b * y) / c = a * (1 + x / c) + b * (1 + y / c) := by
      have hb' : b = 1 - a := by linarith
      rw [hb']; ring
    rw [this]
    exact add_le_add (mul_le_mul_of_nonneg_left hx ha) (mul_le_mul_of_nonneg_left hy hb)
  have h2 := convexOn_rpow hn
  refine ⟨hs, ?_⟩
  intro x hx y hy a b ha hb hab
  have p1 := h1.2 hx hy ha hb hab
  have p2 := h2.2 (Set.mem_Ici.2 (le_max_left 0 (1 + x / c))) (Set.mem_Ici.2 (le_max_left 0 (1 + y / c))) ha hb hab
  simp only [smul_eq_mul] at p1 p2 ⊢
  have p3 : (max 0 (1 + (a * x + b * y) / c)) ^ n ≤
      (a * max 0 (1 + x / c) + b * max 0 (1 + y / c)) ^ n :=
    Real.rpow_le_rpow (le_max_left _ _) p1 (by linarith)
  have p4 := mul_le_mul_of_nonneg_left (p3.trans p2) hfc
  calc _ ≤ fc * (a * (max 0 (1 + x / c)) ^ n + b * (max 0 (1 + y / c)) ^ n) - fc * (a + b) := by
        rw [hab]; linarith
    _ = _ := by ring

theorem rpow_lip {n a b : ℝ} (hn : 1 ≤ n) (ha : 0 ≤ a) (hab : a ≤ b) (hb : b ≤ 1) :
    b ^ n - a ^ n ≤ n * (b - a) := by
  have key := (convex_Icc (0:ℝ) 1).norm_image_sub_le_of_norm_hasDerivWithin_le
    (f := fun x => x ^ n) (f' := fun x => n * x ^ (n - 1)) (C := n)
    (fun x _ => (Real.hasDerivAt_rpow_const (Or.inr hn)).hasDerivWithinAt) (fun x hx => by
      have : x ^ (n - 1) ≤ 1 := Real.rpow_le_one hx.1 hx.2 (by linarith)
      have h0 : 0 ≤ x ^ (n - 1) := Real.rpow_nonneg hx.1 _
      rw [Real.norm_of_nonneg (by positivity)]
      nlinarith)
    (show a ∈ Set.Icc 0 1 from ⟨ha, by linarith⟩) (show b ∈ Set.Icc 0 1 from ⟨by linarith, hb⟩)
  rw [Real.norm_eq_abs, Real.norm_eq_abs, abs_of_nonneg (by linarith : 0 ≤ b - a)] at key
  exact (le_abs_self _).trans key

theorem parabola_core_convex (fc e0 u n : ℝ) (h0 : 0 < |e0|) (hn : 1 ≤ n) :
    ConvexOn ℝ (Set.Icc (-|u|) 0) (ParabolaRectangle.new fc e0 u n).core :=
  (parabola_convex |e0| n |fc| hn h0 (abs_nonneg fc) _ (convex_Icc _ _)).congr fun _ he =>
    (parabola_core fc e0 u n h0 hn he.1 he.2).symm

theorem parabola_lip (fc e0 u n : ℝ) (h0 : 0 < |e0|) (hn : 1 ≤ n) {a b : ℝ} (h1 : -|u| ≤ a) (h2 : a ≤ b)
    (h3 : b ≤ 0) : |(ParabolaRectangle.new fc e0 u n).core a - (ParabolaRectangle.new fc e0 u n).core b| ≤
      n * |fc| / |e0| * (b - a) := by
  rw [parabola_core fc e0 u n h0 hn h1 (h2.trans h3), parabola_core fc e0 u n h0 hn (h1.trans h2) h3]
  have m1 : max 0 (1 + a / |e0|) ≤ max 0 (1 + b / |e0|) :=
    max_le_max le_rfl (by have := div_le_div_of_nonneg_right h2 h0.le; linarith)
  have m2 : max 0 (1 + b / |e0|) ≤ 1 := max_le (by norm_num) (by
    have := div_nonpos_of_nonpos_of_nonneg h3 h0.le; linarith)
  have m3 : max 0 (1 + b / |e0|) - max 0 (1 + a / |e0|) ≤ (b - a) / |e0| := by
    have hd : 0 ≤ (b - a) / |e0| := div_nonneg (by linarith) h0.le
    have : 1 + b / |e0| = 1 + a / |e0| + (b - a) / |e0| := by ring
    rw [sub_le_iff_le_add, this]
    refine max_le (by positivity) ?_
    linarith [le_max_right 0 (1 + a / |e0|)]
  have r1 := rpow_lip hn (le_max_left 0 (1 + a / |e0|)) m1 m2
  have r2 : (max 0 (1 + a / |e0|)) ^ n ≤ (max 0 (1 + b / |e0|)) ^ n :=
    Real.rpow_le_rpow (le_max_left _ _) m1 (by linarith)
  rw [← mul_sub, abs_mul, abs_abs, abs_of_nonpos (show (max 0 (1 + a / |e0|)) ^ n - 1 - ((max 0 (1 + b / |e0|)) ^ n - 1) ≤ 0 by linarith)]
  have r3 : n * (max 0 (1 + b / |e0|) - max 0 (1 + a / |e0|)) ≤ n * ((b - a) / |e0|) :=
    mul_le_mul_of_nonneg_left m3 (by linarith)
  calc _ ≤ |fc| * (n * ((b - a) / |e0|)) := mul_le_mul_of_nonneg_left (by linarith) (abs_nonneg fc)
    _ = _ := by ring

/-- **C65** for the parabola-rectangle law with exponent `n ≥ 1`: the Marin integrator uses the inscribed polygon
(when `n != 2`), a compression-only law with the same strength and ultimate strain which is never stronger than
the law and weaker by at most `n fc / e0 * u / 20`. -/
theorem C65_parabola_rectangle (fc e0 u n : ℝ) (hfc : fc ≠ 0) (h0 : 0 < |e0|) (hu0 : |e0| ≤ |u|) (hu : 2e-5 ≤ |u|)
    (hn : 1 ≤ n) :
    ∃ d, (ParabolaRectangle.new fc e0 u n).discretized = .ok d ∧
      Inscribed (ParabolaRectangle.new fc e0 u n).stress d.stress |u| ∧ CompressionOnly d.stress |fc| |u| ∧
      (∀ e, 0 ≤ d.stress e - (ParabolaRectangle.new fc e0 u n).stress e ∧
        d.stress e - (ParabolaRectangle.new fc e0 u n).stress e ≤ n * |fc| / |e0| * |u| / 20) ∧
      (n ≠ 2 → ∀ e0' e1', (ParabolaRectangle.new fc e0 u n).marinAny e0' e1' = .ok (d.marin e0' e1')) := by
  set l := ParabolaRectangle.new fc e0 u n with hl
  have hpos : 0 < |u| := by linarith
  have hfc0 : 0 < |fc| := abs_pos.2 hfc
  have hco : CompressionOnly l.stress |fc| |u| := C08_parabola_rectangle fc e0 u n h0 hu0 (by linarith) (by linarith)
  have hult : l.ult false = (-|u|, 100) := rfl
  have hend : snap (-|u|, 100) (-|u|) = -|u| := by
    have := tenth_snap hu 0 (by norm_num)
    rwa [tenth_zero] at this
  have hz : l.stress 0 = 0 := (C09_parabola_rectangle fc e0 u n h0 hu0 (by linarith) (by linarith)).2
  have hval : l.stress (-|u|) = -|fc| := by
    rw [ParabolaRectangle.stress, hult, hend, parabola_core fc e0 u n h0 hn le_rfl (by linarith)]
    have : 1 + -|u| / |e0| ≤ 0 := by
      have : -|u| / |e0| ≤ -1 := by rw [div_le_iff₀ h0]; linarith
      linarith
    rw [max_eq_left this, Real.zero_rpow (by linarith)]; ring
  have hin := C65_inscribed (f := l.stress) hu
  have hdis : l.discretized = .ok ⟨nodes l.stress |u|, -|u|, 0⟩ :=
    C65_nodes (parabola_samples fc e0 u n hu0) hco hz hu (by rw [hval]; linarith)
      (by rw [hval, neg_neg]; nlinarith)
  refine ⟨_, hdis, hin, Inscribed_compressionOnly hin hu hco hz, fun e => ⟨?_, ?_⟩, fun h2 a b => ?_⟩
  · linarith [(C65_safe hin hu hco hz (fun e => rfl) (parabola_core_convex fc e0 u n h0 hn) e).1]
  · refine (le_abs_self _).trans ?_
    refine C65_error hin hu hco hz (g := l.core) (fun e => rfl) (by positivity) ?_ e
    intro a b h1 h2 h3
    exact parabola_lip fc e0 u n h0 hn h1 h2 h3
  · have : l.n ≠ 2 := h2
    simp only [ParabolaRectangle.marinAny, if_pos this, hdis]; rfl

example : (2e-5 : ℝ) ≤ |0.0031| ∧ |(0.0022 : ℝ)| ≤ |0.0031| ∧ (1 : ℝ) ≤ 1.75 := by norm_num [abs_of_pos]

/-! ## Popovics -/

theorem popovics_samples {fc ec u : ℝ} {Ec : Option ℝ} {l : Popovics} (hl : Popovics.new? fc ec u Ec = .ok l) :
    Samples (fun m => l.getStressCall (ι := Fin m)) l.stress |u| := by
  have hcu : l.eps_cu = -|u| := by
    unfold Popovics.new? at hl
    dsimp only at hl
    split_ifs at hl
    cases hl; rfl
  have hult : l.ult false = (-|u|, 100) := by simp [Popovics.ult, hcu]
  refine ⟨fun m eps i => C05_popovics hl (Fin m) eps i, fun m eps i => ?_⟩
  simp only [Popovics.getStressCall, hult]
  exact snapArr_apply (lim := (-|u|, 100)) (not_isclose_hundred u) eps i

/-- Slope of the normalised Popovics curve. -/
theorem popovics_slope {n x : ℝ} (hn : 1 < n) (hx : 0 ≤ x) :
    HasDerivAt (fun x => x * n / (n - 1 + x ^ n)) (n * (n - 1) * (1 - x ^ n) / (n - 1 + x ^ n) ^ 2) x ∧
    |n * (n - 1) * (1 - x ^ n) / (n - 1 + x ^ n) ^ 2| ≤ max (n / (n - 1)) ((n - 1) / 4) := by
  have hy : 0 ≤ x ^ n := Real.rpow_nonneg hx n
  have hd : 0 < n - 1 + x ^ n := by linarith
  constructor
  · have h1 : HasDerivAt (fun x : ℝ => x ^ n) (n * x ^ (n - 1)) x := Real.hasDerivAt_rpow_const (Or.inr hn.le)
    have h2 := ((hasDerivAt_id x).mul_const n).div (h1.const_add (n - 1)) hd.ne'
    refine h2.congr_deriv ?_
    have hxx : x * x ^ (n - 1) = x ^ n := by
      rcases hx.eq_or_lt with h | h
      · rw [← h, zero_mul, Real.zero_rpow (by linarith)]
      · rw [mul_comm, ← Real.rpow_add_one h.ne']; congr 1; ring
    simp only [id]
    congr 1
    linear_combination (-n ^ 2) * hxx
  · rw [abs_div, abs_of_pos (by positivity : 0 < (n - 1 + x ^ n) ^ 2)]
    rcases le_total (x ^ n) 1 with h | h
    · refine le_trans ?_ (le_max_left _ _)
      have hnum : 0 ≤ n * (n - 1) * (1 - x ^ n) :=
        mul_nonneg (mul_nonneg (by linarith) (by linarith)) (by linarith)
      rw [abs_of_nonneg hnum, div_le_div_iff₀ (by positivity) (by linarith)]
      have h1 : n * (n - 1) * (1 - x ^ n) * (n - 1) ≤ n * (n - 1) ^ 2 := by
        have : 0 ≤ n * (n - 1) ^ 2 := by positivity
        nlinarith
      have h2 : n * (n - 1) ^ 2 ≤ n * (n - 1 + x ^ n) ^ 2 := by
        apply mul_le_mul_of_nonneg_left _ (by linarith)
        nlinarith
      linarith
    · refine le_trans ?_ (le_max_right _ _)
      have hnum : n * (n - 1) * (1 - x ^ n) ≤ 0 :=
        mul_nonpos_of_nonneg_of_nonpos (mul_nonneg (by linarith) (by linarith)) (by linarith)
      rw [abs_of_nonpos hnum, div_le_div_iff₀ (by positivity) (by norm_num)]
      have : 4 * n * (x ^ n - 1) ≤ (n - 1 + x ^ n) ^ 2 := by nlinarith [sq_nonneg (n - (x ^ n - 1))]
      nlinarith

theorem popovics_lip {n a b : ℝ} (hn : 1 < n) (ha : 0 ≤ a) (hab : a ≤ b) :
    |b * n / (n - 1 + b ^ n) - a * n / (n - 1 + a ^ n)| ≤ max (n / (n - 1)) ((n - 1) / 4) * (b - a) := by
  have key := (convex_Ici (0:ℝ)).norm_image_sub_le_of_norm_hasDerivWithin_le
    (f := fun x => x * n / (n - 1 + x ^ n)) (fun x hx => (popovics_slope hn hx).1.hasDerivWithinAt)
    (fun x hx => (popovics_slope hn hx).2) (show a ∈ Set.Ici 0 from ha) (show b ∈ Set.Ici 0 from ha.trans hab)
  rwa [Real.norm_eq_abs, Real.norm_eq_abs, abs_of_nonneg (by linarith : 0 ≤ b - a)] at key

/-- **C65** for Popovics (initial modulus `Ec` above the secant modulus, so that `n > 1`): the Marin integrator uses
the inscribed polygon, a compression-only law with the same strength and ultimate strain, which differs from the
law by at most `fc / ec * max (n / (n - 1)) ((n - 1) / 4) * u / 20`. -/
theorem C65_popovics (fc ec u Ec : ℝ) {l : Popovics} (hl : Popovics.new? fc ec u (some Ec) = .ok l)
    (hE : |fc| / |ec| < Ec) (hu : 2e-5 ≤ |u|) (hne : l.stress (-|u|) ≠ 0)
    (hrel : |fc| * 1e-6 ≤ -l.stress (-|u|)) :
    ∃ d, l.discretized = .ok d ∧ Inscribed l.stress d.stress |u| ∧ CompressionOnly d.stress |fc| |u| ∧
      ∀ e, |d.stress e - l.stress e| ≤ |fc| / |ec| * max (l.n / (l.n - 1)) ((l.n - 1) / 4) * |u| / 20 := by
  have hco : CompressionOnly l.stress |fc| |u| := C08_popovics fc ec u Ec hl hE (by linarith)
  have hsam := popovics_samples hl
  unfold Popovics.new? at hl
  simp only [Option.getD_some] at hl
  split_ifs at hl with g1 g2 g3
  cases hl
  have hec : 0 < |ec| := lt_of_le_of_ne (abs_nonneg _) (by intro h; apply g2; rw [← h]; simp)
  rw [neg_div_neg_eq] at *
  set n := Ec / (Ec - |fc| / |ec|) with hndef
  set l : Popovics := ⟨-|fc|, -|ec|, -|u|, n⟩ with hl
  have hsec : 0 ≤ |fc| / |ec| := by positivity
  by_cases hf0 : fc = 0
  · exfalso
    apply hne
    have := hco.bounded (-|u|)
    rw [hf0, abs_zero, neg_zero] at this
    linarith [this.1, this.2]
  have hsec : 0 < |fc| / |ec| := div_pos (abs_pos.2 hf0) hec
  have hn : 1 < n := by rw [hndef, lt_div_iff₀ (by linarith)]; linarith
  have hult : l.ult false = (-|u|, 100) := rfl
  have hs0 : snap (-|u|, 100) 0 = 0 := by
    have := tenth_snap hu 10 le_rfl
    rwa [tenth_ten] at this
  have hz : l.stress 0 = 0 := by
    rw [Popovics.stress, hult, hs0]
    simp [Popovics.core]
  have hin := C65_inscribed (f := l.stress) hu
  have hdis : l.discretized = .ok ⟨nodes l.stress |u|, -|u|, 0⟩ := C65_nodes hsam hco hz hu hne hrel
  have hcore : ∀ e, -|u| ≤ e → e ≤ 0 → l.core e = -(|fc| * (-e / |ec| * n / (n - 1 + (-e / |ec|) ^ n))) := by
    intro e h1 h2
    have c : ¬ (e < l.eps_cu ∨ e > 0) := by push Not; exact ⟨h1, h2⟩
    have : e / -|ec| = -e / |ec| := by rw [div_neg, neg_div]
    simp only [Popovics.core]
    rw [if_neg c]
    simp only [hl, this]
    ring
  have hM : 0 ≤ max (n / (n - 1)) ((n - 1) / 4) := le_max_of_le_right (by linarith)
  refine ⟨_, hdis, hin, Inscribed_compressionOnly hin hu hco hz, fun e => ?_⟩
  refine C65_error hin hu hco hz (g := l.core) (fun e => rfl) (mul_nonneg hsec.le hM) ?_ e
  intro a b h1 h2 h3
  rw [hcore a h1 (h2.trans h3), hcore b (h1.trans h2) h3]
  have key := popovics_lip hn (a := -b / |ec|) (b := -a / |ec|) (div_nonneg (by linarith) hec.le)
    (div_le_div_of_nonneg_right (by linarith) hec.le)
  rw [neg_sub_neg, ← mul_sub, abs_mul, abs_abs, abs_sub_comm]
  calc _ ≤ |fc| * (max (n / (n - 1)) ((n - 1) / 4) * (-a / |ec| - -b / |ec|)) :=
        mul_le_mul_of_nonneg_left key (abs_nonneg fc)
    _ = _ := by ring


example : Popovics.new? 30 0.002 0.0035 (some 30000) = .ok ⟨-30, -0.002, -0.0035, 2⟩ ∧
    |(30 : ℝ)| / |0.002| < 30000 ∧ |(30 : ℝ)| * 1e-6 ≤ -Popovics.stress ⟨-30, -0.002, -0.0035, 2⟩ (-|0.0035|) := by
  refine ⟨?_, by norm_num [abs_of_pos], ?_⟩
  · simp only [Popovics.new?, Option.getD_some]
    norm_num [abs_of_pos]
  · have h : snap (-0.0035, 100) (-|(0.0035 : ℝ)|) = -0.0035 := by
      have := tenth_snap (u := 0.0035) (by norm_num) 0 (by norm_num)
      rw [tenth_zero] at this
      rw [abs_of_pos (by norm_num)]; exact this
    rw [Popovics.stress, show Popovics.ult ⟨-30, -0.002, -0.0035, 2⟩ false = (-0.0035, 100) from rfl, h]
    norm_num [Popovics.core, abs_of_pos]

end SC
