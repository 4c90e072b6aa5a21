import Verif.Props.Discretize

/-! # C65: laws with tension that are replaced by a polygon

No law of the library has tension and no Marin expressions of its own, but a law written by a user on the base class has. -/

set_option autoImplicit false

namespace SC

open Classical Spec

/-- An array call that works entry by entry, for a law with the ultimate strains `lim`. -/
structure SamplesIn (c : StressCall) (f : ℝ → ℝ) (lim : ℝ × ℝ) : Prop where
  stress : ∀ n eps i, (c n eps).1 i = f (eps i)
  kept : ∀ n eps i, (c n eps).2 i = snap lim (eps i)

theorem SamplesIn.onList {c : StressCall} {f : ℝ → ℝ} {lim : ℝ × ℝ} (h : SamplesIn c f lim) (eps : List ℝ) :
    c.onList eps = (eps.map f, eps.map (snap lim)) := by
  have h1 : (c eps.length eps.get).1 = f ∘ eps.get := funext fun i => h.stress _ _ _
  have h2 : (c eps.length eps.get).2 = snap lim ∘ eps.get := funext fun i => h.kept _ _ _
  simp only [StressCall.onList, h1, h2]
  rw [← List.map_ofFn, ← List.map_ofFn, List.ofFn_get]

/-- The tension branch of a law: positive up to the strain `t`, zero beyond as far as the law is searched (up to `hi`), of strength at most
`F`, and, from a 9999th of `hi` on, not below a millionth of it. -/
structure TensionBranch (f : ℝ → ℝ) (F t hi : ℝ) : Prop where
  zero : f 0 = 0
  low : ∀ e, hi / 9999 ≤ e → e ≤ t → F * 1e-6 ≤ f e
  pos : ∀ e, 0 < e → e ≤ t → 0 < f e
  high : ∀ e, f e ≤ F
  beyond : ∀ e, t < e → e ≤ hi → f e = 0

theorem getLast_filter_range (p : ℕ → Bool) (n k : ℕ) (hk : k < n) (h1 : p k = true) (h2 : ∀ j, k < j → j < n → p j = false) :
    ((List.range n).filter p).getLast? = some k := by
  induction n with
  | zero => omega
  | succ n ih =>
    rw [List.range_succ, List.filter_append]
    rcases Nat.lt_or_ge k n with h | h
    · have : p n = false := h2 n h (Nat.lt_succ_self n)
      simp only [List.filter_cons, this, Bool.false_eq_true, if_false, List.filter_nil, List.append_nil]
      exact ih h fun j a b => h2 j a (by omega)
    · obtain rfl : k = n := by omega
      simp [h1]

/-- Samples from 0 to `b`: the last one whose stress is not cut off. -/
theorem findXLim_range (g : ℝ → ℝ) (y : ℕ → ℝ) (x : ℕ → ℝ) (n : ℕ) :
    findXLim (((List.range n).map x).map g) ((List.range n).map y) =
      ((List.range n).filter fun i => decide (y i ≠ 0)).getLast?.map fun i => g (x i) := by
  have hz : (((List.range n).map x).map g).zip ((List.range n).map y) = (List.range n).map fun i => (g (x i), y i) := by
    rw [List.map_map]
    generalize List.range n = l
    induction l with
    | nil => rfl
    | cons a l ih => simp [ih]
  unfold findXLim
  rw [hz, List.filter_map, List.getLast?_map, Option.map_map]
  rfl

attribute [local irreducible] searchCount

/-- The distance of the strains at which the extent of the tension branch is searched. -/
noncomputable def searchStep (hi : ℝ) : ℝ := min hi 1 / 9999

theorem linspace_search {hi : ℝ} : linspace 0 (min hi 1) searchCount true = (List.range searchCount).map fun i : ℕ => i * searchStep hi := by
  have h : searchCount = 10000 := by with_unfolding_all rfl
  have h1 : (searchCount == 1) = false := by rw [h]; rfl
  unfold linspace
  simp only [h1, Bool.and_false, Bool.false_eq_true, if_false, if_true, zero_add, sub_zero]
  refine List.map_congr_left fun i _ => ?_
  rw [h, searchStep]
  norm_num

section

variable {c : StressCall} {f : ℝ → ℝ} {lim : ℝ × ℝ} {F t : ℝ}

theorem cut_values (hF : 0 ≤ F) (hb : TensionBranch f F t (min lim.2 1)) (hhi : 0 < lim.2) :
    cutSmall ((linspace 0 (min lim.2 1) searchCount true).map f) =
      (List.range searchCount).map fun i : ℕ => f (i * searchStep lim.2) := by
  have hs : 0 < searchStep lim.2 := div_pos (lt_min hhi one_pos) (by norm_num)
  have hcount : searchCount = 10000 := by with_unfolding_all rfl
  rw [linspace_search, List.map_map]
  unfold cutSmall
  dsimp only
  rw [List.map_map]
  refine List.map_congr_left fun i hi => ?_
  simp only [Function.comp_apply]
  split_ifs with h
  · rcases Nat.eq_zero_or_pos i with rfl | h0
    · simp [hb.zero]
    have hpos : 0 < (i : ℝ) * searchStep lim.2 := by positivity
    rcases le_or_gt ((i : ℝ) * searchStep lim.2) t with ht | ht
    · exfalso
      have hm : listMax ((List.range searchCount).map (f ∘ fun i : ℕ => (i:ℝ) * searchStep lim.2)) ≤ F := by
        have := (listMax_spec ((List.range searchCount).map (f ∘ fun i : ℕ => (i:ℝ) * searchStep lim.2)) (by rw [hcount]; simp)).1
        obtain ⟨j, -, hj⟩ := List.mem_map.1 this
        rw [← hj]
        exact hb.high _
      have h1 : (1:ℝ) ≤ i := by exact_mod_cast h0
      have h2 := hb.low (i * searchStep lim.2) (le_mul_of_one_le_left hs.le h1) ht
      have h3 : listMax ((List.range searchCount).map (f ∘ fun i : ℕ => (i:ℝ) * searchStep lim.2)) * 1e-6 ≤ F * 1e-6 :=
        mul_le_mul_of_nonneg_right hm (by norm_num)
      linarith
    · symm
      refine hb.beyond _ ht ?_
      have : (i : ℝ) ≤ 9999 := by
        have := List.mem_range.1 hi
        rw [hcount] at this
        exact_mod_cast (by omega : i ≤ 9999)
      calc (i : ℝ) * searchStep lim.2 ≤ 9999 * searchStep lim.2 := mul_le_mul_of_nonneg_right this hs.le
        _ = min lim.2 1 := by rw [searchStep]; ring
  · rfl

/-- **C65** (tension). If the tension branch is longer than a 9999th of the ultimate strain (at most 1), it is sampled at ten equally
spaced strains from 0 to an end that is within that step of its end. -/
theorem C65_tension (hc : SamplesIn c f lim) (hF : 0 ≤ F) (hb : TensionBranch f F t (min lim.2 1)) (hhi : 0 < lim.2)
    (ht : t ≤ min lim.2 1) (hlong : searchStep lim.2 ≤ t) :
    ∃ k : ℕ, t - searchStep lim.2 < k * searchStep lim.2 ∧ k * searchStep lim.2 ≤ t ∧
      gridPos c lim = linspace 0 (snap lim (k * searchStep lim.2)) 10 true := by
  have hs : 0 < searchStep lim.2 := div_pos (lt_min hhi one_pos) (by norm_num)
  have hcount : searchCount = 10000 := by with_unfolding_all rfl
  have ht0 : 0 ≤ t := hs.le.trans hlong
  have hk1 : (⌊t / searchStep lim.2⌋₊ : ℝ) * searchStep lim.2 ≤ t := by
    have := Nat.floor_le (div_nonneg ht0 hs.le)
    rwa [le_div_iff₀ hs] at this
  have hk2 : t < (⌊t / searchStep lim.2⌋₊ + 1 : ℝ) * searchStep lim.2 := by
    have := Nat.lt_floor_add_one (t / searchStep lim.2)
    rwa [div_lt_iff₀ hs] at this
  have hk3 : 1 ≤ ⌊t / searchStep lim.2⌋₊ := by
    rw [Nat.one_le_floor_iff, le_div_iff₀ hs, one_mul]
    exact hlong
  generalize ⌊t / searchStep lim.2⌋₊ = k at *
  have hkn : k < searchCount := by
    rw [hcount]
    have h1 : (k : ℝ) * searchStep lim.2 ≤ 9999 * searchStep lim.2 := by
      rw [show 9999 * searchStep lim.2 = min lim.2 1 by rw [searchStep]; ring]
      exact hk1.trans ht
    have h2 : (k : ℝ) ≤ 9999 := le_of_mul_le_mul_right h1 hs
    have : k ≤ 9999 := by exact_mod_cast h2
    omega
  have hkpos : 0 < (k : ℝ) * searchStep lim.2 := by
    have : (1:ℝ) ≤ k := by exact_mod_cast hk3
    positivity
  refine ⟨k, by linarith, hk1, ?_⟩
  unfold gridPos
  dsimp only
  rw [hc.onList]
  dsimp only
  rw [cut_values hF hb hhi, linspace_search, findXLim_range (snap lim) _ _ searchCount,
    getLast_filter_range _ searchCount k hkn (by simpa using (hb.pos _ hkpos hk1).ne') ?_]
  · rfl
  · intro j hj hjn
    have h1 : (k + 1 : ℝ) ≤ j := by exact_mod_cast hj
    have h2 : t < (j : ℝ) * searchStep lim.2 := lt_of_lt_of_le hk2 (mul_le_mul_of_nonneg_right h1 hs.le)
    have h3 : (j : ℝ) * searchStep lim.2 ≤ min lim.2 1 := by
      have : (j : ℝ) ≤ 9999 := by
        rw [hcount] at hjn
        exact_mod_cast (by omega : j ≤ 9999)
      calc (j : ℝ) * searchStep lim.2 ≤ 9999 * searchStep lim.2 := mul_le_mul_of_nonneg_right this hs.le
        _ = min lim.2 1 := by rw [searchStep]; ring
    simp [hb.beyond _ h2 h3]

/-- A shorter one is not seen. -/
theorem tension_unseen (hc : SamplesIn c f lim) (hF : 0 ≤ F) (hb : TensionBranch f F t (min lim.2 1)) (hhi : 0 < lim.2)
    (hshort : t < searchStep lim.2) : gridPos c lim = [0] := by
  have hs : 0 < searchStep lim.2 := div_pos (lt_min hhi one_pos) (by norm_num)
  have hcount : searchCount = 10000 := by with_unfolding_all rfl
  unfold gridPos
  dsimp only
  rw [hc.onList]
  dsimp only
  rw [cut_values hF hb hhi, findXLim_zero]
  · exact linspace_one _ _
  · intro b hb'
    obtain ⟨j, hj, rfl⟩ := List.mem_map.1 hb'
    rcases Nat.eq_zero_or_pos j with rfl | h0
    · simp [hb.zero]
    · have h1 : (1:ℝ) ≤ j := by exact_mod_cast h0
      refine hb.beyond _ (by nlinarith) ?_
      have : (j : ℝ) ≤ 9999 := by
        have := List.mem_range.1 hj
        rw [hcount] at this
        exact_mod_cast (by omega : j ≤ 9999)
      calc (j : ℝ) * searchStep lim.2 ≤ 9999 * searchStep lim.2 := mul_le_mul_of_nonneg_right this hs.le
        _ = min lim.2 1 := by rw [searchStep]; ring

end

/-! ### A short tension branch is lost -/

/-- The nodes in compression, for any law whose stress at the ultimate strain is at least a millionth of its strength. -/
theorem nodes_without_tension {c : StressCall} {f : ℝ → ℝ} {u fc : ℝ} (hc : SamplesIn c f (-u, 100)) (hlow : ∀ e, -fc ≤ f e)
    (hu : 2e-5 ≤ u) (hne : f (-u) ≠ 0) (hrel : fc * 1e-6 ≤ -f (-u)) (gp : gridPos c (-u, 100) = [0]) :
    discretize c (-u, 100) = .ok ⟨nodes f u, -u, 0⟩ := by
  have hpos : 0 < u := by linarith
  have gn : gridNeg c (-u, 100) = linspace (-u) 0 10 false := by
    obtain ⟨l, hl⟩ := linspace_last 0 (-u) searchCount two_le_searchCount
    have hs : snap (-u, 100) (-u) = -u := by
      have := tenth_snap hu 0 (by norm_num)
      simpa [tenth] using this
    unfold gridNeg
    dsimp only
    rw [hc.onList, hl]
    dsimp only
    simp only [List.map_append, List.map_cons, List.map_nil, hs, neg_neg]
    have hcut : cutSmall (((l.map f).map fun s => -s) ++ [-f (-u)]) =
        (((l.map f).map fun s => -s).map fun s =>
          if s < listMax (((l.map f).map fun s => -s) ++ [-f (-u)]) * 1e-6 then 0 else s) ++ [-f (-u)] := by
      have hm : listMax (((l.map f).map fun s => -s) ++ [-f (-u)]) ≤ fc := by
        have := (listMax_spec (((l.map f).map fun s => -s) ++ [-f (-u)]) (by simp)).1
        simp only [List.mem_append, List.mem_map, List.mem_singleton] at this
        rcases this with ⟨s, ⟨x, -, rfl⟩, h⟩ | h
        · rw [← h]; linarith [hlow x]
        · rw [h]; linarith [hlow (-u)]
      have : ¬ -f (-u) < listMax (((l.map f).map fun s => -s) ++ [-f (-u)]) * 1e-6 := by
        rw [not_lt]
        refine le_trans ?_ hrel
        exact mul_le_mul_of_nonneg_right hm (by norm_num)
      unfold cutSmall
      dsimp only
      rw [List.map_append, List.map_cons, List.map_nil, if_neg this]
    rw [hcut, findXLim_last _ _ _ _ (by simp) (neg_ne_zero.2 hne)]
  have hkeep : (linspace (-u) 0 10 false ++ [0]).map (snap (-u, 100)) = linspace (-u) 0 10 false ++ [0] := by
    have h := congrArg (List.map Prod.fst) (nodes_eq f u)
    simp only [nodes, List.map_map, Function.comp_def, List.map_id'] at h
    rw [h, List.map_map]
    refine List.map_congr_left fun i hi => ?_
    exact tenth_snap hu i (by have := List.mem_range.1 hi; omega)
  simp only [discretize, gp, gn, hc.onList, hkeep]
  have hz : (linspace (-u) 0 10 false ++ [0]).zip ((linspace (-u) 0 10 false ++ [0]).map f) = nodes f u := by
    rw [← nodes_eq]
    generalize linspace (-u) 0 10 false ++ [0] = l
    induction l with
    | nil => rfl
    | cons a l ih => simp [ih]
  have hmir : UserDefined.mirror (nodes f u) = nodes f u := by
    rw [UserDefined.mirror, if_pos]
    refine ⟨(tenth u 0, f (tenth u 0)), ?_, ?_⟩
    · exact List.mem_map.2 ⟨0, by simp, rfl⟩
    · simpa [tenth] using hpos
  unfold UserDefined.new?
  rw [if_neg (by simp)]
  simp only [hz, hmir]
  simp [nodes, List.range_succ, UserDefined.extend, tenth]
  ring

/-- **C65** (tension, violated). A law with the ultimate strain 100 in tension, as the concrete laws have it, whose tension branch ends
before 1/9999, about 1e-4, the usual cracking strain of concrete: the law that the Marin integrator uses in its place has no tension at
all, for every such law. The fibre integrator uses the law itself. -/
theorem C65_tension_violated {c : StressCall} {f : ℝ → ℝ} {u fc F t : ℝ} (hc : SamplesIn c f (-u, 100)) (hlow : ∀ e, -fc ≤ f e)
    (hu : 2e-5 ≤ u) (hne : f (-u) ≠ 0) (hrel : fc * 1e-6 ≤ -f (-u)) (hF : 0 ≤ F) (hb : TensionBranch f F t 1) (ht0 : 0 < t)
    (ht : t < 1 / 9999) :
    ∃ d, discretize c (-u, 100) = .ok d ∧ (∀ e, 0 < e → d.stress e = 0) ∧ ∀ e, 0 < e → e ≤ t → 0 < f e := by
  have hm : min (100:ℝ) 1 = 1 := by norm_num
  have gp := tension_unseen (lim := (-u, 100)) hc hF (by simpa only [hm] using hb) (by norm_num) (t := t)
    (by simpa only [searchStep, hm] using ht)
  refine ⟨_, nodes_without_tension hc hlow hu hne hrel gp, fun e he => ?_, hb.pos⟩
  have hi := C65_inscribed (f := f) hu
  have hpos : 0 < u := by linarith
  by_cases h0 : Clear e 0
  · refine hi.outside e ?_ h0 (Or.inr he)
    simp only [Clear, abs_neg, abs_of_pos hpos, sub_neg_eq_add] at *
    rw [abs_of_pos (by linarith)]
    norm_num at hu ⊢
    linarith
  · rw [(hi.ends e).2 h0, hb.zero]

/-- A concrete that is linear up to the cracking strain 9e-5 in tension and up to 0.0035 in compression. -/
noncomputable def crackingConcrete (e : ℝ) : ℝ := if -0.0035 ≤ e ∧ e ≤ 9e-5 then 10000 * e else 0

/-- The law that replaces it has no tension. -/
example : ∃ d, discretize (fun _ eps => (fun i => crackingConcrete (eps i), fun i => snap (-0.0035, 100) (eps i))) (-0.0035, 100) = .ok d ∧
    (∀ e, 0 < e → d.stress e = 0) ∧ ∀ e, 0 < e → e ≤ 9e-5 → 0 < crackingConcrete e := by
  refine C65_tension_violated (u := 0.0035) (fc := 35) (F := 0.9) (t := 9e-5) ⟨fun _ _ _ => rfl, fun _ _ _ => rfl⟩ ?_ (by norm_num) ?_ ?_
    (by norm_num) ⟨?_, ?_, ?_, ?_, ?_⟩ (by norm_num) (by norm_num)
  · intro e
    unfold crackingConcrete
    split_ifs with h
    · linarith [h.1]
    · norm_num
  · rw [crackingConcrete, if_pos (by norm_num)]; norm_num
  · rw [crackingConcrete, if_pos (by norm_num)]; norm_num
  · rw [crackingConcrete, if_pos (by norm_num)]; norm_num
  · intro e h0 h1
    norm_num at h0
    linarith
  · intro e h0 h1
    rw [crackingConcrete, if_pos ⟨by linarith, h1⟩]; linarith
  · intro e
    unfold crackingConcrete
    split_ifs with h
    · linarith [h.2]
    · norm_num
  · intro e h _
    rw [crackingConcrete, if_neg (fun h' => by linarith [h'.2])]

/-- A tension branch that is long enough is found: up to 0.01, the ultimate strain in tension. -/
example : ∃ k : ℕ, 0.01 - searchStep 0.01 < k * searchStep 0.01 ∧ k * searchStep 0.01 ≤ 0.01 ∧
    gridPos (fun _ eps => (fun i => 10000 * min (eps i) 0.01, fun i => snap (-0.0035, 0.01) (eps i))) (-0.0035, 0.01) =
      linspace 0 (snap (-0.0035, 0.01) (k * searchStep 0.01)) 10 true := by
  have hm : min (0.01:ℝ) 1 = 0.01 := by norm_num
  refine C65_tension (f := fun e => 10000 * min e 0.01) (lim := (-0.0035, 0.01)) (F := 100) (t := 0.01)
    ⟨fun _ _ _ => rfl, fun _ _ _ => rfl⟩ (by norm_num) ?_ (by norm_num) (by rw [hm]) (by rw [searchStep, hm]; norm_num)
  rw [hm]
  refine ⟨by norm_num, fun e h0 h1 => ?_, fun e h0 h1 => ?_, fun e => ?_, fun e h h' => absurd h' (not_le.2 h)⟩
  · rw [min_eq_left h1]
    norm_num at h0 ⊢
    linarith
  · rw [min_eq_left h1]; linarith
  · have := min_le_right e 0.01
    linarith

end SC
