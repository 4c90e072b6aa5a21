import Verif.Props.FiberCompareDesign

/-! # C92 for the beam of C73 -/

set_option autoImplicit false

namespace SC.OrdinaryBeam

open Spec MeasureTheory MeshedConcrete

variable {lower : String → String}

/-- One more bar in the lower layer. -/
noncomputable def moreBars (L : Law) (more : Bool) : List Bar := bars L ++ if more then [bar L 0 (-200)] else []

/-- The relative triangle size of the mesh number `k`. -/
noncomputable def fineSize (k : ℕ) : ℝ := 0.01 / ((k:ℝ) + 1) ^ 2

/-- The meshed beam. -/
noncomputable def fineBeam (ccls : ConcClass) (k : ℕ) : List MeshedConcrete :=
  normalMeshed (designConcrete ccls (defaultArgs 30)) shapes 7 fun _ _ => fineMesh k

theorem fineSize_root (k : ℕ) : √(fineSize k) = 0.1 / ((k:ℝ) + 1) := by
  rw [fineSize, show (0.01:ℝ) / ((k:ℝ) + 1) ^ 2 = (0.1 / ((k:ℝ) + 1)) ^ 2 by rw [div_pow]; norm_num, Real.sqrt_sq (by positivity)]

theorem moreBars_all (L : Law) (more : Bool) : ∀ b ∈ moreBars L more, b.law = ⟨1, L⟩ ∧ b.area = 500 ∧
    (b.x = -110 ∨ b.x = 0 ∨ b.x = 110) ∧ (b.y = -200 ∨ b.y = 200) := by
  intro b hb
  cases more <;>
    simp only [moreBars, bars, bar, Bool.false_eq_true, if_false, if_true, List.append_nil, List.cons_append, List.nil_append, List.mem_cons,
      List.not_mem_nil, or_false] at hb
  · rcases hb with rfl | rfl | rfl | rfl <;> refine ⟨rfl, rfl, ?_, ?_⟩ <;> norm_num
  · rcases hb with rfl | rfl | rfl | rfl | rfl <;> refine ⟨rfl, rfl, ?_, ?_⟩ <;> norm_num

theorem moreBars_sub (L : Law) (more : Bool) : ∀ b ∈ bars L, b ∈ moreBars L more := fun _ hb => List.mem_append_left _ hb

theorem geometry_more (L : Law) (more : Bool) : RCGeometry 0 shapes ((moreBars L more).map fun b => (b.x, b.y)) 500 := by
  have hg := geometry L
  refine ⟨fun b hb => ?_, hg.span, hg.size, ?_⟩
  · obtain ⟨x, hx, rfl⟩ := List.mem_map.1 hb
    obtain ⟨-, -, h1, h2⟩ := moreBars_all L more x hx
    refine ⟨_, List.mem_singleton.2 rfl, hull ?_⟩
    constructor <;> constructor <;> rcases h1 with h1 | h1 | h1 <;> rcases h2 with h2 | h2 <;> simp only [h1, h2] <;> norm_num
  · obtain ⟨b, hb, r⟩ := hg.depth
    obtain ⟨x, hx, rfl⟩ := List.mem_map.1 hb
    exact ⟨_, List.mem_map_of_mem (moreBars_sub L more x hx), r⟩

/-- The error of the bending moment of the beam for triangles of the relative size one. -/
theorem moment_weight (ccls : ConcClass) (scls : SteelClass) :
    momentWeight (normalParts (designConcrete ccls (defaultArgs 30)) shapes) 0 0.0035 (designUltimate scls sargs) 450 250 ≤ 2e11 ∧
    (0.0035 + designUltimate scls sargs) / 450 * weight (normalParts (designConcrete ccls (defaultArgs 30)) shapes) 0 ≤ 4e8 := by
  obtain ⟨w0, w1⟩ := weight_bounds ccls
  have hu := ultimate_range scls
  have hW0 := weight_nonneg (normalParts (designConcrete ccls (defaultArgs 30)) shapes) 0
  have hW1 := weight_nonneg (normalParts (designConcrete ccls (defaultArgs 30)) shapes) 1
  have e1 : (0.0035 + designUltimate scls sargs) / 450 ≤ 0.0535 / 450 := by
    rw [div_le_div_iff_of_pos_right (by norm_num)]
    linarith [hu.2]
  constructor
  · simp only [momentWeight, Real.cos_zero, Real.sin_zero, abs_one, abs_zero, zero_mul, add_zero, one_mul]
    have e2 : 250 * weight (normalParts (designConcrete ccls (defaultArgs 30)) shapes) 0 +
        weight (normalParts (designConcrete ccls (defaultArgs 30)) shapes) 1 ≤ 1.65e15 := by
      refine (add_le_add (mul_le_mul_of_nonneg_left w0 (by norm_num)) w1).trans (by norm_num)
    exact (mul_le_mul e1 e2 (by positivity) (by norm_num)).trans (by norm_num)
  · exact (mul_le_mul e1 w0 hW0 (by norm_num)).trans (by norm_num)

/-- Results of the beam with four or five bars, for all but countably many axial loads between 0.8 N and 1.4 N. -/
theorem fine_results (hl : PyLower lower) (ccls : ConcClass) (scls : SteelClass) (c : Built Conc) (s : Built Steel)
    (hc : newConcrete lower ccls (defaultArgs 30) = some (.ok c)) (hs : newSteel lower scls sargs = some (.ok s)) (k : ℕ) (more : Bool) :
    MeshedBeam (fineBeam ccls k) (moreBars s.mat.law more) 0 0.0035 (designUltimate scls sargs) 500 450 250 ∧
    (∀ b ∈ moreBars s.mat.law more, b.law.law.stress 0 = 0) ∧
    ∃ C : Set ℝ, C.Countable ∧ ∀ n ∉ C, 0.8 < n → n ≤ 1.4 →
      ∃ b : BendingResult, FibreResult (fun _ => []) (fineBeam ccls k) (moreBars s.mat.law more) (fineSize k) 0 n b ∧ |b.n - n| ≤ 1e-2 := by
  have hk : (1:ℝ) ≤ (k:ℝ) + 1 := by linarith [(Nat.cast_nonneg k : (0:ℝ) ≤ k)]
  have hk2 : (1:ℝ) ≤ ((k:ℝ) + 1) ^ 2 := by nlinarith
  have hu := ultimate_range scls
  have hall := moreBars_all s.mat.law more
  have hlen : 4 ≤ (moreBars s.mat.law more).length ∧ (moreBars s.mat.law more).length ≤ 5 := by
    cases more <;> simp [moreBars, bars]
  obtain ⟨-, a2, a3⟩ := margins_bars hl ccls scls s hs (moreBars s.mat.law more) (fun b hb => ⟨(hall b hb).1, (hall b hb).2.1⟩) hlen.1 hlen.2
  have hfcb := concrete_range ccls
  obtain ⟨w0, w1⟩ := weight_bounds ccls
  have hEs : |sargs.Es| = 200000 := by norm_num [sargs, steelArgs]
  have hmax : max (2 * |designConcrete ccls (defaultArgs 30)| / 0.002) |sargs.Es| = 200000 := by
    rw [hEs, abs_of_pos hfcb.1]
    refine max_eq_right ?_
    rw [div_le_iff₀ (by norm_num)]
    linarith [hfcb.2]
  have hsum : ((moreBars s.mat.law more).map fun b => |b.area|).sum ≤ 2500 := by
    cases more <;>
    · simp only [moreBars, bars, bar, Bool.false_eq_true, if_false, if_true, List.append_nil, List.cons_append, List.nil_append,
        List.map_cons, List.map_nil, List.sum_cons, List.sum_nil]
      norm_num
  have hδ : max (2 * |designConcrete ccls (defaultArgs 30)| / 0.002) |sargs.Es| * ((shapes.map fun p => areaMoment 0 0 p.2).sum +
      ((moreBars s.mat.law more).map fun b => |b.area|).sum) * 500 ≤ 1.53e13 := by
    rw [hmax]
    simp only [shapes, List.map_cons, List.map_nil, List.sum_cons, List.sum_nil, rect_area]
    norm_num at *
    linarith
  have hms0 : 0 < fineSize k := by rw [fineSize]; positivity
  have hms1 : fineSize k ≤ 1 := by
    rw [fineSize, div_le_one (by positivity)]; linarith
  have hsmall : √(fineSize k) ≤ 0.1 := by
    rw [fineSize_root]; exact div_le_self (by norm_num) hk
  obtain ⟨-, h1, h2, C, hC, hmain⟩ := C92_design_partial hl ccls (defaultArgs 30) c hc rfl ⟨rfl, rfl⟩ ⟨rfl, rfl, rfl⟩
    (fun _ => by norm_num [defaultArgs, abs_of_pos]) scls sargs s hs rfl ⟨rfl, rfl⟩ (gap scls) ⟨by linarith [hu.1], by linarith [hu.2]⟩
    (fun _ => []) hms0 hms1 0 shapes (moreBars s.mat.law more) 1 (fun b hb => (hall b hb).1)
    (fun b hb => by rw [(hall b hb).2.1]; norm_num) 7 (fun _ _ => fineMesh k)
    (by intro p hp; rw [List.mem_singleton.1 hp, rect_area]; exact fineMesh_ok k)
    (by intro p hp; rw [List.mem_singleton.1 hp]; exact RCBeam.ok.encloses)
    (by intro p hp; rw [List.mem_singleton.1 hp]; exact hull)
    (geometry_more _ more) (geometry_more _ more) (R := 250) (D := 450) (by
      intro p hp v hv
      rw [List.mem_singleton.1 hp] at hv
      rw [RCBeam.height_zero]
      rcases mem_ring hv with rfl | rfl | rfl | rfl <;> norm_num) (by norm_num)
    ⟨bar s.mat.law (-110) (-200), moreBars_sub _ _ _ (by simp [bars]), _, List.mem_singleton.2 rfl, (150, 250),
      by simp [rectRing, closeRing], by rw [RCBeam.height_zero, RCBeam.height_zero]; norm_num [bar]⟩
    _ rfl _ rfl (hδ.trans (by norm_num)) _ rfl _ rfl
  refine ⟨h1, h2, C, hC, fun n hn hn1 hn2 => ?_⟩
  have hm : (max (2 * |designConcrete ccls (defaultArgs 30)| / 0.002) |sargs.Es| * ((shapes.map fun p => areaMoment 0 0 p.2).sum +
      ((moreBars s.mat.law more).map fun b => |b.area|).sum) * 500 +
      2 * (√(fineSize k) * weight (normalParts (designConcrete ccls (defaultArgs 30)) shapes) 0)) * 1e-13 ≤ 1.6 := by
    have := mul_le_mul hsmall w0 (weight_nonneg _ _) (by norm_num)
    norm_num at *
    linarith
  exact hmain n hn (by norm_num at *; linarith) (by norm_num at *; linarith)

theorem avoid {C : Set ℝ} (hC : C.Countable) {a b : ℝ} (h : a < b) : ∃ n ∈ Set.Ioc a b, n ∉ C := by
  have hnc : ¬ (Set.Ioc a b).Countable := fun h' => by
    have := h'.measure_zero volume
    rw [Real.volume_Ioc, ENNReal.ofReal_eq_zero] at this
    linarith
  by_contra hcon
  push Not at hcon
  exact hnc (hC.mono hcon)

theorem moment_zero (b : BendingResult) : bendingMoment 0 ![b.n, b.m.1, b.m.2] = -b.m.1 := by
  simp only [bendingMoment, Real.cos_zero, Real.sin_zero, Matrix.cons_val, mul_one, mul_zero, add_zero]

/-- The hypotheses of `C92_meshes` and `C92_load` hold together for every combination of classes and any two meshes of squares: two
meshes under one load, and one mesh under two loads. -/
example (hl : PyLower lower) (ccls : ConcClass) (scls : SteelClass) :
    ∃ c s, newConcrete lower ccls (defaultArgs 30) = some (.ok c) ∧ newSteel lower scls sargs = some (.ok s) ∧
    ∀ k k' : ℕ, ∃ n ∈ Set.Ioc (0.8:ℝ) 1, ∃ n' ∈ Set.Ioc (1.1:ℝ) 1.3, ∃ b b' b'' : BendingResult,
      FibreResult (fun _ => []) (fineBeam ccls k) (bars s.mat.law) (fineSize k) 0 n b ∧
      FibreResult (fun _ => []) (fineBeam ccls k') (bars s.mat.law) (fineSize k') 0 n b' ∧
      FibreResult (fun _ => []) (fineBeam ccls k) (bars s.mat.law) (fineSize k) 0 n' b'' ∧
      |b'.m.1 - b.m.1| ≤ 5 + 2e10 / ((k:ℝ) + 1) + 2e10 / ((k':ℝ) + 1) ∧
      -b''.m.1 - 250 * b''.n ≤ -b.m.1 - 250 * b.n + 4e10 / ((k:ℝ) + 1) ∧
      -b.m.1 + 250 * b.n ≤ -b''.m.1 + 250 * b''.n + 4e10 / ((k:ℝ) + 1) := by
  obtain ⟨c, s, hc, hs⟩ := accepted hl ccls scls
  refine ⟨c, s, hc, hs, fun k k' => ?_⟩
  have hm : moreBars s.mat.law false = bars s.mat.law := by simp [moreBars]
  obtain ⟨hb, -, C, hC, h1⟩ := fine_results hl ccls scls c s hc hs k false
  obtain ⟨-, -, C', hC', h2⟩ := fine_results hl ccls scls c s hc hs k' false
  rw [hm] at hb h1 h2
  obtain ⟨n, hn, hnC⟩ := avoid (hC.union hC') (show (0.8:ℝ) < 1 by norm_num)
  obtain ⟨n', hn', hnC'⟩ := avoid hC (show (1.1:ℝ) < 1.3 by norm_num)
  obtain ⟨b, r, t⟩ := h1 n (fun h => hnC (Or.inl h)) hn.1 (hn.2.trans (by norm_num))
  obtain ⟨b', r', t'⟩ := h2 n (fun h => hnC (Or.inr h)) hn.1 (hn.2.trans (by norm_num))
  obtain ⟨b'', r'', t''⟩ := h1 n' hnC' (by linarith [hn'.1, show (0.8:ℝ) < 1.1 by norm_num]) (hn'.2.trans (by norm_num))
  obtain ⟨W, -⟩ := moment_weight ccls scls
  have hp : ∀ k, (fineBeam ccls k).map MeshedConcrete.part = normalParts (designConcrete ccls (defaultArgs 30)) shapes := fun k =>
    normalMeshed_part ..
  have key := C92_meshes ((hp k').trans (hp k).symm) hb r r'
  have hnn : b.n ≤ b''.n := by
    have := (abs_le.1 t).2
    have := (abs_le.1 t'').1
    have := hn.2
    have := hn'.1
    norm_num at *
    linarith
  have key2 := C92_load (lo := -250) (hi := 250) hb (by
    intro q hq v hv
    exact abs_le.1 (hb.reach q hq v hv)) (by norm_num) r r'' hnn
  rw [hp, moment_zero, moment_zero, fineSize_root] at key key2
  rw [fineSize_root] at key
  have q1 : (0:ℝ) ≤ 0.1 / ((k:ℝ) + 1) := by positivity
  have q2 : (0:ℝ) ≤ 0.1 / ((k':ℝ) + 1) := by positivity
  have e1 := mul_le_mul_of_nonneg_right W (add_nonneg q1 q2)
  have e2 := mul_le_mul_of_nonneg_right W (add_nonneg q1 q1)
  have e3 : (2e11:ℝ) * (0.1 / ((k:ℝ) + 1) + 0.1 / ((k':ℝ) + 1)) = 2e10 / ((k:ℝ) + 1) + 2e10 / ((k':ℝ) + 1) := by
    rw [mul_add, mul_div_assoc', mul_div_assoc']; norm_num
  have e4 : (2e11:ℝ) * (0.1 / ((k:ℝ) + 1) + 0.1 / ((k:ℝ) + 1)) = 4e10 / ((k:ℝ) + 1) := by
    rw [← two_mul, ← mul_assoc, mul_div_assoc']; norm_num
  rw [e3] at e1
  rw [e4] at e2
  refine ⟨n, hn, n', hn', b, b', b'', r, r', r'', ?_, by linarith [key2.1], by linarith [key2.2]⟩
  have e5 : -b'.m.1 - -b.m.1 = -(b'.m.1 - b.m.1) := by ring
  rw [e5, abs_neg] at key
  have e6 : |b'.n - b.n| ≤ 2e-2 := by
    have : b'.n - b.n = (b'.n - n) - (b.n - n) := by ring
    rw [this]
    refine (abs_sub _ _).trans ((add_le_add t' t).trans (by norm_num))
  have e7 : 250 * |b'.n - b.n| ≤ 5 := (mul_le_mul_of_nonneg_left e6 (by norm_num)).trans (by norm_num)
  linarith

/-- The hypotheses of `C92_tension` and `C92_bars` hold together: a fifth bar in the lower layer, and meshes of squares small enough. -/
example (hl : PyLower lower) (ccls : ConcClass) (scls : SteelClass) :
    ∃ c s, newConcrete lower ccls (defaultArgs 30) = some (.ok c) ∧ newSteel lower scls sargs = some (.ok s) ∧
    ∀ k : ℕ, 100000000 ≤ k → ∃ n ∈ Set.Ioc (0.8:ℝ) 1, ∃ b b' : BendingResult,
      FibreResult (fun _ => []) (fineBeam ccls k) (bars s.mat.law) (fineSize k) 0 n b ∧
      FibreResult (fun _ => []) (fineBeam ccls k) (bars s.mat.law ++ [bar s.mat.law 0 (-200)]) (fineSize k) 0 n b' ∧
      -b.m.1 ≤ -b'.m.1 + 5 + 4e10 / ((k:ℝ) + 1) := by
  obtain ⟨c, s, hc, hs⟩ := accepted hl ccls scls
  refine ⟨c, s, hc, hs, fun k hk => ?_⟩
  have hm : moreBars s.mat.law false = bars s.mat.law := by simp [moreBars]
  have hm' : moreBars s.mat.law true = bars s.mat.law ++ [bar s.mat.law 0 (-200)] := by simp [moreBars]
  obtain ⟨hb, -, C, hC, h1⟩ := fine_results hl ccls scls c s hc hs k false
  obtain ⟨hb', hz, C', hC', h2⟩ := fine_results hl ccls scls c s hc hs k true
  rw [hm] at hb h1
  have hall := moreBars_all s.mat.law true
  rw [hm'] at hb' hz h2 hall
  obtain ⟨n, hn, hnC⟩ := avoid (hC.union hC') (show (0.8:ℝ) < 1 by norm_num)
  obtain ⟨b, r, t⟩ := h1 n (fun h => hnC (Or.inl h)) hn.1 (hn.2.trans (by norm_num))
  obtain ⟨b', r', t'⟩ := h2 n (fun h => hnC (Or.inr h)) hn.1 (hn.2.trans (by norm_num))
  obtain ⟨W, W0⟩ := moment_weight ccls scls
  have hp : (fineBeam ccls k).map MeshedConcrete.part = normalParts (designConcrete ccls (defaultArgs 30)) shapes := normalMeshed_part ..
  have hlow : ∀ x ∈ bars s.mat.law, -200 ≤ height 0 (x.x, x.y) := by
    intro x hx
    rw [RCBeam.height_zero]
    obtain ⟨-, -, -, h⟩ := hall x (List.mem_append_left _ hx)
    rcases h with h | h <;> simp only [h] <;> norm_num
  have hk1 : (1e8:ℝ) ≤ (k:ℝ) + 1 := by
    have h1 : ((100000000:ℕ):ℝ) ≤ k := Nat.cast_le.2 hk
    have h2 : ((100000000:ℕ):ℝ) = 1e8 := by norm_num
    rw [h2] at h1
    exact h1.trans (le_add_of_nonneg_right zero_le_one)
  have hroot : 0.1 / ((k:ℝ) + 1) ≤ 1e-9 := by
    rw [div_le_iff₀ (by linarith [show (0:ℝ) < 1e8 by norm_num])]
    exact (show (0.1:ℝ) ≤ 1e-9 * 1e8 by norm_num).trans (mul_le_mul_of_nonneg_left hk1 (by norm_num))
  have ht := C92_tension (zl := -200) (zt := 250) hb hlow (by
    intro q hq v hv
    exact (abs_le.1 (hb.reach q hq v hv)).2) (by norm_num) r (by
    rw [hp, fineSize_root]
    have hnon := crush_nonpos hl ccls scls s hs
    have e0 := mul_le_mul W0 hroot (by positivity) (by norm_num)
    have e1 : (0.0035 + designUltimate scls sargs) / 450 * (0.1 / ((k:ℝ) + 1)) *
        weight (normalParts (designConcrete ccls (defaultArgs 30)) shapes) 0 =
      (0.0035 + designUltimate scls sargs) / 450 * weight (normalParts (designConcrete ccls (defaultArgs 30)) shapes) 0 *
        (0.1 / ((k:ℝ) + 1)) := by ring
    rw [e1]
    have g1 : -1e-2 ≤ b.n - n := (abs_le.1 t).1
    have g2 : (0.8:ℝ) < n := hn.1
    refine (add_le_add hnon e0).trans_lt (lt_of_lt_of_le ?_ (le_sub_iff_add_le.1 g1 : -1e-2 + n ≤ b.n))
    have g3 : (0:ℝ) + 4e8 * 1e-9 < -1e-2 + 0.8 := by norm_num
    exact g3.trans ((add_lt_add_iff_left _).2 g2)) (bar s.mat.law (-110) (-200)) (by rw [RCBeam.height_zero]; rfl)
  have key := C92_bars (zl := -200) hb hb' (fun x hx => hz x (List.mem_append_right _ hx)) hlow (bar s.mat.law (-110) (-200))
    (by simp [bars]) (by rw [RCBeam.height_zero]; rfl) (by
      intro x hx
      rw [List.mem_singleton.1 hx]
      exact ⟨by rw [RCBeam.height_zero]; rfl, rfl⟩) r r' ht
  rw [hp, moment_zero, moment_zero, fineSize_root] at key
  have q1 : (0:ℝ) ≤ 0.1 / ((k:ℝ) + 1) := by positivity
  have e2 := mul_le_mul_of_nonneg_right W (add_nonneg q1 q1)
  have e4 : (2e11:ℝ) * (0.1 / ((k:ℝ) + 1) + 0.1 / ((k:ℝ) + 1)) = 4e10 / ((k:ℝ) + 1) := by
    rw [← two_mul, ← mul_assoc, mul_div_assoc']; norm_num
  rw [e4] at e2
  have e6 : |b.n - b'.n| ≤ 2e-2 := by
    have : b.n - b'.n = (b.n - n) - (b'.n - n) := by ring
    rw [this]
    refine (abs_sub _ _).trans ((add_le_add t t').trans (by norm_num))
  have e7 : 250 * |b.n - b'.n| ≤ 5 := (mul_le_mul_of_nonneg_left e6 (by norm_num)).trans (by norm_num)
  exact ⟨n, hn, b, b', r, r', by linarith⟩

end SC.OrdinaryBeam
