import Verif.Model.Balanced
import Verif.Spec.Section

/-! # C22: balanced failure -/

set_option autoImplicit false

namespace SC

open Spec

/-- slope of a pair -/
noncomputable def pairChi (yielding rc : Bool) (pr : Part × Part) : ℝ :=
  (pr.1.posLimit yielding - pr.2.negLimit yielding rc) / (pr.2.yHigh - pr.1.yLow)

theorem balStep_chi (yielding rc : Bool) (pr : Part × Part) :
    -(pr.1.posLimit yielding - pr.2.negLimit yielding rc) / (pr.1.yLow - pr.2.yHigh) =
      pairChi yielding rc pr := by
  unfold pairChi
  rw [← neg_sub pr.2.yHigh, neg_div_neg_eq]

/-- Loop invariant of the search. -/
def BalInv (yielding rc : Bool) (seen : List (Part × Part)) (s : BalState) : Prop :=
  (∀ pr ∈ seen, pr.1.yLow < pr.2.yHigh → s.chiMin ≤ pairChi yielding rc pr) ∧ s.chiMin ≤ 1e10 ∧
  match s.best with
  | none => s.chiMin = 1e10
  | some (eps0, yn, yp) => s.chiMin < 1e10 ∧ ∃ pr ∈ seen, pr.1.yLow = yp ∧ pr.2.yHigh = yn ∧ yp < yn ∧
      s.chiMin = pairChi yielding rc pr ∧ eps0 = pr.2.negLimit yielding rc + s.chiMin * yn

theorem balStep_inv (yielding rc : Bool) (seen : List (Part × Part)) (s : BalState)
    (pr : Part × Part) (h : BalInv yielding rc seen s) :
    BalInv yielding rc (seen ++ [pr]) (balStep yielding rc s pr) := by
  obtain ⟨h1, h2, h3⟩ := h
  have lift : ∀ s' : BalState, (match s'.best with
      | none => s'.chiMin = 1e10
      | some (eps0, yn, yp) => s'.chiMin < 1e10 ∧ ∃ pr ∈ seen, pr.1.yLow = yp ∧ pr.2.yHigh = yn ∧
        yp < yn ∧ s'.chiMin = pairChi yielding rc pr ∧
        eps0 = pr.2.negLimit yielding rc + s'.chiMin * yn) →
      (match s'.best with
      | none => s'.chiMin = 1e10
      | some (eps0, yn, yp) => s'.chiMin < 1e10 ∧ ∃ pr' ∈ seen ++ [pr], pr'.1.yLow = yp ∧
        pr'.2.yHigh = yn ∧ yp < yn ∧ s'.chiMin = pairChi yielding rc pr' ∧
        eps0 = pr'.2.negLimit yielding rc + s'.chiMin * yn) := by
    intro s' hs'
    cases hb : s'.best with
    | none => simpa [hb] using hs'
    | some b =>
      rw [hb] at hs'
      obtain ⟨a, p, hp, rest⟩ := hs'
      exact ⟨a, p, List.mem_append_left _ hp, rest⟩
  unfold balStep
  simp only [balStep_chi]
  by_cases hy : pr.1.yLow ≥ pr.2.yHigh
  · rw [if_pos hy]
    refine ⟨?_, h2, lift s h3⟩
    intro p hp hlt
    rcases List.mem_append.1 hp with hp | hp
    · exact h1 p hp hlt
    · rw [List.mem_singleton.1 hp] at hlt; linarith
  · rw [if_neg hy]
    push Not at hy
    by_cases hc : pairChi yielding rc pr < s.chiMin
    · rw [if_pos hc]
      refine ⟨?_, by linarith, by linarith, pr, List.mem_append_right _ (List.mem_singleton.2 rfl),
        rfl, rfl, hy, rfl, rfl⟩
      intro p hp hlt
      rcases List.mem_append.1 hp with hp | hp
      · exact hc.le.trans (h1 p hp hlt)
      · rw [List.mem_singleton.1 hp]
    · rw [if_neg hc]
      refine ⟨?_, h2, lift s h3⟩
      intro p hp hlt
      rcases List.mem_append.1 hp with hp | hp
      · exact h1 p hp hlt
      · rw [List.mem_singleton.1 hp]; exact not_lt.1 hc

theorem balFold_inv (yielding rc : Bool) (l : List (Part × Part)) :
    BalInv yielding rc l (l.foldl (balStep yielding rc) ⟨1e10, none⟩) := by
  induction l using List.reverseRecOn with
  | nil => exact ⟨by simp, le_rfl, rfl⟩
  | append_singleton l pr ih =>
    rw [List.foldl_append]
    exact balStep_inv yielding rc l _ pr ih

theorem mem_pairs (parts : List Part) (pr : Part × Part) :
    pr ∈ (parts.flatMap fun g => parts.map fun o => (g, o)) ↔ pr.1 ∈ parts ∧ pr.2 ∈ parts := by
  simp only [List.mem_flatMap, List.mem_map]
  constructor
  · rintro ⟨g, hg, o, ho, rfl⟩; exact ⟨hg, ho⟩
  · rintro ⟨h1, h2⟩; exact ⟨pr.1, h1, pr.2, h2, rfl⟩

/-- Strain at height `y` of the returned plane (the curvature about z is zero, `x` is irrelevant). -/
theorem plane_at (e0 chi x y : ℝ) : planeStrain ![e0, -chi, 0] x y = e0 - chi * y := by
  simp [planeStrain]; ring

/-- The tension limit a part must not exceed: its ultimate strain, or its yield strain if yielding is asked for. -/
def Spec.tensionLimit (yielding : Bool) (g : Part) : ℝ := (g.ult yielding).2

/-- The compression limit: the ultimate strain, or the yield strain if yielding is asked for and the section is not of
reinforced concrete, or it is and the part is a concrete surface (bars of reinforced concrete keep their ultimate strain). -/
def Spec.compressionLimit (yielding rc : Bool) (g : Part) : ℝ :=
  if yielding = true ∧ (rc = false ∨ (g.surface = true ∧ g.concrete = true)) then (g.ult true).1 else (g.ult false).1

theorem posLimit_eq (yielding : Bool) : Part.posLimit yielding = Spec.tensionLimit yielding := rfl

theorem negLimit_eq (yielding rc : Bool) : Part.negLimit yielding rc = Spec.compressionLimit yielding rc := by
  funext g
  unfold Part.negLimit Spec.compressionLimit
  cases yielding <;> cases rc <;> cases g.surface <;> cases g.concrete <;> simp

/-- **C22.** For any list of surfaces and bars whose (selected) strain limits have the usual signs:
if `get_balanced_failure_strain` returns `(y_n, y_p, strain)`, then
* the plane is tight: it takes the positive limit of some part at that part's lower edge `y_p`, and
  the negative limit of some part at its upper edge `y_n > y_p`;
* the plane is admissible: no part exceeds its positive or negative limit anywhere between its
  lower and upper edge;
* its curvature is not positive (compression on top) and `strain[2] = 0`. -/
theorem C22_balanced (parts : List Part) (rc yielding : Bool)
    (hn : ∀ g ∈ parts, compressionLimit yielding rc g ≤ 0) (hp : ∀ g ∈ parts, 0 ≤ tensionLimit yielding g)
    (yn yp : ℝ) (strain : Fin 3 → ℝ) (h : balancedFailure parts rc yielding = .ok (yn, yp, strain)) :
    (∃ g ∈ parts, ∃ o ∈ parts, g.yLow = yp ∧ o.yHigh = yn ∧ yp < yn ∧
      (∀ x, planeStrain strain x yp = tensionLimit yielding g) ∧
      (∀ x, planeStrain strain x yn = compressionLimit yielding rc o)) ∧
    (∀ g ∈ parts, ∀ x y, g.yLow ≤ y → y ≤ g.yHigh →
      compressionLimit yielding rc g ≤ planeStrain strain x y ∧ planeStrain strain x y ≤ tensionLimit yielding g) ∧
    strain 1 ≤ 0 ∧ strain 2 = 0 := by
  rw [← posLimit_eq, ← negLimit_eq] at *
  have inv := balFold_inv yielding rc (parts.flatMap fun g => parts.map fun o => (g, o))
  unfold balancedFailure at h
  simp only at h
  set s := (parts.flatMap fun g => parts.map fun o => (g, o)).foldl (balStep yielding rc) ⟨1e10, none⟩
    with hs
  obtain ⟨h1, -, h3⟩ := inv
  cases hb : s.best with
  | none => simp [hb] at h
  | some b =>
    obtain ⟨eps0, yn', yp'⟩ := b
    rw [hb] at h3
    simp only [hb, Except.ok.injEq, Prod.mk.injEq] at h
    obtain ⟨rfl, rfl, rfl⟩ := h
    obtain ⟨-, ⟨g, o⟩, hmem, hyp, hyn, hlt, hchi, heps⟩ := h3
    rw [mem_pairs] at hmem
    simp only at hyp hyn hmem
    have hchi' : s.chiMin * (yn' - yp') = g.posLimit yielding - o.negLimit yielding rc := by
      rw [hchi, pairChi]; simp only [hyp, hyn]
      field_simp [(sub_pos.2 hlt).ne']
    have hnn : 0 ≤ s.chiMin := by
      have := hn o hmem.2
      have := hp g hmem.1
      rw [hchi, pairChi]
      apply div_nonneg <;> simp only [hyp, hyn] <;> linarith
    refine ⟨⟨g, hmem.1, o, hmem.2, hyp, hyn, hlt, fun x => ?_, fun x => ?_⟩, ?_, ?_, rfl⟩
    · rw [plane_at, heps]; linarith
    · rw [plane_at, heps]; ring
    · intro q hq x y hlo hhi
      rw [plane_at]
      constructor
      · -- negative side: compare with the pair `(g, q)`
        have hy : s.chiMin * y ≤ s.chiMin * q.yHigh := mul_le_mul_of_nonneg_left hhi hnn
        by_cases hpos : yp' < q.yHigh
        · have := h1 (g, q) ((mem_pairs _ _).2 ⟨hmem.1, hq⟩) (by simpa [hyp] using hpos)
          rw [pairChi, le_div_iff₀ (by simp only [hyp]; linarith)] at this
          simp only [hyp] at this
          nlinarith
        · push Not at hpos
          have := mul_le_mul_of_nonneg_left hpos hnn
          have := hn q hq
          have := hp g hmem.1
          nlinarith
      · have hy : s.chiMin * q.yLow ≤ s.chiMin * y := mul_le_mul_of_nonneg_left hlo hnn
        by_cases hpos : q.yLow < yn'
        · have := h1 (q, o) ((mem_pairs _ _).2 ⟨hq, hmem.2⟩) (by simpa [hyn] using hpos)
          rw [pairChi, le_div_iff₀ (by simp only [hyn]; linarith)] at this
          simp only [hyn] at this
          nlinarith
        · push Not at hpos
          have := mul_le_mul_of_nonneg_left hpos hnn
          have := hn o hmem.2
          have := hp q hq
          nlinarith
    · have : (![eps0, -s.chiMin, 0] : Fin 3 → ℝ) 1 = -s.chiMin := rfl
      rw [this]; linarith

/-- **C22**, error branch: the call raises (`UnboundLocalError`) exactly when no pair of parts has
a lower edge below an upper edge with a slope under `1e10`. -/
theorem C22_raises_iff (parts : List Part) (rc yielding : Bool) :
    (∀ v, balancedFailure parts rc yielding ≠ .ok v) ↔
      ∀ g ∈ parts, ∀ o ∈ parts, g.yLow < o.yHigh →
        1e10 ≤ (tensionLimit yielding g - compressionLimit yielding rc o) / (o.yHigh - g.yLow) := by
  rw [← posLimit_eq, ← negLimit_eq]
  have inv := balFold_inv yielding rc (parts.flatMap fun g => parts.map fun o => (g, o))
  unfold balancedFailure
  simp only
  set s := (parts.flatMap fun g => parts.map fun o => (g, o)).foldl (balStep yielding rc) ⟨1e10, none⟩
    with hs
  obtain ⟨h1, h2, h3⟩ := inv
  cases hb : s.best with
  | none =>
    rw [hb] at h3
    simp only [ne_eq, reduceCtorEq, not_false_eq_true, implies_true, true_iff]
    intro g hg o ho hlt
    have := h1 (g, o) ((mem_pairs _ _).2 ⟨hg, ho⟩) hlt
    rw [h3] at this
    exact this
  | some b =>
    obtain ⟨eps0, yn', yp'⟩ := b
    rw [hb] at h3
    obtain ⟨hlt', ⟨g, o⟩, hmem, hyp, hyn, hlt, hchi, -⟩ := h3
    rw [mem_pairs] at hmem
    constructor
    · intro hall
      exact absurd rfl (hall _)
    · intro hall
      have := hall g hmem.1 o hmem.2 (by simp only at hyp hyn; rw [hyp, hyn]; exact hlt)
      rw [hchi] at hlt'
      unfold pairChi at hlt'
      exact absurd hlt' (not_lt.2 this)

/-- A section all of whose parts lie on one horizontal line (one layer of bars) always raises. -/
theorem C22_single_layer_raises (parts : List Part) (rc yielding : Bool) (y : ℝ)
    (h : ∀ g ∈ parts, g.yLow = y ∧ g.yHigh = y) :
    balancedFailure parts rc yielding = .error .unboundLocal := by
  have := (C22_raises_iff parts rc yielding).2 (by
    intro g hg o ho hlt
    rw [(h g hg).1, (h o ho).2] at hlt
    exact absurd hlt (lt_irrefl _))
  unfold balancedFailure at this ⊢
  simp only at this ⊢
  split at this
  · rfl
  · exact absurd rfl (this _)

/-- A reinforced concrete section (concrete 0..500 with limits -0.0035/100, steel at 50 with limits
∓0.0675) meets the hypotheses and returns. -/
example : ∃ v, balancedFailure
    [⟨true, true, 0, 500, fun b => if b then (-0.002, 100) else (-0.0035, 100)⟩,
     ⟨false, false, 50, 50, fun b => if b then (-0.0022, 0.0022) else (-0.0675, 0.0675)⟩] true false
    = .ok v := by
  by_contra hne
  push Not at hne
  have := (C22_raises_iff _ _ _).1 hne
    ⟨false, false, 50, 50, fun b => if b then (-0.0022, 0.0022) else (-0.0675, 0.0675)⟩ (by simp)
    ⟨true, true, 0, 500, fun b => if b then (-0.002, 100) else (-0.0035, 100)⟩ (by simp) (by norm_num)
  norm_num [Spec.tensionLimit, Spec.compressionLimit] at this

example : ∀ g ∈ ([⟨true, true, 0, 500, fun b => if b then (-0.002, 100) else (-0.0035, 100)⟩,
     ⟨false, false, 50, 50, fun b => if b then (-0.0022, 0.0022) else (-0.0675, 0.0675)⟩] : List Part),
    compressionLimit false true g ≤ 0 ∧ 0 ≤ tensionLimit false g := by
  simp [Spec.compressionLimit, Spec.tensionLimit]
  norm_num

end SC
