import Verif.Model.Reinforcement
import Verif.Props.Geometry
import Verif.Props.Grid
import Mathlib.Analysis.SpecialFunctions.Trigonometric.Angle
import Mathlib.Analysis.Real.Pi.Bounds

/-! # C32, C33: bars along a line and along a circle -/

set_option autoImplicit false

namespace SC

/-! ### Specification -/

/-- Indices of the bars that are wanted: the first and the last may be left out. -/
def kept (n : ℕ) (first last : Bool) : List ℕ :=
  (List.range n).filter fun k => (first || k != 0) && (last || k + 1 != n)

/-- `f 0, ..., f (n-1)` are on the segment `ab`, `s` apart in the direction from `a` to `b`, and
centred. -/
structure EvenlyOn (a b : ℝ × ℝ) (n : ℕ) (s : ℝ) (f : ℕ → ℝ × ℝ) : Prop where
  on_segment : ∀ k < n, ∃ t : ℝ, 0 ≤ t ∧ t ≤ 1 ∧
    f k = (a.1 + t * (b.1 - a.1), a.2 + t * (b.2 - a.2))
  spacing : ∀ k, k + 1 < n → segLength (f k) (f (k + 1)) = s
  forward : ∀ k, k + 1 < n → 0 ≤ ((f (k + 1)).1 - (f k).1) * (b.1 - a.1) + ((f (k + 1)).2 - (f k).2) * (b.2 - a.2)
  centred : ∀ k < n, (f k).1 + (f (n - 1 - k)).1 = a.1 + b.1 ∧ (f k).2 + (f (n - 1 - k)).2 = a.2 + b.2

/-- The result is the old geometry with these bars added at the end, surfaces untouched. -/
def AddsBars (geo res : Geo) (b : BarSpec) (places : List (ℝ × ℝ)) : Prop :=
  res.surfaces = geo.surfaces ∧
  res.bars = geo.bars ++ places.map fun p => ⟨p, b.diameter, b.mat, none, b.label⟩

/-! ### The loop -/

theorem addReinforcement_spec (geo : Geo) (p : ℝ × ℝ) (b : BarSpec) :
    (addReinforcement geo p b).surfaces = geo.surfaces ∧
    (addReinforcement geo p b).bars = geo.bars ++ [b.bar p] := by
  constructor
  · show (Compound.ofList [geo, _]).surfs = _
    rw [Compound.ofList, processList_eq]; simp [Geo.surfaces]
  · show (Compound.ofList [geo, _]).pts = _
    rw [Compound.ofList, processList_eq]; simp [Geo.bars]

theorem addLoop_spec (geo : Geo) (n : ℕ) (first last : Bool) (coords : ℕ → ℝ × ℝ) (b : BarSpec) :
    AddsBars geo (addLoop geo n first last coords b) b ((kept n first last).map coords) := by
  unfold addLoop kept AddsBars
  have hf : ∀ k, ((first || k != 0) && (last || k + 1 != n)) = !skipped n first last k := by
    intro k
    unfold skipped
    cases first <;> cases last <;> simp [bne]
  simp_rw [hf]
  generalize List.range n = l
  induction l generalizing geo with
  | nil => simp
  | cons k l ih =>
    simp only [List.foldl_cons]
    by_cases hk : skipped n first last k = true
    · simpa [hk] using ih geo
    · simp only [hk, Bool.false_eq_true, if_false]
      obtain ⟨h1, h2⟩ := ih (addReinforcement geo (coords k) b)
      rw [h1, h2, (addReinforcement_spec _ _ _).1, (addReinforcement_spec _ _ _).2]
      simp [hk, BarSpec.bar]

theorem kept_nodup (n : ℕ) (first last : Bool) : (kept n first last).Nodup :=
  (List.nodup_range).filter _

theorem kept_lt (n : ℕ) (first last : Bool) : ∀ k ∈ kept n first last, k < n := by
  intro k hk
  exact List.mem_range.1 (List.mem_filter.1 hk).1

/-- **C32, C33 (count).** The number of bars is `n`, less one for each omitted end. -/
theorem C32_count (n : ℕ) (first last : Bool) (hn : 2 ≤ n) :
    (kept n first last).length + (if first then 0 else 1) + (if last then 0 else 1) = n := by
  obtain ⟨m, rfl⟩ : ∃ m, n = m + 2 := ⟨n - 2, by omega⟩
  unfold kept
  have hmid : ∀ k ∈ (List.range m).map Nat.succ, ((first || k != 0) && (last || k + 1 != m + 2)) = true := by
    intro k hk
    obtain ⟨j, hj, rfl⟩ := List.mem_map.1 hk
    have := List.mem_range.1 hj
    have h1 : (Nat.succ j != 0) = true := by simp
    have h2 : (Nat.succ j + 1 != m + 2) = true := by simp; omega
    rw [h1, h2]; simp
  have hr : List.range (m + 2) = 0 :: ((List.range m).map Nat.succ ++ [m + 1]) := by
    rw [List.range_succ, List.range_succ_eq_map]; rfl
  rw [hr, List.filter_cons, List.filter_append, List.filter_eq_self.2 hmid]
  cases first <;> cases last <;> simp

/-- A single bar is left out if either end is. -/
theorem C32_count_one (first last : Bool) :
    kept 1 first last = if first && last then [0] else [] := by
  cases first <;> cases last <;> rfl

/-! ### C32: line -/

theorem segLength_pos {a b : ℝ × ℝ} (h : a ≠ b) : 0 < segLength a b := by
  unfold segLength
  apply Real.sqrt_pos.2
  by_contra hc
  push Not at hc
  have h1 : (b.1 - a.1) ^ 2 = 0 := by nlinarith [sq_nonneg (b.1 - a.1), sq_nonneg (b.2 - a.2)]
  have h2 : (b.2 - a.2) ^ 2 = 0 := by nlinarith [sq_nonneg (b.1 - a.1), sq_nonneg (b.2 - a.2)]
  apply h
  ext
  · have := pow_eq_zero_iff (two_ne_zero) |>.1 h1; linarith
  · have := pow_eq_zero_iff (two_ne_zero) |>.1 h2; linarith

/-- A grid of `n` points with spacing `s` along the unit vector from `a` to `b`, starting half of the
remaining length after `a`. -/
theorem evenly_grid (a b : ℝ × ℝ) (hab : a ≠ b) (n : ℕ) (s : ℝ) (hs : 0 ≤ s)
    (hfit : ((n : ℝ) - 1) * s ≤ segLength a b) :
    let L := segLength a b
    EvenlyOn a b n s fun k => (a.1 + (b.1 - a.1) / L * (L - ((n : ℝ) - 1) * s) / 2 + (b.1 - a.1) / L * s * k,
      a.2 + (b.2 - a.2) / L * (L - ((n : ℝ) - 1) * s) / 2 + (b.2 - a.2) / L * s * k) := by
  intro L
  have hL : 0 < L := segLength_pos hab
  have hL2 : (b.1 - a.1) ^ 2 + (b.2 - a.2) ^ 2 = L ^ 2 := by
    simp only [L, segLength]
    rw [Real.sq_sqrt (by positivity)]
  constructor
  · intro k hk
    have hk' : (k : ℝ) ≤ (n : ℝ) - 1 := by
      have : (k : ℝ) + 1 ≤ n := by exact_mod_cast hk
      linarith
    have hk0 : (0 : ℝ) ≤ k := Nat.cast_nonneg k
    refine ⟨((L - ((n : ℝ) - 1) * s) / 2 + s * k) / L, ?_, ?_, ?_⟩
    · apply div_nonneg _ hL.le
      have : 0 ≤ s * k := mul_nonneg hs hk0
      have hfit' : ((n : ℝ) - 1) * s ≤ L := hfit
      linarith
    · rw [div_le_one hL]
      have h1 : s * k ≤ s * ((n : ℝ) - 1) := mul_le_mul_of_nonneg_left hk' hs
      have hfit' : ((n : ℝ) - 1) * s ≤ L := hfit
      nlinarith
    · ext <;> simp only <;> field_simp <;> ring
  · intro k hk
    simp only [segLength]
    rw [show a.1 + (b.1 - a.1) / L * (L - ((n : ℝ) - 1) * s) / 2 + (b.1 - a.1) / L * s * ((k + 1 : ℕ) : ℝ) -
        (a.1 + (b.1 - a.1) / L * (L - ((n : ℝ) - 1) * s) / 2 + (b.1 - a.1) / L * s * (k : ℝ)) = (b.1 - a.1) / L * s by
        push_cast; ring,
      show a.2 + (b.2 - a.2) / L * (L - ((n : ℝ) - 1) * s) / 2 + (b.2 - a.2) / L * s * ((k + 1 : ℕ) : ℝ) -
        (a.2 + (b.2 - a.2) / L * (L - ((n : ℝ) - 1) * s) / 2 + (b.2 - a.2) / L * s * (k : ℝ)) = (b.2 - a.2) / L * s by
        push_cast; ring]
    rw [show ((b.1 - a.1) / L * s) ^ 2 + ((b.2 - a.2) / L * s) ^ 2 =
      ((b.1 - a.1) ^ 2 + (b.2 - a.2) ^ 2) / L ^ 2 * s ^ 2 by field_simp, hL2, div_self (by positivity), one_mul,
      Real.sqrt_sq hs]
  · intro k hk
    simp only
    have : ((a.1 + (b.1 - a.1) / L * (L - ((n : ℝ) - 1) * s) / 2 + (b.1 - a.1) / L * s * ((k + 1 : ℕ) : ℝ)) -
        (a.1 + (b.1 - a.1) / L * (L - ((n : ℝ) - 1) * s) / 2 + (b.1 - a.1) / L * s * (k : ℝ))) * (b.1 - a.1) +
        ((a.2 + (b.2 - a.2) / L * (L - ((n : ℝ) - 1) * s) / 2 + (b.2 - a.2) / L * s * ((k + 1 : ℕ) : ℝ)) -
        (a.2 + (b.2 - a.2) / L * (L - ((n : ℝ) - 1) * s) / 2 + (b.2 - a.2) / L * s * (k : ℝ))) * (b.2 - a.2)
        = s / L * ((b.1 - a.1) ^ 2 + (b.2 - a.2) ^ 2) := by
      push_cast; field_simp; ring
    rw [this, hL2]
    positivity
  · intro k hk
    have hc : ((n - 1 - k : ℕ) : ℝ) = (n : ℝ) - 1 - k := by
      rw [Nat.sub_sub, Nat.cast_sub (by omega)]; push_cast; ring
    simp only [hc]
    constructor <;> field_simp <;> ring

/-- **C32 (number given).** `n ≥ 2` bars and no spacing: the bars divide the segment into `n - 1`
equal parts, the first at its start and the last at its end. -/
theorem C32_number (geo : Geo) (a b : ℝ × ℝ) (hab : a ≠ b) (spec : BarSpec) (n : ℕ) (hn : 2 ≤ n) (s : ℝ)
    (hs : s ≤ 0) (first last : Bool) :
    ∃ res f, addLine geo a b spec n s first last = .ok (some res) ∧
      EvenlyOn a b n (segLength a b / (n - 1)) f ∧ f 0 = a ∧ f (n - 1) = b ∧
      AddsBars geo res spec ((kept n first last).map f) := by
  have hL := segLength_pos hab
  have hn1 : (0 : ℝ) < (n : ℝ) - 1 := by
    have : (2 : ℝ) ≤ n := by exact_mod_cast hn
    linarith
  have hgrid : lineGrid a b n s = .ok ((n : ℤ), some (a, ((b.1 - a.1) / segLength a b,
      (b.2 - a.2) / segLength a b), segLength a b / (((n : ℤ) : ℝ) - 1))) := by
    simp only [lineGrid]
    rw [if_neg (by rintro ⟨_, h⟩; linarith), if_pos (by omega), if_neg]
    rintro (h | h)
    · exact hL.ne' h
    · omega
  have hev := evenly_grid a b hab n (segLength a b / ((n : ℝ) - 1)) (by positivity)
    (by field_simp; exact le_rfl)
  simp only at hev
  have hz : segLength a b - ((n : ℝ) - 1) * (segLength a b / ((n : ℝ) - 1)) = 0 := by
    field_simp; ring
  simp only [hz, mul_zero, zero_div, add_zero] at hev
  refine ⟨_, _, by simp only [addLine, hgrid]; rfl, hev, ?_, ?_, ?_⟩
  · ext <;> simp
  · have : ((n - 1 : ℕ) : ℝ) = (n : ℝ) - 1 := by rw [Nat.cast_sub (by omega)]; simp
    ext <;> simp only [this] <;> field_simp <;> ring
  · have := addLoop_spec geo (n : ℤ).toNat first last (fun i => (a.1 + (b.1 - a.1) / segLength a b *
      (segLength a b / (((n : ℤ) : ℝ) - 1)) * i, a.2 + (b.2 - a.2) / segLength a b *
      (segLength a b / (((n : ℤ) : ℝ) - 1)) * i)) spec
    simpa using this

/-- **C32 (spacing and number given).** If the bars fit: exactly `n` bars, `s` apart, centred. -/
theorem C32_both (geo : Geo) (a b : ℝ × ℝ) (hab : a ≠ b) (spec : BarSpec) (n : ℕ) (hn : 1 ≤ n) (s : ℝ)
    (hs : 0 < s) (hfit : ((n : ℝ) - 1) * s ≤ segLength a b) (first last : Bool) :
    ∃ res f, addLine geo a b spec n s first last = .ok (some res) ∧ EvenlyOn a b n s f ∧
      AddsBars geo res spec ((kept n first last).map f) := by
  have hL := segLength_pos hab
  have hgrid : lineGrid a b n s = .ok ((n : ℤ), some ((a.1 + (b.1 - a.1) / segLength a b *
      (segLength a b - (((n : ℤ) : ℝ) - 1) * s) / 2, a.2 + (b.2 - a.2) / segLength a b *
      (segLength a b - (((n : ℤ) : ℝ) - 1) * s) / 2), ((b.1 - a.1) / segLength a b,
      (b.2 - a.2) / segLength a b), s)) := by
    simp only [lineGrid]
    rw [if_pos ⟨by omega, hs⟩, if_neg (by push_cast; linarith), if_neg hL.ne']
  have hev := evenly_grid a b hab n s hs.le hfit
  refine ⟨_, _, by simp only [addLine, hgrid]; rfl, hev, ?_⟩
  have := addLoop_spec geo (n : ℤ).toNat first last (fun i => (a.1 + (b.1 - a.1) / segLength a b *
      (segLength a b - (((n : ℤ) : ℝ) - 1) * s) / 2 + (b.1 - a.1) / segLength a b * s * i,
      a.2 + (b.2 - a.2) / segLength a b *
      (segLength a b - (((n : ℤ) : ℝ) - 1) * s) / 2 + (b.2 - a.2) / segLength a b * s * i)) spec
  simpa using this

/-- **C32 (spacing given).** The greatest number `m` of bars that fit at spacing `s`, centred. -/
theorem C32_spacing (geo : Geo) (a b : ℝ × ℝ) (hab : a ≠ b) (spec : BarSpec) (n : ℤ) (hn : n ≤ 0) (s : ℝ)
    (hs : 0 < s) (first last : Bool) :
    ∃ (m : ℕ) (res : Geo) (f : ℕ → ℝ × ℝ), addLine geo a b spec n s first last = .ok (some res) ∧
      EvenlyOn a b m s f ∧ 1 ≤ m ∧ ((m : ℝ) - 1) * s ≤ segLength a b ∧ segLength a b < m * s ∧
      AddsBars geo res spec ((kept m first last).map f) := by
  have hL := segLength_pos hab
  have hfl0 : 0 ≤ ⌊segLength a b / s⌋ := Int.floor_nonneg.2 (by positivity)
  obtain ⟨j, hj⟩ := Int.eq_ofNat_of_zero_le hfl0
  have hjR : (j : ℝ) = (⌊segLength a b / s⌋ : ℝ) := by rw [hj]; simp
  have hlo : (j : ℝ) * s ≤ segLength a b := by
    rw [hjR]
    exact (le_div_iff₀ hs).1 (Int.floor_le _)
  have hhi : segLength a b < ((j : ℝ) + 1) * s := by
    rw [hjR]
    exact (div_lt_iff₀ hs).1 (Int.lt_floor_add_one _)
  have hgrid : lineGrid a b n s = .ok (((j + 1 : ℕ) : ℤ), some ((a.1 + (b.1 - a.1) / segLength a b *
      (segLength a b - ((((j + 1 : ℕ) : ℤ) : ℝ) - 1) * s) / 2, a.2 + (b.2 - a.2) / segLength a b *
      (segLength a b - ((((j + 1 : ℕ) : ℤ) : ℝ) - 1) * s) / 2), ((b.1 - a.1) / segLength a b,
      (b.2 - a.2) / segLength a b), s)) := by
    simp only [lineGrid]
    rw [if_neg (by rintro ⟨h, _⟩; omega), if_neg (by omega), if_pos hs, if_neg hL.ne', hj]
    push_cast
    rfl
  have hfit : (((j + 1 : ℕ) : ℝ) - 1) * s ≤ segLength a b := by push_cast; simpa using hlo
  have hev := evenly_grid a b hab (j + 1) s hs.le hfit
  refine ⟨j + 1, _, _, by simp only [addLine, hgrid]; rfl, hev, by omega, hfit, by push_cast; exact hhi, ?_⟩
  have := addLoop_spec geo ((j + 1 : ℕ) : ℤ).toNat first last (fun i => (a.1 + (b.1 - a.1) / segLength a b *
      (segLength a b - ((((j + 1 : ℕ) : ℤ) : ℝ) - 1) * s) / 2 + (b.1 - a.1) / segLength a b * s * i,
      a.2 + (b.2 - a.2) / segLength a b *
      (segLength a b - ((((j + 1 : ℕ) : ℤ) : ℝ) - 1) * s) / 2 + (b.2 - a.2) / segLength a b * s * i)) spec
  rw [Int.toNat_natCast] at this
  simpa only [Int.cast_natCast, Int.toNat_natCast] using this

/-- **C32 (rejected).** Neither number nor spacing, or more bars than fit: `ValueError`. -/
theorem C32_rejects (geo : Geo) (a b : ℝ × ℝ) (spec : BarSpec) (n : ℤ) (s : ℝ) (first last : Bool)
    (h : (n ≤ 0 ∧ s ≤ 0) ∨ (0 < n ∧ 0 < s ∧ segLength a b < ((n : ℝ) - 1) * s)) :
    addLine geo a b spec n s first last = .error .valueError := by
  have : lineGrid a b n s = .error .valueError := by
    simp only [lineGrid]
    rcases h with ⟨h1, h2⟩ | ⟨h1, h2, h3⟩
    · rw [if_neg (by rintro ⟨h, _⟩; omega), if_neg (by omega), if_neg (by linarith)]
    · rw [if_pos ⟨h1, h2⟩, if_pos h3]
  simp [addLine, this]

/-- **C32, violated.** A single bar without spacing (`n = 1`, default `s`) is placed at `(nan, nan)`
without an error: the spacing is computed as length / 0. -/
theorem C32_single_violated (geo : Geo) (a b : ℝ × ℝ) (spec : BarSpec) (s : ℝ) (hs : s ≤ 0) :
    addLine geo a b spec 1 s true true = .ok none := by
  have : lineGrid a b 1 s = .ok (1, none) := by
    simp only [lineGrid]
    rw [if_neg (by rintro ⟨_, h⟩; linarith), if_pos (by norm_num), if_pos (Or.inr trivial)]
  simp [addLine, this, skipped, List.range_succ]

/-- **C32, violated.** Equal end points: bars at `(nan, nan)` instead of an error. -/
theorem C32_coincident_violated (geo : Geo) (a : ℝ × ℝ) (spec : BarSpec) (n : ℕ) (hn : 1 ≤ n) :
    addLine geo a a spec n 0 true true = .ok none := by
  have h0 : segLength a a = 0 := by simp [segLength]
  have : lineGrid a a n 0 = .ok ((n : ℤ), none) := by
    simp only [lineGrid]
    rw [if_neg (by rintro ⟨_, h⟩; linarith), if_pos (by omega), if_pos (Or.inl h0)]
  simp only [addLine, this, Int.toNat_natCast]
  rw [if_neg]
  simp [skipped]
  exact ⟨0, by omega⟩

/-- Four bars in a 300 mm web, and 100 mm spacing on 350 mm: hypotheses of the theorems above. -/
example : ((0 : ℝ), (0 : ℝ)) ≠ (300, 0) ∧ (((4 : ℕ) : ℝ) - 1) * 100 ≤ segLength (0, 0) (350, 0) := by
  constructor
  · simp
  · have : segLength ((0 : ℝ), (0 : ℝ)) (350, 0) = 350 := by
      simp [segLength, Real.sqrt_sq]
    rw [this]; norm_num

/-! ### C33: circle -/

/-- The place on the circle at an angle. -/
noncomputable def onCircle (c : ℝ × ℝ) (r phi : ℝ) : ℝ × ℝ := (c.1 + r * Real.cos phi, c.2 + r * Real.sin phi)

theorem linspace_getD (a b : ℝ) (n i : ℕ) (hn : 2 ≤ n) (hi : i < n) :
    (linspace a b n true).getD i 0 = a + i * ((b - a) / ((n : ℝ) - 1)) := by
  rw [List.getD_eq_getElem?_getD, linspace_get_endpoint a b n i hn hi]; rfl

theorem dropLast_getD (l : List ℝ) (i : ℕ) (hi : i + 1 < l.length) : l.dropLast.getD i 0 = l.getD i 0 := by
  rw [List.getD_eq_getElem?_getD, List.getD_eq_getElem?_getD, List.getElem?_dropLast, if_pos (by omega)]

/-- The call in terms of its angles. -/
theorem addCircle_of_grid (geo : Geo) (c : ℝ × ℝ) (r : ℝ) (spec : BarSpec) (n : ℤ) (s : ℝ) (first last : Bool)
    (start stop : ℝ) (hr1 : 0 < stop - start) (hr2 : stop - start ≤ 2 * Real.pi) (m : ℕ) (delta : ℝ) (whole : Bool)
    (hg : circleGrid r n s start stop = .ok ((m : ℤ) + (if whole then 1 else 0), delta, whole))
    (f : ℕ → ℝ) (hf : ∀ k < m, (linspace (start + delta) (stop - delta) (m + (if whole then 1 else 0)) true).getD k 0
      = f k) :
    ∃ res, addCircle geo c r spec n s first last start stop = .ok res ∧
      AddsBars geo res spec ((kept m first last).map fun k : ℕ => onCircle c r (f k)) := by
  have hrange : ¬ (stop - start ≤ 0 ∨ stop - start > 2 * Real.pi) := by
    rintro (h | h) <;> linarith
  have hgn : ¬ ((m : ℤ) + (if whole = true then 1 else 0) < 0) := by split_ifs <;> omega
  simp only [addCircle, if_neg hrange, hg, if_neg hgn]
  refine ⟨_, rfl, ?_⟩
  have hnum : (if whole = true then ((m : ℤ) + (if whole = true then 1 else 0)).toNat - 1 else
      ((m : ℤ) + (if whole = true then 1 else 0)).toNat) = m := by
    cases whole <;> simp <;> omega
  have hnat : ((m : ℤ) + (if whole = true then 1 else 0)).toNat = m + (if whole = true then 1 else 0) := by
    cases whole <;> simp <;> omega
  rw [hnum, hnat]
  have h := addLoop_spec geo m first last (fun i =>
    (c.1 + r * Real.cos ((if whole = true then (linspace (start + delta) (stop - delta)
        (m + (if whole then 1 else 0)) true).dropLast else linspace (start + delta) (stop - delta)
        (m + (if whole then 1 else 0)) true).getD i 0),
     c.2 + r * Real.sin ((if whole = true then (linspace (start + delta) (stop - delta)
        (m + (if whole then 1 else 0)) true).dropLast else linspace (start + delta) (stop - delta)
        (m + (if whole then 1 else 0)) true).getD i 0))) spec
  refine ⟨h.1, ?_⟩
  rw [h.2]
  congr 1
  rw [List.map_map, List.map_map]
  apply List.map_congr_left
  intro k hk
  have hk := kept_lt _ _ _ k hk
  have : (if whole = true then (linspace (start + delta) (stop - delta)
        (m + (if whole then 1 else 0)) true).dropLast else linspace (start + delta) (stop - delta)
        (m + (if whole then 1 else 0)) true).getD k 0 = f k := by
    rw [← hf k hk]
    cases whole with
    | false => rfl
    | true =>
      simp only [if_true]
      apply dropLast_getD
      rw [linspace_length]; omega
  simp only [Function.comp_apply, this, onCircle]

/-- Two places on a circle of radius `r ≠ 0` whose angles differ by less than a full turn, and are
different, are different. -/
theorem onCircle_ne (c : ℝ × ℝ) (r : ℝ) (hr : r ≠ 0) (x y : ℝ) (h1 : x < y) (h2 : y - x < 2 * Real.pi) :
    onCircle c r x ≠ onCircle c r y := by
  intro h
  simp only [onCircle, Prod.mk.injEq, add_right_inj, mul_eq_mul_left_iff, hr, or_false] at h
  have hc : Real.cos (y - x) = 1 := by
    rw [Real.cos_sub, ← h.1, ← h.2]
    have := Real.sin_sq_add_cos_sq x
    nlinarith
  have h3 : -(2 * Real.pi) < y - x := by have := Real.pi_pos; linarith
  have := (Real.cos_eq_one_iff_of_lt_of_lt h3 h2).1 hc
  linarith

theorem distinct_of_step (c : ℝ × ℝ) (r : ℝ) (hr : r ≠ 0) (n : ℕ) (first last : Bool) (a d : ℝ) (hd : 0 < d)
    (hn : ((n : ℝ) - 1) * d < 2 * Real.pi) :
    ((kept n first last).map fun k : ℕ => onCircle c r (a + k * d)).Nodup := by
  apply List.Nodup.map_on _ (kept_nodup _ _ _)
  intro i hi j hj hij
  have hi := kept_lt _ _ _ i hi
  have hj := kept_lt _ _ _ j hj
  have hne : ∀ i j : ℕ, i < j → j < n → onCircle c r (a + i * d) ≠ onCircle c r (a + j * d) := by
    intro i j hij hj
    have h1 : (i : ℝ) < j := by exact_mod_cast hij
    have h2 : (j : ℝ) + 1 ≤ n := by exact_mod_cast hj
    have h3 : (0 : ℝ) ≤ i := Nat.cast_nonneg i
    apply onCircle_ne c r hr
    · nlinarith
    · nlinarith
  rcases lt_trichotomy i j with h | h | h
  · exact absurd hij (hne i j h hj)
  · exact h
  · exact absurd hij.symm (hne j i h hi)

/-- **C33 (number on an arc).** `n ≥ 2` bars on an arc that is not a whole circle (by more than the
tolerance): on the arc at `n - 1` equal angles from its start to its end, no two at the same place. -/
theorem C33_arc_number (geo : Geo) (c : ℝ × ℝ) (r : ℝ) (spec : BarSpec) (n : ℕ) (hn : 2 ≤ n) (s : ℝ) (hs : s ≤ 0)
    (first last : Bool) (start stop : ℝ) (h1 : 0 < stop - start) (h2 : stop - start ≤ 2 * Real.pi)
    (hw : 1e-4 < |r * (stop - start) - 2 * Real.pi * r|) :
    ∃ res, addCircle geo c r spec n s first last start stop = .ok res ∧
      AddsBars geo res spec ((kept n first last).map fun k : ℕ =>
        onCircle c r (start + k * ((stop - start) / ((n : ℝ) - 1)))) ∧
      ((kept n first last).map fun k : ℕ => onCircle c r (start + k * ((stop - start) / ((n : ℝ) - 1)))).Nodup := by
  have hn1 : (0 : ℝ) < (n : ℝ) - 1 := by
    have : (2 : ℝ) ≤ n := by exact_mod_cast hn
    linarith
  have hg : circleGrid r n s start stop = .ok ((n : ℤ) + (if false then 1 else 0), 0, false) := by
    have hd : decide (|r * (stop - start) - 2 * Real.pi * r| ≤ 1e-4) = false := by simpa using hw
    simp only [circleGrid, hd]
    rw [if_neg (by rintro ⟨_, h⟩; linarith), if_pos (by omega), if_neg (by omega)]
  obtain ⟨res, hres, hbars⟩ := addCircle_of_grid geo c r spec n s first last start stop h1 h2 n 0 false hg
    (fun k => start + k * ((stop - start) / ((n : ℝ) - 1))) (by
      intro k hk
      simp only [Bool.false_eq_true, if_false, add_zero, sub_zero]
      exact linspace_getD _ _ n k hn hk)
  refine ⟨res, hres, hbars, ?_⟩
  have hr : r ≠ 0 := by
    rintro rfl
    norm_num at hw
  have hlt : stop - start < 2 * Real.pi := by
    rcases h2.lt_or_eq with h | h
    · exact h
    · rw [h, show r * (2 * Real.pi) - 2 * Real.pi * r = 0 by ring] at hw; norm_num at hw
  apply distinct_of_step c r hr n first last start _ (by positivity)
  rw [mul_div_cancel₀ _ hn1.ne']
  exact hlt

/-- **C33 (number on the whole circle).** `n ≥ 2` bars on the whole circle: at `n` equal angles, no
two at the same place. -/
theorem C33_whole_number (geo : Geo) (c : ℝ × ℝ) (r : ℝ) (hr : r ≠ 0) (spec : BarSpec) (n : ℕ) (hn : 2 ≤ n) (s : ℝ)
    (hs : s ≤ 0) (first last : Bool) (start : ℝ) :
    ∃ res, addCircle geo c r spec n s first last start (start + 2 * Real.pi) = .ok res ∧
      AddsBars geo res spec ((kept n first last).map fun k : ℕ => onCircle c r (start + k * (2 * Real.pi / n))) ∧
      ((kept n first last).map fun k : ℕ => onCircle c r (start + k * (2 * Real.pi / n))).Nodup := by
  have hpi := Real.pi_pos
  have hn0 : (0 : ℝ) < n := by exact_mod_cast (by omega : 0 < n)
  have hg : circleGrid r n s start (start + 2 * Real.pi) = .ok ((n : ℤ) + (if true then 1 else 0), 0, true) := by
    have hd : decide (|r * (start + 2 * Real.pi - start) - 2 * Real.pi * r| ≤ 1e-4) = true := by
      rw [show r * (start + 2 * Real.pi - start) - 2 * Real.pi * r = 0 by ring]; norm_num
    simp only [circleGrid, hd]
    rw [if_neg (by rintro ⟨_, h⟩; linarith), if_pos (by omega), if_neg (by omega)]
  obtain ⟨res, hres, hbars⟩ := addCircle_of_grid geo c r spec n s first last start (start + 2 * Real.pi)
    (by linarith) (by linarith) n 0 true hg
    (fun k => start + k * (2 * Real.pi / n)) (by
      intro k hk
      simp only [if_true, add_zero, sub_zero]
      rw [linspace_getD _ _ (n + 1) k (by omega) (by omega)]
      push_cast
      rw [add_sub_cancel_left, add_sub_cancel_right])
  refine ⟨res, hres, hbars, ?_⟩
  apply distinct_of_step c r hr n first last start _ (by positivity)
  have : (0 : ℝ) < 2 * Real.pi / n := by positivity
  have e : (n : ℝ) * (2 * Real.pi / n) = 2 * Real.pi := by field_simp
  nlinarith

/-- **C33 (number and spacing).** `n` bars at arc spacing `s`, if they fit (on a whole circle the gap
between the last and the first bar is at least `s` too): exactly `n` bars at arc spacing `s`, no two
at the same place. -/
theorem C33_both (geo : Geo) (c : ℝ × ℝ) (r : ℝ) (hr : 0 < r) (spec : BarSpec) (n : ℕ) (hn : 1 ≤ n) (s : ℝ)
    (hs : 0 < s) (first last : Bool) (start stop : ℝ) (h1 : 0 < stop - start) (h2 : stop - start ≤ 2 * Real.pi)
    (hfit : (n : ℝ) * s ≤ r * (stop - start)) :
    ∃ res phi0, addCircle geo c r spec n s first last start stop = .ok res ∧ start ≤ phi0 ∧
      phi0 + (n - 1) * (s / r) ≤ stop ∧
      AddsBars geo res spec ((kept n first last).map fun k : ℕ => onCircle c r (phi0 + k * (s / r))) ∧
      ((kept n first last).map fun k : ℕ => onCircle c r (phi0 + k * (s / r))).Nodup := by
  have hpi := Real.pi_pos
  have hn1 : (1 : ℝ) ≤ n := by exact_mod_cast hn
  have hd : 0 < s / r := by positivity
  have hfit' : (n : ℝ) * (s / r) ≤ stop - start := by
    rw [← mul_div_assoc, div_le_iff₀ hr]; linarith
  have hnod : ∀ phi0 : ℝ, ((kept n first last).map fun k : ℕ => onCircle c r (phi0 + k * (s / r))).Nodup :=
    fun phi0 => distinct_of_step c r hr.ne' n first last phi0 _ hd (by nlinarith)
  by_cases hw : |r * (stop - start) - 2 * Real.pi * r| ≤ 1e-4
  · -- whole circle: one more sample, the last dropped
    have hwd : decide (|r * (stop - start) - 2 * Real.pi * r| ≤ 1e-4) = true := by simpa using hw
    set delta := (r * (stop - start) - (((n : ℝ) + 1) - 1) * s) / 2 / r with hdelta
    have hg : circleGrid r n s start stop = .ok ((n : ℤ) + (if true then 1 else 0), delta, true) := by
      simp only [circleGrid, hwd]
      rw [if_pos ⟨by omega, hs⟩, if_neg, if_neg hr.ne']
      · simp [hdelta]
      · simp; linarith
    have hdl : delta = ((stop - start) - n * (s / r)) / 2 := by
      rw [hdelta]; field_simp; ring
    obtain ⟨res, hres, hbars⟩ := addCircle_of_grid geo c r spec n s first last start stop h1 h2 n delta true hg
      (fun k => start + delta + k * (s / r)) (by
        intro k hk
        simp only [if_true]
        rw [linspace_getD _ _ (n + 1) k (by omega) (by omega)]
        push_cast
        rw [add_sub_cancel_right, show (stop - delta - (start + delta)) / (n : ℝ) = s / r by
          rw [hdl]; field_simp; ring])
    refine ⟨res, start + delta, hres, ?_, ?_, hbars, hnod _⟩
    · rw [hdl]; linarith
    · rw [hdl]; nlinarith
  · have hwd : decide (|r * (stop - start) - 2 * Real.pi * r| ≤ 1e-4) = false := by simpa using hw
    set delta := (r * (stop - start) - ((n : ℝ) - 1) * s) / 2 / r with hdelta
    have hg : circleGrid r n s start stop = .ok ((n : ℤ) + (if false then 1 else 0), delta, false) := by
      simp only [circleGrid, hwd]
      rw [if_pos ⟨by omega, hs⟩, if_neg, if_neg hr.ne']
      · simp [hdelta]
      · simp; nlinarith
    have hdl : delta = ((stop - start) - (n - 1) * (s / r)) / 2 := by
      rw [hdelta]; field_simp
    obtain ⟨res, hres, hbars⟩ := addCircle_of_grid geo c r spec n s first last start stop h1 h2 n delta false hg
      (fun k => start + delta + k * (s / r)) (by
        intro k hk
        simp only [Bool.false_eq_true, if_false, add_zero]
        rcases Nat.lt_or_ge n 2 with h | h
        · obtain rfl : n = 1 := by omega
          obtain rfl : k = 0 := by omega
          simp [linspace]
        · rw [linspace_getD _ _ n k h hk]
          have : (0 : ℝ) < (n : ℝ) - 1 := by
            have : (2 : ℝ) ≤ n := by exact_mod_cast h
            linarith
          rw [show (stop - delta - (start + delta)) / ((n : ℝ) - 1) = s / r by
            rw [hdl]; field_simp; ring])
    refine ⟨res, start + delta, hres, ?_, ?_, hbars, hnod _⟩
    · rw [hdl]; nlinarith
    · rw [hdl]; nlinarith

/-- **C33 (spacing), partial.** Only the spacing given: the greatest number `m` of bars with
`(m - 1) s` at most the arc length, at arc spacing `s`, centred on the arc.  They are at different
places if the arc length is not a multiple of `s` or the arc is shorter than the circle; see
`C33_spacing_violated`. -/
theorem C33_spacing_partial (geo : Geo) (c : ℝ × ℝ) (r : ℝ) (hr : 0 < r) (spec : BarSpec) (n : ℤ) (hn : n ≤ 0)
    (s : ℝ) (hs : 0 < s) (first last : Bool) (start stop : ℝ) (h1 : 0 < stop - start)
    (h2 : stop - start ≤ 2 * Real.pi) :
    ∃ (m : ℕ) (res : Geo) (phi0 : ℝ), addCircle geo c r spec n s first last start stop = .ok res ∧ 1 ≤ m ∧
      ((m : ℝ) - 1) * s ≤ r * (stop - start) ∧ r * (stop - start) < m * s ∧
      phi0 - start = stop - (phi0 + (m - 1) * (s / r)) ∧
      AddsBars geo res spec ((kept m first last).map fun k : ℕ => onCircle c r (phi0 + k * (s / r))) ∧
      (((m : ℝ) - 1) * s < r * (2 * Real.pi) →
        ((kept m first last).map fun k : ℕ => onCircle c r (phi0 + k * (s / r))).Nodup) := by
  have hL : 0 < r * (stop - start) := mul_pos hr h1
  have hfl0 : 0 ≤ ⌊r * (stop - start) / s⌋ := Int.floor_nonneg.2 (by positivity)
  obtain ⟨j, hj⟩ := Int.eq_ofNat_of_zero_le hfl0
  have hjR : (j : ℝ) = (⌊r * (stop - start) / s⌋ : ℝ) := by rw [hj]; simp
  have hlo : (j : ℝ) * s ≤ r * (stop - start) := by
    rw [hjR]; exact (le_div_iff₀ hs).1 (Int.floor_le _)
  have hhi : r * (stop - start) < ((j : ℝ) + 1) * s := by
    rw [hjR]; exact (div_lt_iff₀ hs).1 (Int.lt_floor_add_one _)
  set delta := (r * (stop - start) - (j : ℝ) * s) / 2 / r with hdelta
  have hdl : delta = ((stop - start) - j * (s / r)) / 2 := by
    rw [hdelta]; field_simp
  have hg : circleGrid r n s start stop = .ok (((j + 1 : ℕ) : ℤ) + (if false then 1 else 0), delta, false) := by
    simp only [circleGrid]
    rw [if_neg (by rintro ⟨h, _⟩; omega), if_neg (by omega), if_pos hs, if_neg hr.ne', hj]
    simp [hdelta]
  have hd : 0 < s / r := by positivity
  obtain ⟨res, hres, hbars⟩ := addCircle_of_grid geo c r spec n s first last start stop h1 h2 (j + 1) delta false hg
    (fun k => start + delta + k * (s / r)) (by
      intro k hk
      simp only [Bool.false_eq_true, if_false, add_zero]
      rcases Nat.eq_zero_or_pos j with rfl | h
      · obtain rfl : k = 0 := by omega
        simp [linspace]
      · rw [linspace_getD _ _ (j + 1) k (by omega) hk]
        have : (0 : ℝ) < (j : ℝ) := by exact_mod_cast h
        push_cast
        rw [add_sub_cancel_right, show (stop - delta - (start + delta)) / (j : ℝ) = s / r by
          rw [hdl]; field_simp; ring])
  refine ⟨j + 1, res, start + delta, hres, by omega, by push_cast; linarith, by push_cast; exact hhi, ?_, hbars, ?_⟩
  · push_cast; rw [hdl]; ring
  · intro h
    apply distinct_of_step c r hr.ne' _ first last _ _ hd
    rw [← mul_div_assoc, div_lt_iff₀ hr]; linarith

/-- **C33, violated (spacing on the whole circle).** If the spacing divides the circumference into
`q` parts, `q + 1` bars are placed: the last one exactly on the first one, so one place carries
twice the area. -/
theorem C33_spacing_violated (geo : Geo) (c : ℝ × ℝ) (r : ℝ) (hr : 0 < r) (spec : BarSpec) (q : ℕ) (hq : 1 ≤ q)
    (start : ℝ) :
    ∃ res, addCircle geo c r spec 0 (2 * Real.pi * r / q) true true start (start + 2 * Real.pi) = .ok res ∧
      AddsBars geo res spec ((List.range (q + 1)).map fun k : ℕ => onCircle c r (start + k * (2 * Real.pi / q))) ∧
      onCircle c r (start + (0 : ℕ) * (2 * Real.pi / q)) = onCircle c r (start + q * (2 * Real.pi / q)) := by
  have hpi := Real.pi_pos
  have hq0 : (0 : ℝ) < q := by exact_mod_cast hq
  have hs : 0 < 2 * Real.pi * r / q := by positivity
  obtain ⟨m, res, phi0, hres, hm, hlo, hhi, hc, hb, -⟩ := C33_spacing_partial geo c r hr spec 0 le_rfl
    (2 * Real.pi * r / q) hs true true start (start + 2 * Real.pi) (by linarith) (by linarith)
  have e : r * (start + 2 * Real.pi - start) = q * (2 * Real.pi * r / q) := by field_simp; ring
  rw [e] at hlo hhi
  have hm1 : ((m : ℝ) - 1) ≤ q := le_of_mul_le_mul_right hlo hs
  have hm2 : (q : ℝ) < m := lt_of_mul_lt_mul_right hhi hs.le
  have hmq : m = q + 1 := by
    have h1 : m ≤ q + 1 := by
      have : (m : ℝ) ≤ (q + 1 : ℕ) := by push_cast; linarith
      exact_mod_cast this
    have h2 : q < m := by exact_mod_cast hm2
    omega
  subst hmq
  have hsr : 2 * Real.pi * r / q / r = 2 * Real.pi / q := by field_simp
  rw [hsr] at hc hb
  have hphi : phi0 = start := by
    push_cast at hc
    have : ((q : ℝ) + 1 - 1) * (2 * Real.pi / q) = 2 * Real.pi := by field_simp; ring
    rw [this] at hc; linarith
  subst hphi
  refine ⟨res, hres, ?_, ?_⟩
  · have : kept (q + 1) true true = List.range (q + 1) := by simp [kept]
    rwa [this] at hb
  · have : (q : ℝ) * (2 * Real.pi / q) = 2 * Real.pi := by field_simp
    rw [this]
    simp [onCircle]

/-- **C33 (rejected).** Bad angles, or neither number nor spacing: `ValueError`. -/
theorem C33_rejects (geo : Geo) (c : ℝ × ℝ) (r : ℝ) (spec : BarSpec) (n : ℤ) (s : ℝ) (first last : Bool)
    (start stop : ℝ) (h : stop - start ≤ 0 ∨ 2 * Real.pi < stop - start ∨ (n ≤ 0 ∧ s ≤ 0)) :
    addCircle geo c r spec n s first last start stop = .error .valueError := by
  by_cases h1 : stop - start ≤ 0 ∨ stop - start > 2 * Real.pi
  · simp only [addCircle, if_pos h1]
  · have hns : n ≤ 0 ∧ s ≤ 0 := by tauto
    have hg : circleGrid r n s start stop = .error .valueError := by
      simp only [circleGrid]
      rw [if_neg (by rintro ⟨h, _⟩; omega), if_neg (by omega), if_neg (by linarith [hns.2])]
    simp only [addCircle, if_neg h1, hg]

/-- **C33, violated (single bar).** `n = 1` without spacing raises `ZeroDivisionError`, also on a
whole circle. -/
theorem C33_single_violated (geo : Geo) (c : ℝ × ℝ) (r : ℝ) (spec : BarSpec) (s : ℝ) (hs : s ≤ 0)
    (first last : Bool) (start stop : ℝ) (h1 : 0 < stop - start) (h2 : stop - start ≤ 2 * Real.pi) :
    addCircle geo c r spec 1 s first last start stop = .error .zeroDivision := by
  have hg : circleGrid r 1 s start stop = .error .zeroDivision := by
    simp only [circleGrid]
    rw [if_neg (by rintro ⟨_, h⟩; linarith), if_pos (by norm_num)]; simp
  have h : ¬ (stop - start ≤ 0 ∨ stop - start > 2 * Real.pi) := by rintro (h | h) <;> linarith
  simp only [addCircle, if_neg h, hg]

/-- **C33, violated (small radius).** The test for "whole circle" compares lengths with an absolute
tolerance of 1e-4: on a half circle of radius at most 3e-5 (30 micrometres; or 3 cm if lengths are in
kilometres) `n` bars are placed as if the circle were whole, and none at the end of the arc. -/
theorem C33_tiny_violated (geo : Geo) (c : ℝ × ℝ) (r : ℝ) (hr : 0 < r) (hr2 : r ≤ 3e-5) (spec : BarSpec) (n : ℕ)
    (hn : 2 ≤ n) : ∃ res, addCircle geo c r spec n 0 true true 0 Real.pi = .ok res ∧
      AddsBars geo res spec ((List.range n).map fun k : ℕ => onCircle c r (k * (Real.pi / n))) := by
  have hpi := Real.pi_pos
  have hpi2 := Real.pi_lt_d2
  have hn0 : (0 : ℝ) < n := by exact_mod_cast (by omega : 0 < n)
  have hg : circleGrid r n 0 0 Real.pi = .ok ((n : ℤ) + (if true then 1 else 0), 0, true) := by
    have hd : decide (|r * (Real.pi - 0) - 2 * Real.pi * r| ≤ 1e-4) = true := by
      rw [show r * (Real.pi - 0) - 2 * Real.pi * r = -(r * Real.pi) by ring, abs_neg, abs_of_pos (by positivity)]
      simp only [decide_eq_true_eq]
      nlinarith
    simp only [circleGrid, hd]
    rw [if_neg (by rintro ⟨_, h⟩; linarith), if_pos (by omega), if_neg (by omega)]
  obtain ⟨res, hres, hbars⟩ := addCircle_of_grid geo c r spec n 0 true true 0 Real.pi
    (by linarith) (by linarith) n 0 true hg (fun k => k * (Real.pi / n)) (by
      intro k hk
      simp only [if_true, add_zero, sub_zero]
      rw [linspace_getD _ _ (n + 1) k (by omega) (by omega)]
      push_cast
      rw [add_sub_cancel_right, sub_zero, zero_add])
  refine ⟨res, hres, ?_⟩
  have : kept n true true = List.range n := by simp [kept]
  rwa [this] at hbars

/-- Hypotheses of `C33_both` and `C33_arc_number`: 10 bars at 50 on radius 100, and a half circle. -/
example : (((10 : ℕ) : ℝ) * 50 ≤ 100 * (2 * Real.pi - 0)) ∧
    (1e-4 < |(100 : ℝ) * (Real.pi - 0) - 2 * Real.pi * 100|) := by
  have := Real.pi_gt_three
  constructor
  · push_cast; linarith
  · rw [show (100 : ℝ) * (Real.pi - 0) - 2 * Real.pi * 100 = -(100 * Real.pi) by ring, abs_neg,
      abs_of_pos (by positivity)]
    norm_num; linarith

end SC
