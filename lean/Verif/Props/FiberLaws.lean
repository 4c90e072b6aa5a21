import Verif.Props.FiberError

/-! # C57: slopes of the library laws, and agreement of the two integrators -/

set_option autoImplicit false

namespace SC

open Spec MeasureTheory

/-- A compression-only law whose core has slopes of at most `L` in compression has them everywhere above the ultimate strain. -/
theorem concrete_slope {f core : ℝ → ℝ} {fc u L : ℝ} (hco : CompressionOnly f fc u) (hf : ∀ e, f e = core (snap (-u, 100) e))
    (h0 : core 0 = 0) (hu : 0 < u) (hL : 0 ≤ L) (hlip : ∀ a b, -u ≤ a → a ≤ b → b ≤ 0 → |core a - core b| ≤ L * (b - a))
    {a b : ℝ} (ha : -u < a ∧ Clear a (-u)) (hb : -u < b ∧ Clear b (-u)) : |f a - f b| ≤ L * |a - b| := by
  have val : ∀ x, -u < x ∧ Clear x (-u) → f x = core (min x 0) := by
    intro x hx
    by_cases h : 0 < x
    · rw [hco.no_tension x h, min_eq_right h.le, h0]
    · have hx0 := not_lt.1 h
      rw [hf, snap_of_clear hx.2 (clear_hundred_of_nonpos hx0), min_eq_left hx0]
  have key : ∀ x y, -u < x ∧ Clear x (-u) → -u < y ∧ Clear y (-u) → x ≤ y → |f x - f y| ≤ L * |x - y| := by
    intro x y hx hy hxy
    rw [val x hx, val y hy]
    refine (hlip _ _ (le_min hx.1.le (by linarith)) (min_le_min_right 0 hxy) (min_le_right _ _)).trans ?_
    refine mul_le_mul_of_nonneg_left ?_ hL
    rw [abs_of_nonpos (by linarith : x - y ≤ 0)]
    rcases le_total x 0 with h1 | h1 <;> rcases le_total y 0 with h2 | h2 <;> simp [h1, h2] <;> linarith
  rcases le_total a b with h | h
  · exact key a b ha hb h
  · rw [abs_sub_comm, abs_sub_comm a]; exact key b a hb ha h

/-- Parabola-rectangle: slope at most `n fc / eps_0`. -/
theorem C57_parabola_slope (fc e0 u n : ℝ) (h0 : 0 < |e0|) (hu : |e0| ≤ |u|) (h2 : 2e-6 ≤ |u|) (hn : 1 ≤ n) {a b : ℝ}
    (ha : -|u| < a ∧ Clear a (-|u|)) (hb : -|u| < b ∧ Clear b (-|u|)) :
    |(ParabolaRectangle.new fc e0 u n).stress a - (ParabolaRectangle.new fc e0 u n).stress b| ≤ n * |fc| / |e0| * |a - b| :=
  concrete_slope (core := (ParabolaRectangle.new fc e0 u n).core) (C08_parabola_rectangle fc e0 u n h0 hu h2 (by linarith))
    (fun _ => rfl) (by rw [parabola_core fc e0 u n h0 hn (by linarith) le_rfl]; simp) (by linarith)
    (by positivity) (fun _ _ h1 h2 h3 => parabola_lip fc e0 u n h0 hn h1 h2 h3) ha hb

/-- Bilinear compression law: slope at most `fc / eps_c`. -/
theorem C57_bilinear_slope {fc ec u : ℝ} {l : Bilinear} (hl : Bilinear.new? fc ec (some u) = .ok l)
    (h2 : 2e-6 ≤ |u|) {a b : ℝ} (ha : -|u| < a ∧ Clear a (-|u|)) (hb : -|u| < b ∧ Clear b (-|u|)) :
    |l.stress a - l.stress b| ≤ |fc| / |ec| * |a - b| := by
  have hco := C08_bilinear hl h2
  unfold Bilinear.new? at hl
  by_cases h0 : ec = 0
  · simp [h0] at hl
  simp only [h0, if_false] at hl
  cases hl
  have hec : 0 < |ec| := abs_pos.2 h0
  have hE : 0 ≤ |fc| / |ec| := by positivity
  have hcore : ∀ e, -|u| ≤ e → e ≤ 0 → Bilinear.core ⟨-|fc|, -|ec|, -|u|⟩ e = max (|fc| / |ec| * e) (-|fc|) := by
    intro e h1 h2
    unfold Bilinear.core
    rw [if_neg (by push Not; exact ⟨h2, h1⟩)]
    simp only [Bilinear.E, neg_div_neg_eq]
  refine concrete_slope (core := Bilinear.core ⟨-|fc|, -|ec|, -|u|⟩) hco (fun _ => rfl) ?_ (by linarith) hE ?_ ha hb
  · exact (hcore 0 (by linarith) le_rfl).trans (by simp)
  · intro a b h1 h2 h3
    refine (le_of_eq (congrArg₂ (fun x y => |x - y|) (hcore a h1 (h2.trans h3)) (hcore b (h1.trans h2) h3))).trans ?_
    refine (abs_max_sub_max_le_abs _ _ _).trans (le_of_eq ?_)
    rw [← mul_sub, abs_mul, abs_of_nonneg hE, abs_of_nonpos (by linarith : a - b ≤ 0)]; ring

/-- Sargin: slope at most `fc / eps_c1 (k + 2 U + |k - 2| U^2) / m^2` with `U = u / eps_c1` and `m` a lower bound of the denominator. -/
theorem sargin_lip {k m U x y : ℝ} (hm : 0 < m) (hm1 : m ≤ 1) (hmu : m ≤ 1 + (k - 2) * U) (hk : 0 ≤ k) (hx : 0 ≤ x) (hxy : x ≤ y)
    (hy : y ≤ U) : |(k * y - y ^ 2) / (1 + (k - 2) * y) - (k * x - x ^ 2) / (1 + (k - 2) * x)| ≤
      (k + 2 * U + |k - 2| * U ^ 2) / m ^ 2 * (y - x) := by
  have hden : ∀ t, 0 ≤ t → t ≤ U → m ≤ 1 + (k - 2) * t := by
    intro t h0 h1
    rcases le_total 0 (k - 2) with h | h
    · nlinarith [mul_nonneg h h0]
    · nlinarith [mul_le_mul_of_nonpos_left h1 h]
  have hxU := hden x hx (hxy.trans hy)
  have hyU := hden y (hx.trans hxy) hy
  have px : 0 < 1 + (k - 2) * x := by linarith
  have py : 0 < 1 + (k - 2) * y := by linarith
  have e : (k * y - y ^ 2) / (1 + (k - 2) * y) - (k * x - x ^ 2) / (1 + (k - 2) * x) =
      (k - (x + y) - (k - 2) * (x * y)) * (y - x) / ((1 + (k - 2) * y) * (1 + (k - 2) * x)) := by
    rw [div_sub_div _ _ py.ne' px.ne']; congr 1; ring
  rw [e, abs_div, abs_mul, abs_of_nonneg (by linarith : 0 ≤ y - x), abs_of_pos (mul_pos py px), div_mul_eq_mul_div]
  have hnum : |k - (x + y) - (k - 2) * (x * y)| ≤ k + 2 * U + |k - 2| * U ^ 2 := by
    have hxy0 : 0 ≤ x * y := mul_nonneg hx (hx.trans hxy)
    have hxyU : x * y ≤ U ^ 2 := by nlinarith
    have h1 : |(k - 2) * (x * y)| ≤ |k - 2| * U ^ 2 := by
      rw [abs_mul, abs_of_nonneg hxy0]
      exact mul_le_mul_of_nonneg_left hxyU (abs_nonneg _)
    rw [abs_le] at h1 ⊢
    constructor <;> linarith
  have hm2 : m ^ 2 ≤ (1 + (k - 2) * y) * (1 + (k - 2) * x) := by nlinarith
  exact div_le_div₀ (mul_nonneg ((abs_nonneg _).trans hnum) (by linarith))
    (mul_le_mul_of_nonneg_right hnum (by linarith)) (by positivity) hm2

theorem C57_sargin_slope (fc e1 u k m : ℝ) (h0 : 0 < |e1|) (h2 : 2e-6 ≤ |u|) (hk : 1 < k) (hku : |u| ≤ k * |e1|)
    (hm : 0 < m) (hm1 : m ≤ 1) (hmu : m ≤ 1 + (k - 2) * (|u| / |e1|)) {a b : ℝ}
    (ha : -|u| < a ∧ Clear a (-|u|)) (hb : -|u| < b ∧ Clear b (-|u|)) :
    |(Sargin.new fc e1 u k).stress a - (Sargin.new fc e1 u k).stress b| ≤
      |fc| / |e1| * ((k + 2 * (|u| / |e1|) + |k - 2| * (|u| / |e1|) ^ 2) / m ^ 2) * |a - b| := by
  have hU : 0 ≤ |u| / |e1| := by positivity
  refine concrete_slope (core := (Sargin.new fc e1 u k).core) (C08_sargin_partial fc e1 u k h0 h2 hk hku) (fun _ => rfl)
    (by simp [Sargin.core]) (by linarith) (by positivity) ?_ ha hb
  intro a b h1 h2 h3
  rw [sargin_core fc e1 u k h1 (h2.trans h3), sargin_core fc e1 u k (h1.trans h2) h3]
  have key := sargin_lip hm hm1 hmu (by linarith : 0 ≤ k) (x := -b / |e1|) (y := -a / |e1|) (div_nonneg (by linarith) h0.le)
    (div_le_div_of_nonneg_right (by linarith) h0.le) (div_le_div_of_nonneg_right (by linarith) h0.le)
  rw [neg_sub_neg, ← mul_sub, abs_mul, abs_abs, abs_sub_comm]
  calc _ ≤ |fc| * ((k + 2 * (|u| / |e1|) + |k - 2| * (|u| / |e1|) ^ 2) / m ^ 2 * (-a / |e1| - -b / |e1|)) :=
        mul_le_mul_of_nonneg_left key (abs_nonneg fc)
    _ = _ := by ring

/-- Elastic-plastic law with hardening modulus at most `E`: slope at most `E` up to the ultimate strains. -/
theorem C57_elasticplastic_slope {l : ElasticPlastic} {u : ℝ} (h : EPOk l u) (hEh : l.Eh ≤ l.E) {a b : ℝ}
    (ha : |a| < u ∧ Clear a (-u) ∧ Clear a u) (hb : |b| < u ∧ Clear b (-u) ∧ Clear b u) :
    |l.stress a - l.stress b| ≤ l.E * |a - b| := by
  have hult : l.ult false = (-u, u) := by simp [ElasticPlastic.ult, h.su]
  have val : ∀ x, |x| < u ∧ Clear x (-u) ∧ Clear x u →
      l.stress x = l.Eh * x + (l.E - l.Eh) * max (-l.eps_sy) (min x l.eps_sy) := by
    intro x hx
    have hbx : ¬ l.beyond x := by
      simp only [ElasticPlastic.beyond, h.su]
      have := abs_lt.1 hx.1
      push Not
      exact ⟨this.2.le, this.1.le⟩
    rw [ElasticPlastic.stress, hult, snap_of_clear hx.2.1 hx.2.2, l.core_clamp h.E h.fy h.Eh hbx]
  rw [val a ha, val b hb]
  have hcl : |max (-l.eps_sy) (min a l.eps_sy) - max (-l.eps_sy) (min b l.eps_sy)| ≤ |a - b| := by
    rw [max_comm, max_comm (-l.eps_sy)]
    refine (abs_max_sub_max_le_abs _ _ _).trans ?_
    rcases le_total a l.eps_sy with h1 | h1 <;> rcases le_total b l.eps_sy with h2 | h2 <;> simp only [min_eq_left, min_eq_right, h1, h2, le_refl]
    · rw [abs_of_nonpos (by linarith), abs_of_nonpos (by linarith)]; linarith
    · rw [abs_of_nonneg (by linarith), abs_of_nonneg (by linarith)]; linarith
    · simp
  have e : l.Eh * a + (l.E - l.Eh) * max (-l.eps_sy) (min a l.eps_sy) -
      (l.Eh * b + (l.E - l.Eh) * max (-l.eps_sy) (min b l.eps_sy)) =
      l.Eh * (a - b) + (l.E - l.Eh) * (max (-l.eps_sy) (min a l.eps_sy) - max (-l.eps_sy) (min b l.eps_sy)) := by ring
  rw [e]
  have h1 := mul_le_mul_of_nonneg_left hcl (by linarith : 0 ≤ l.E - l.Eh)
  calc _ ≤ |l.Eh * (a - b)| + |(l.E - l.Eh) * (max (-l.eps_sy) (min a l.eps_sy) - max (-l.eps_sy) (min b l.eps_sy))| := abs_add_le _ _
    _ = l.Eh * |a - b| + (l.E - l.Eh) * |max (-l.eps_sy) (min a l.eps_sy) - max (-l.eps_sy) (min b l.eps_sy)| := by
      rw [abs_mul, abs_mul, abs_of_nonneg h.Eh, abs_of_nonneg (by linarith : 0 ≤ l.E - l.Eh)]
    _ ≤ _ := by linarith

/-! ## Agreement of the integrators -/

theorem sum_apply3 {α : Type} (l : List α) (f : α → Fin 3 → ℝ) (i : Fin 3) : (l.map f).sum i = (l.map fun a => f a i).sum := by
  induction l with
  | nil => simp
  | cons a l ih => simp only [List.map_cons, List.sum_cons, Pi.add_apply, ih]

/-- **C57**, agreement.  The same section given to both integrators (the Marin integrator with the exact clipping, laws and bars of
`C50`; the fibre integrator with a mesher that delivers): the forces differ by at most the mesh bound. -/
theorem C57_agree (split : Polygon → ℝ → ℝ → ShapelyResult) (secs : List (SurfSpec × MeshPart)) (bars : List Bar)
    (hid : SameIds (bars.map Bar.law)) (hd : EqualSizes (groupBars bars)) (e : Fin 3 → ℝ) (ms : ℝ)
    (hms : 0 < ms) (hms1 : ms ≤ 1) (hne : secs ≠ [] ∨ bars ≠ [])
    (hsame : ∀ s ∈ secs, s.1.region = s.2.region ∧ s.1.response = s.2.surf.law.law.stress)
    (hM : ∀ s ∈ secs, s.1.Good split .stress e) (hF : ∀ s ∈ secs, s.2.Good e ms) :
    ∃ M F d, marinIntegrate split (secs.map fun s => s.1.surf) bars e .stress none = .ok (.forces M, groupBars bars) ∧
      fiberIntegrate (secs.map fun s => s.2.surf) bars e .stress none ms = .ok (.forces F, d) ∧
      ∀ i, |F i - M i| ≤ 2 / 3 * √(e 1 ^ 2 + e 2 ^ 2) * (secs.map fun s =>
        s.2.slope * √(8 * s.2.surf.area * ms) * ∫ x in s.2.region, |lever x.1 x.2 i|).sum := by
  have h1 := C50_forces_partial split (secs.map Prod.fst) bars (groupBars bars) hd e (by
    intro s hs
    obtain ⟨p, hp, rfl⟩ := List.mem_map.1 hs
    exact hM p hp)
  obtain ⟨F, d, h2, h3⟩ := C57_forces (secs.map Prod.snd) bars hid e ms hms hms1 (by simpa using hne) (by
    intro s hs
    obtain ⟨p, hp, rfl⟩ := List.mem_map.1 hs
    exact hF p hp)
  rw [List.map_map] at h1 h2
  refine ⟨((secs.map Prod.fst).map fun s => regionResultants s.region s.response e).sum +
    resultants (fibres Law.stress (groupBars bars)) e, F, d, ?_, h2, fun i => ?_⟩
  · rw [C20_first_call]; exact h1
  · have := h3 i
    simp only [List.map_map, Function.comp_def] at this ⊢
    convert this using 3
    have hb : resultants (fibres Law.stress (groupBars bars)) e i = resultants (bars.map (Bar.fibre Law.stress)) e i := by
      unfold resultants
      exact ((C18_grouping Law.stress bars hid).map _).sum_eq
    rw [Pi.add_apply, hb, exactForces]
    congr 1
    rw [List.map_map, SC.sum_apply3]
    congr 1
    refine List.map_congr_left fun s hs => ?_
    simp only [Function.comp_def, (hsame s hs).1, (hsame s hs).2]

end SC
