import Verif.Props.SarginExample
import Verif.Props.DomainLawsDesign
import Verif.Props.MC2010_Materials

/-! # C86: Sargin's law in all three codes -/

set_option autoImplicit false

namespace SC

open Spec MeasureTheory

/-! ### Tables -/

/-- The abscissae of a table increase. -/
def Abscissae : List (ℝ × ℝ) → Prop
  | (a, _) :: (c, d) :: rest => a < c ∧ Abscissae ((c, d) :: rest)
  | _ => True

theorem table_cons {p : ℝ × ℝ} {t : List (ℝ × ℝ)} {x v : ℝ} (h : OnTable t x v) : OnTable (p :: t) x v := by
  obtain ⟨i, a, b, c, d, h1, h2, h⟩ := h
  exact ⟨i + 1, a, b, c, d, by simpa using h1, by simpa using h2, h⟩

theorem interpGo_table {x r : ℝ} : ∀ (t : List (ℝ × ℝ)) (p q : ℝ × ℝ), Abscissae (p :: q :: t) → p.1 ≤ x →
    (∀ w, (p :: q :: t).getLast? = some w → x ≤ w.1) → OnTable (p :: q :: t) x (interpGo x r (p :: q :: t))
  | t, (a, b), (c, d), h, hx, hl => by
    rw [interpGo]
    split_ifs with hc
    · exact ⟨0, a, b, c, d, rfl, rfl, hx, hc.le, by ring⟩
    · match t with
      | [] =>
        have hle : x ≤ c := hl (c, d) rfl
        have he : x = c := le_antisymm hle (not_lt.1 hc)
        refine ⟨0, a, b, c, d, rfl, rfl, hx, hle, ?_⟩
        have hca : c - a ≠ 0 := (sub_pos.2 h.1).ne'
        rw [interpGo, if_pos he, he, div_self hca]
        ring
      | (e, f) :: t =>
        exact table_cons (interpGo_table t (c, d) (e, f) h.2 (not_lt.1 hc) (fun w hw => hl w (by simpa using hw)))

theorem table_neg {t : List (ℝ × ℝ)} {x v : ℝ} (h : OnTable t x v) : OnTable (t.map fun p => (p.1, -p.2)) x (-v) := by
  obtain ⟨i, a, b, c, d, h1, h2, h3, h4, rfl⟩ := h
  refine ⟨i, a, -b, c, -d, by simp [h1], by simp [h2], h3, h4, by ring⟩

/-- The tables of the Model Code (2010) between 12 and 120 MPa. -/
theorem mc2010_tables {f : ℝ} (h1 : 12 ≤ f) (h2 : f ≤ 120) : ∃ e1 u k, MC2010.eps_c1 f = .ok (-e1) ∧ MC2010.eps_cu1 f = .ok (-u) ∧
    MC2010.k_sargin f = .ok k ∧ OnTable peakTable f (1000 * e1) ∧ OnTable limitTable f (1000 * u) ∧ OnTable plasticityTable f k := by
  have nf : ¬ (f < 12 ∨ f > 120) := by push Not; exact ⟨h1, h2⟩
  have key : ∀ (p q w : ℝ × ℝ) (t : List (ℝ × ℝ)) (l r : ℝ), Abscissae (p :: q :: t) → p.1 = 12 → (p :: q :: t).getLast? = some w →
      w.1 = 120 → OnTable (p :: q :: t) f (interp f (p :: q :: t) l r) := by
    intro p q w t l r ha hp hw h
    obtain ⟨a, b⟩ := p
    rw [interp, if_neg (by rw [show a = 12 from hp]; linarith)]
    refine interpGo_table t (a, b) q ha (by rw [hp]; exact h1) fun v hv => ?_
    rw [hw, Option.some.injEq] at hv
    rw [← hv, h]; exact h2
  have k1 := key (12, -1.9) (16, -2.0) (120, -3.0) _ (-1.9) (-3.0) (by
    show Abscissae MC2010.epsC1Table
    simp only [MC2010.epsC1Table, Abscissae]; norm_num) rfl rfl rfl
  have k2 := key (12, -3.5) (16, -3.5) (120, -3.0) _ (-3.5) (-3.0) (by
    show Abscissae MC2010.epsClimTable
    simp only [MC2010.epsClimTable, Abscissae]; norm_num) rfl rfl rfl
  have k3 := key (12, 2.44) (16, 2.36) (120, 1.18) _ 2.44 1.18 (by
    show Abscissae MC2010.kSarginTable
    simp only [MC2010.kSarginTable, Abscissae]; norm_num) rfl rfl rfl
  refine ⟨-(interp f MC2010.epsC1Table (-1.9) (-3.0)) / 1000, -(interp f MC2010.epsClimTable (-3.5) (-3.0)) / 1000,
    interp f MC2010.kSarginTable 2.44 1.18, ?_, ?_, ?_, ?_, ?_, k3⟩
  · simp only [MC2010.eps_c1, MC2010.tableLookup, if_neg nf, Except.map, Except.ok.injEq]
    rw [neg_div, neg_neg]
    rfl
  · simp only [MC2010.eps_cu1, MC2010.eps_clim, MC2010.tableLookup, if_neg nf, Except.map, Except.ok.injEq]
    rw [neg_div, neg_neg]
    rfl
  · simp only [MC2010.k_sargin, MC2010.tableLookup, if_neg nf]
    rfl
  · have := table_neg k1
    rw [mul_div_cancel₀ _ (by norm_num)]
    simpa [peakTable, MC2010.epsC1Table] using this
  · have := table_neg k2
    rw [mul_div_cancel₀ _ (by norm_num)]
    simpa [limitTable, MC2010.epsClimTable] using this

theorem abscissae_head : ∀ (t : List (ℝ × ℝ)) (p : ℝ × ℝ) (i : ℕ) (w : ℝ × ℝ), Abscissae (p :: t) → (p :: t)[i]? = some w → p.1 ≤ w.1
  | _, _, 0, _, _, h => by simp only [List.getElem?_cons_zero, Option.some.injEq] at h; rw [h]
  | [], _, i + 1, _, _, h => by simp at h
  | q :: t, (a, b), i + 1, w, ha, h => by
    rw [List.getElem?_cons_succ] at h
    exact ha.1.le.trans (abscissae_head t q i w ha.2 h)

theorem table_go {x r v : ℝ} : ∀ (t : List (ℝ × ℝ)), Abscissae t → OnTable t x v → interpGo x r t = v
  | [], _, ⟨i, _, _, _, _, h, _⟩ => by simp at h
  | [p], _, ⟨i, _, _, _, _, _, h, _⟩ => by simp at h
  | (a, b) :: (c, d) :: t, ha, ⟨0, a', b', c', d', h1, h2, h3, h4, h5⟩ => by
    simp only [List.getElem?_cons_zero, List.getElem?_cons_succ, zero_add, Option.some.injEq, Prod.mk.injEq] at h1 h2
    obtain ⟨rfl, rfl⟩ := h1
    obtain ⟨rfl, rfl⟩ := h2
    rw [interpGo]
    split_ifs with hc
    · rw [h5]; ring
    · have he : x = c := le_antisymm h4 (not_lt.1 hc)
      have hca : c - a ≠ 0 := (sub_pos.2 ha.1).ne'
      rw [h5, he, div_self hca, mul_one, add_sub_cancel]
      match t with
      | [] => rw [interpGo, if_pos rfl]
      | (e, f) :: t => rw [interpGo, if_pos ha.2.1]; ring
  | (a, b) :: (c, d) :: t, ha, ⟨i + 1, a', b', c', d', h1, h2, h3⟩ => by
    rw [List.getElem?_cons_succ] at h1
    have hle := abscissae_head t (c, d) i _ ha.2 h1
    rw [interpGo, if_neg (not_lt.2 (hle.trans h3.1))]
    exact table_go ((c, d) :: t) ha.2 ⟨i, a', b', c', d', h1, by simpa using h2, h3⟩

/-- The ordinate is unique. -/
theorem table_unique {t : List (ℝ × ℝ)} {x v w : ℝ} (ha : Abscissae t) (hv : OnTable t x v) (hw : OnTable t x w) : v = w :=
  (table_go (r := 0) t ha hv).symm.trans (table_go t ha hw)

/-! ### Values -/

namespace Spec

/-- The values of Sargin's diagram by the code the concrete is constructed to: mean strength `fc`, strain `e1` at it, ultimate strain `u`,
plasticity number `k`. -/
def SarginValues (cls : ConcClass) (a : ConcArgs) (fc e1 u k : ℝ) : Prop :=
  fc = |a.fck| + 8 ∧ match cls with
  | .ec2_2004 => e1 = peakStrain fc ∧ u = fractureStrain |a.fck| ∧ k = plasticity fc
  | .mc2010 => OnTable peakTable |a.fck| (1000 * e1) ∧ OnTable limitTable |a.fck| (1000 * u) ∧ OnTable plasticityTable |a.fck| k
  | .ec2_2023 => e1 = peakStrain2023 fc ∧ u = fractureStrain2023 fc ∧ k = plasticity2023 a.kE fc

/-- The strengths and the aggregate factor for which the properties of Sargin's diagram are proved. -/
def SarginRange (cls : ConcClass) (a : ConcArgs) : Prop :=
  12 ≤ |a.fck| ∧ match cls with
  | .ec2_2004 => |a.fck| ≤ 90
  | .mc2010 => |a.fck| ≤ 120
  | .ec2_2023 => |a.fck| ≤ 100 ∧ a.kE = 9500

end Spec

theorem sargin_mc2010 {f e1 u k : ℝ} (h1 : 12 ≤ f) (h2 : f ≤ 120) (he : OnTable peakTable f (1000 * e1))
    (hu : OnTable limitTable f (1000 * u)) (hk : OnTable plasticityTable f k) :
    MC2010.eps_c1 f = .ok (-e1) ∧ MC2010.eps_cu1 f = .ok (-u) ∧ MC2010.k_sargin f = .ok k := by
  obtain ⟨e1', u', k', g1, g2, g3, g4, g5, g6⟩ := mc2010_tables h1 h2
  have a1 := table_unique (by simp only [peakTable, Abscissae]; norm_num) he g4
  have a2 := table_unique (by simp only [limitTable, Abscissae]; norm_num) hu g5
  have a3 := table_unique (by simp only [plasticityTable, Abscissae]; norm_num) hk g6
  rw [show e1 = e1' by linarith, show u = u' by linarith, a3]
  exact ⟨g1, g2, g3⟩

theorem sargin_den_low {k x k0 x0 : ℝ} (hk : k0 ≤ k) (hx : 0 ≤ x) (hx0 : x ≤ x0) (hk0 : k0 ≤ 2) (h : (2 - k0) * x0 ≤ 0.9375) :
    0.0625 ≤ 1 + (k - 2) * x := by
  have a1 : (2 - k) * x ≤ (2 - k0) * x := mul_le_mul_of_nonneg_right (by linarith) hx
  have a2 : (2 - k0) * x ≤ (2 - k0) * x0 := mul_le_mul_of_nonneg_left hx0 (by linarith)
  norm_num at *
  linarith

/-- The values of the Model Code (2010). -/
theorem mc2010_ranges {f e1 u k : ℝ} (h1 : 12 ≤ f) (h2 : f ≤ 120) (he : MC2010.eps_c1 f = .ok (-e1))
    (hu : MC2010.eps_cu1 f = .ok (-u)) (hk : MC2010.k_sargin f = .ok k) :
    0.0019 ≤ e1 ∧ e1 ≤ 0.003 ∧ 0.003 ≤ u ∧ u ≤ 0.0035 ∧ 1.18 ≤ k ∧ k ≤ 2.44 ∧ u + 1e-4 ≤ k * e1 ∧ 0.0625 ≤ 1 + (k - 2) * (u / e1) ∧
      (f ≤ 80 → e1 + 2e-6 ≤ u) := by
  have seg : ∀ a b ea eb ua ub ka kb : ℝ, 12 ≤ a → b ≤ 120 → a ≤ f → f ≤ b → MC2010.eps_c1 a = .ok (-ea) → MC2010.eps_c1 b = .ok (-eb) →
      MC2010.eps_clim a = .ok (-ua) → MC2010.eps_clim b = .ok (-ub) → MC2010.k_sargin a = .ok ka → MC2010.k_sargin b = .ok kb →
      ea ≤ e1 ∧ e1 ≤ eb ∧ ub ≤ u ∧ u ≤ ua ∧ kb ≤ k ∧ k ≤ ka := by
    intro a b ea eb ua ub ka kb ha hb haf hfb m1 m2 m3 m4 m5 m6
    obtain ⟨⟨x1, x2, p1, p2, p3⟩, ⟨x3, x4, p4, p5, p6⟩, ⟨x5, x6, p7, p8, p9⟩⟩ := MC2010.C45_table_monotone a f ha haf h2
    obtain ⟨⟨y1, y2, q1, q2, q3⟩, ⟨y3, y4, q4, q5, q6⟩, ⟨y5, y6, q7, q8, q9⟩⟩ := MC2010.C45_table_monotone f b h1 hfb hb
    have hu' : MC2010.eps_clim f = .ok (-u) := hu
    rw [m1] at p1; rw [he] at p2 q1; rw [m2] at q2
    rw [m3] at p4; rw [hu'] at p5 q4; rw [m4] at q5
    rw [m5] at p7; rw [hk] at p8 q7; rw [m6] at q8
    simp only [Except.ok.injEq] at *
    refine ⟨by linarith, by linarith, by linarith, by linarith, by linarith, by linarith⟩
  have node : (MC2010.eps_c1 12 = .ok (-0.0019) ∧ MC2010.eps_clim 12 = .ok (-0.0035) ∧ MC2010.k_sargin 12 = .ok 2.44) ∧
      (MC2010.eps_c1 30 = .ok (-0.0023) ∧ MC2010.eps_clim 30 = .ok (-0.0035) ∧ MC2010.k_sargin 30 = .ok 2.04) ∧
      (MC2010.eps_c1 50 = .ok (-0.0026) ∧ MC2010.eps_clim 50 = .ok (-0.0034) ∧ MC2010.k_sargin 50 = .ok 1.66) ∧
      (MC2010.eps_c1 80 = .ok (-0.0028) ∧ MC2010.eps_clim 80 = .ok (-0.0031) ∧ MC2010.k_sargin 80 = .ok 1.41) ∧
      (MC2010.eps_c1 90 = .ok (-0.0029) ∧ MC2010.eps_clim 90 = .ok (-0.003) ∧ MC2010.k_sargin 90 = .ok 1.36) ∧
      (MC2010.eps_c1 120 = .ok (-0.003) ∧ MC2010.eps_clim 120 = .ok (-0.003) ∧ MC2010.k_sargin 120 = .ok 1.18) := by
    norm_num [MC2010.eps_c1, MC2010.eps_clim, MC2010.k_sargin, MC2010.tableLookup, MC2010.epsC1Table, MC2010.epsClimTable,
      MC2010.kSarginTable, interp, interpGo, Except.map]
  obtain ⟨⟨a1, a2, a3⟩, ⟨b1, b2, b3⟩, ⟨c1, c2, c3⟩, ⟨d1, d2, d3⟩, ⟨e1', e2, e3⟩, ⟨f1, f2, f3⟩⟩ := node
  obtain ⟨r1, r2, r3, r4, r5, r6⟩ := seg _ _ _ _ _ _ _ _ le_rfl le_rfl h1 h2 a1 f1 a2 f2 a3 f3
  have he0 : 0 < e1 := by norm_num at *; linarith
  have hu0 : 0 < u := by norm_num at *; linarith
  refine ⟨r1, r2, r3, r4, r5, r6, ?_⟩
  have hk0 : 0 ≤ k := by norm_num at *; linarith
  have fin : ∀ ka ea ua x0 : ℝ, ka ≤ k → ea ≤ e1 → u ≤ ua → 0 ≤ ea → ua + 1e-4 ≤ ka * ea → ua ≤ x0 * ea → 0 ≤ x0 → ka ≤ 2 → (2 - ka) * x0 ≤ 0.9375 →
      u + 1e-4 ≤ k * e1 ∧ 0.0625 ≤ 1 + (k - 2) * (u / e1) := by
    intro ka ea ua x0 g1 g2 g3 g4 g5 g6 g7 g8 g9
    have := mul_le_mul g1 g2 g4 hk0
    refine ⟨by linarith, sargin_den_low g1 (div_pos hu0 he0).le ?_ g8 g9⟩
    rw [div_le_iff₀ he0]
    linarith [mul_le_mul_of_nonneg_left g2 g7]
  have hgap : f ≤ 80 → e1 + 2e-6 ≤ u := by
    intro hf
    obtain ⟨-, s2, s3, -⟩ := seg _ _ _ _ _ _ _ _ le_rfl (by norm_num) h1 hf a1 d1 a2 d2 a3 d3
    norm_num at *; linarith
  rcases le_total f 30 with h | h
  · obtain ⟨s1, s2, s3, s4, s5, s6⟩ := seg _ _ _ _ _ _ _ _ le_rfl (by norm_num) h1 h a1 b1 a2 b2 a3 b3
    obtain ⟨t1, t2⟩ := fin 2 _ _ 2 (by norm_num at *; linarith) s1 s4 (by norm_num) (by norm_num) (by norm_num) (by norm_num) (by norm_num) (by norm_num)
    exact ⟨t1, t2, hgap⟩
  rcases le_total f 50 with h' | h'
  · obtain ⟨s1, s2, s3, s4, s5, s6⟩ := seg _ _ _ _ _ _ _ _ (by norm_num) (by norm_num) h h' b1 c1 b2 c2 b3 c3
    obtain ⟨t1, t2⟩ := fin _ _ _ 1.6 s5 s1 s4 (by norm_num) (by norm_num) (by norm_num) (by norm_num) (by norm_num) (by norm_num)
    exact ⟨t1, t2, hgap⟩
  rcases le_total f 90 with h'' | h''
  · obtain ⟨s1, s2, s3, s4, s5, s6⟩ := seg _ _ _ _ _ _ _ _ (by norm_num) (by norm_num) h' h'' c1 e1' c2 e2 c3 e3
    obtain ⟨t1, t2⟩ := fin _ _ _ 1.31 s5 s1 s4 (by norm_num) (by norm_num) (by norm_num) (by norm_num) (by norm_num) (by norm_num)
    exact ⟨t1, t2, hgap⟩
  · obtain ⟨s1, s2, s3, s4, s5, s6⟩ := seg _ _ _ _ _ _ _ _ (by norm_num) le_rfl h'' h2 e1' f1 e2 f2 e3 f3
    obtain ⟨t1, t2⟩ := fin _ _ _ 1.04 s5 s1 s4 (by norm_num) (by norm_num) (by norm_num) (by norm_num) (by norm_num) (by norm_num)
    exact ⟨t1, t2, hgap⟩

/-- The values of Eurocode 2 (2023) for quartzite aggregate. -/
theorem ec2023_ranges {F : ℝ} (h1 : 20 ≤ F) (h2 : F ≤ 108) {e1 u k : ℝ} (he1 : e1 = peakStrain2023 F) (hu : u = fractureStrain2023 F)
    (hk : k = plasticity2023 9500 F) :
    0.0018 ≤ e1 ∧ e1 ≤ 0.0028 ∧ 0.0028 ≤ u ∧ u ≤ 0.0035 ∧ 1.2 ≤ k ∧ k ≤ 2.6 ∧ u + 1e-4 ≤ k * e1 ∧ 0.0625 ≤ 1 + (k - 2) * (u / e1) ∧
      (F ≤ 88 → e1 + 2e-6 ≤ u) := by
  have hF0 : 0 < F := by linarith
  have hu1 : 0.0028 ≤ u := by
    rw [hu, fractureStrain2023, le_div_iff₀ (by norm_num)]
    refine le_min ?_ (by norm_num)
    have : 0 ≤ (1 - F / 108) ^ 4 := by positivity
    norm_num; linarith
  have hu2 : u ≤ 0.0035 := by
    rw [hu, fractureStrain2023, div_le_iff₀ (by norm_num)]
    exact (min_le_right _ _).trans (by norm_num)
  have hu3 : 64 ≤ F → u ≤ 0.0032 := by
    intro h
    rw [hu, fractureStrain2023, div_le_iff₀ (by norm_num)]
    refine (min_le_left _ _).trans ?_
    have : (1 - F / 108) ^ 4 ≤ (44 / 108) ^ 4 := pow_le_pow_left₀ (by linarith) (by linarith) 4
    norm_num at *; linarith
  have hu4 : F ≤ 88 → 0.002802 ≤ u := by
    intro h
    rw [hu, fractureStrain2023, le_div_iff₀ (by norm_num)]
    refine le_min ?_ (by norm_num)
    have : (20 / 108) ^ 4 ≤ (1 - F / 108) ^ 4 := pow_le_pow_left₀ (by norm_num) (by linarith) 4
    norm_num at *; linarith
  obtain ⟨c, hc⟩ : ∃ c, c = F ^ ((1:ℝ) / 3) := ⟨_, rfl⟩
  have hc3 : c ^ 3 = F := by
    rw [hc, ← Real.rpow_natCast, ← Real.rpow_mul hF0.le]; norm_num
  have hc0 : 0 ≤ c := by rw [hc]; positivity
  have hcl : 2.7 ≤ c := by
    by_contra h
    have := pow_le_pow_left₀ hc0 (not_le.1 h).le 3
    rw [hc3] at this
    norm_num at this; linarith
  have hcu : c ≤ 4.77 := by
    by_contra h
    have := pow_le_pow_left₀ (by norm_num) (not_le.1 h).le 3
    rw [hc3] at this
    norm_num at this; linarith
  have hcp : 0 < c := by norm_num at *; linarith
  have hee : e1 = min (0.7 * c) 2.8 / 1000 := by rw [he1, peakStrain2023, hc]
  have hkk : k = 1.05 * (9500 * c) * e1 / c ^ 3 := by rw [hk, plasticity2023, ← he1, ← hc, hc3]
  have hu0 : 0 < u := by norm_num at *; linarith
  have hgap : e1 ≤ 0.0028 → F ≤ 88 → e1 + 2e-6 ≤ u := by
    intro h h'
    have := hu4 h'
    norm_num at *; linarith
  rcases le_total c 4 with h | h
  · have he : e1 = 0.0007 * c := by
      rw [hee, min_eq_left (by norm_num; linarith)]; ring
    have hke : k * c = 6.9825 := by
      rw [hkk, he]; field_simp; norm_num
    have he0 : 0 < e1 := by rw [he]; positivity
    have k1 : 1.74 ≤ k := by
      by_contra hh
      have := mul_le_mul_of_nonneg_right (not_le.1 hh).le hc0
      norm_num at *; linarith
    have k2 : k ≤ 2.6 := by
      by_contra hh
      have := mul_le_mul_of_nonneg_right (not_le.1 hh).le hc0
      norm_num at *; linarith
    have p1 : 0.0018 ≤ e1 := by rw [he]; norm_num at *; linarith
    have p2 : e1 ≤ 0.0028 := by rw [he]; norm_num at *; linarith
    refine ⟨p1, p2, hu1, hu2, by norm_num at *; linarith, k2, ?_, ?_, hgap p2⟩
    · have : k * e1 = 0.0007 * 6.9825 := by rw [he, ← hke]; ring
      rw [this]; norm_num at *; linarith
    · refine sargin_den_low k1 (div_pos hu0 he0).le (x0 := 2) ?_ (by norm_num) (by norm_num)
      rw [div_le_iff₀ he0]; norm_num at *; linarith
  · have he : e1 = 0.0028 := by
      rw [hee, min_eq_right (by norm_num; linarith)]; norm_num
    have hke : k * c ^ 2 = 27.93 := by
      rw [hkk, he]; field_simp; norm_num
    have c1 : 16 ≤ c ^ 2 := by nlinarith
    have c2 : c ^ 2 ≤ 22.76 := by nlinarith
    have hF : 64 ≤ F := by
      rw [← hc3]
      have := pow_le_pow_left₀ (by norm_num) h 3
      norm_num at this; linarith
    have hu' := hu3 hF
    have he0 : 0 < e1 := by rw [he]; norm_num
    have k1 : 1.227 ≤ k := by
      by_contra hh
      have := mul_le_mul_of_nonneg_right (not_le.1 hh).le (sq_nonneg c)
      norm_num at *; linarith
    have k2 : k ≤ 2.6 := by
      by_contra hh
      have := mul_le_mul_of_nonneg_right (not_le.1 hh).le (sq_nonneg c)
      norm_num at *; linarith
    refine ⟨by rw [he]; norm_num, he.le, hu1, hu2, by norm_num at *; linarith, k2, ?_, ?_, hgap he.le⟩
    · rw [he]; norm_num at *; linarith
    · refine sargin_den_low k1 (div_pos hu0 he0).le (x0 := 1.15) ?_ (by norm_num) (by norm_num)
      rw [he, div_le_iff₀ (by norm_num)]; norm_num at *; linarith

/-- What is needed of the values, in every code. -/
theorem sargin_codes {cls : ConcClass} {a : ConcArgs} {fc e1 u k : ℝ} (h : SarginValues cls a fc e1 u k) (hr : SarginRange cls a) :
    (20 ≤ fc ∧ fc ≤ 128) ∧ (0.0007 ≤ e1 ∧ e1 ≤ 0.003) ∧ (0.0028 ≤ u ∧ u ≤ 0.0035) ∧ (1.18 ≤ k ∧ k ≤ 65) ∧ u + 1e-4 ≤ k * e1 ∧
      0.0625 ≤ 1 + (k - 2) * (u / e1) ∧ (|a.fck| ≤ 80 → e1 + 2e-6 ≤ u) := by
  obtain ⟨hfc, h⟩ := h
  obtain ⟨h12, hr⟩ := hr
  cases cls with
  | ec2_2004 =>
    obtain ⟨rfl, rfl, rfl⟩ := h
    obtain ⟨r1, r2, r3, r4, r5, r6, r7⟩ := sargin_ranges h12 hr
    obtain ⟨-, -, -, -, -, q5, -, q7, -⟩ := sargin_default h12 hr hfc rfl rfl rfl rfl
    rw [← hfc] at r1 r2 r5 r6 r7
    refine ⟨⟨by linarith, by linarith⟩, ⟨r1, by norm_num at *; linarith⟩, ⟨r3, r4⟩, ⟨by norm_num at *; linarith, r6⟩,
      by norm_num at *; linarith, q5.trans q7, fun h80 => ?_⟩
    rw [hfc]
    exact sargin_gap h12 h80
  | mc2010 =>
    obtain ⟨t1, t2, t3⟩ := h
    obtain ⟨m1, m2, m3⟩ := sargin_mc2010 h12 hr t1 t2 t3
    obtain ⟨r1, r2, r3, r4, r5, r6, r7, r8, r9⟩ := mc2010_ranges h12 hr m1 m2 m3
    have hr' : |a.fck| ≤ 120 := hr
    exact ⟨⟨by linarith, by linarith⟩, ⟨by norm_num at *; linarith, r2⟩, ⟨by norm_num at *; linarith, r4⟩, ⟨r5, by norm_num at *; linarith⟩, r7, r8, r9⟩
  | ec2_2023 =>
    obtain ⟨t1, t2, t3⟩ := h
    obtain ⟨h100, hkE⟩ := hr
    rw [hkE] at t3
    obtain ⟨r1, r2, r3, r4, r5, r6, r7, r8, r9⟩ := ec2023_ranges (F := fc) (by linarith) (by linarith) t1 t2 t3
    exact ⟨⟨by linarith, by linarith⟩, ⟨by norm_num at *; linarith, by norm_num at *; linarith⟩, ⟨r3, r4⟩, ⟨by norm_num at *; linarith, by norm_num at *; linarith⟩, r7, r8,
      fun h => r9 (by linarith)⟩

/-- What the strength theorem needs. -/
theorem sargin_fit {F e1 u k m : ℝ} (hF : 20 ≤ F ∧ F ≤ 128) (he : 0.0007 ≤ e1 ∧ e1 ≤ 0.003) (hu : 0.0028 ≤ u ∧ u ≤ 0.0035)
    (hk : 1.18 ≤ k ∧ k ≤ 65) (hke : u + 1e-4 ≤ k * e1) (hden : 0.0625 ≤ 1 + (k - 2) * (u / e1)) (hm : m = min 1 (1 + (k - 2) * (u / e1))) :
    0 < F ∧ 0 < e1 ∧ 1e-3 ≤ u ∧ 1 < k ∧ u ≤ k * e1 ∧ 0.0625 ≤ m ∧ m ≤ 1 ∧ m ≤ 1 + (k - 2) * (u / e1) ∧
      sarginDiagram F e1 k (-u) ≤ -(F * 1e-6) ∧ sarginSlope F e1 u k m ≤ 1e11 := by
  obtain ⟨f1, f2⟩ := hF
  obtain ⟨r1, r2⟩ := he
  obtain ⟨r3, r4⟩ := hu
  obtain ⟨r5, r6⟩ := hk
  have hF0 : 0 < F := by linarith
  have q1 : 0 < e1 := by norm_num at *; linarith
  have q2 : 0 < u := by norm_num at *; linarith
  have x0 : 0 < u / e1 := div_pos q2 q1
  have x1 : u / e1 ≤ 5 := by rw [div_le_iff₀ q1]; norm_num at *; linarith
  have x2 : u / e1 ≤ k - 1e-4 / e1 := by
    rw [div_le_iff₀ q1, sub_mul, div_mul_cancel₀ _ q1.ne']
    norm_num at *; linarith
  have x3 : 0.03 ≤ 1e-4 / e1 := by rw [le_div_iff₀ q1]; norm_num at *; linarith
  have hxk : u / e1 ≤ k - 0.03 := by linarith
  have hx1 : 0.9 ≤ u / e1 := by rw [le_div_iff₀ q1]; norm_num at *; linarith
  have hm0 : 0.0625 ≤ m := by rw [hm]; exact le_min (by norm_num) hden
  have hm1 : m ≤ 1 := by rw [hm]; exact min_le_left _ _
  refine ⟨hF0, q1, by norm_num at *; linarith, by norm_num at *; linarith, by norm_num at *; linarith, hm0, hm1,
    by rw [hm]; exact min_le_right _ _, ?_, ?_⟩
  · rw [sarginDiagram, neg_neg, max_eq_left q2.le]
    generalize u / e1 = x at *
    have hd0 : 0 < 1 + (k - 2) * x := by norm_num at *; linarith
    have key : 1e-6 ≤ (k * x - x ^ 2) / (1 + (k - 2) * x) := by
      rw [le_div_iff₀ hd0]
      have e1 : x * 0.03 ≤ x * (k - x) := mul_le_mul_of_nonneg_left (by linarith) x0.le
      have e2 : (k - 2) * x ≤ 65 * 5 := mul_le_mul (by linarith) x1 x0.le (by norm_num)
      norm_num at *; nlinarith
    have := mul_le_mul_of_nonneg_left key hF0.le
    linarith
  · rw [sarginSlope, abs_of_pos hF0, abs_of_pos q1, abs_of_pos q2]
    generalize u / e1 = x at *
    have a1 : F / e1 ≤ 183000 := by rw [div_le_iff₀ q1]; norm_num at *; linarith
    have a2 : |k - 2| ≤ 63 := abs_le.2 ⟨by norm_num at *; linarith, by linarith⟩
    have a3 : x ^ 2 ≤ 25 := by nlinarith
    have a4 : |k - 2| * x ^ 2 ≤ 63 * 25 := mul_le_mul a2 a3 (sq_nonneg _) (by norm_num)
    have a5 : (k + 2 * x + |k - 2| * x ^ 2) / m ^ 2 ≤ 1650 / 0.0625 ^ 2 :=
      div_le_div₀ (by norm_num) (by linarith) (by norm_num) (pow_le_pow_left₀ (by norm_num) hm0 2)
    have a6 : 0 ≤ (k + 2 * x + |k - 2| * x ^ 2) / m ^ 2 := by
      have : 0 ≤ k := by norm_num at *; linarith
      positivity
    refine (mul_le_mul a1 a5 a6 (by norm_num)).trans ?_
    norm_num

/-! ### Concrete -/

variable {lower : String → String}

/-- **C86** (concrete, all codes). A concrete with default values and the law `sargin`, to any of the three codes, has Sargin's diagram of its
code. -/
theorem C86_concrete_codes (hl : PyLower lower) (cls : ConcClass) (a : ConcArgs) (b : Built Conc)
    (h : newConcrete lower cls a = some (.ok b)) (hn : a.law = .name "sargin")
    (hi1 : a.initialStrain = none) (hi2 : a.initialStress = none)
    (hd : a.fcm = none ∧ a.E = none ∧ a.eps_c1 = none ∧ a.eps_cu1 = none ∧ a.k = none) (hr : SarginRange cls a)
    {fc e1 u k : ℝ} (hv : SarginValues cls a fc e1 u k) : b.mat.law = (Sargin.new fc e1 u k).law := by
  obtain ⟨⟨f1, f2⟩, ⟨e1', -⟩, -⟩ := sargin_codes hv hr
  obtain ⟨d1, d2, d3, d4, d5⟩ := hd
  have hmat : ∀ law, Material.create a.density a.initialStrain a.initialStress a.compat law = some (.ok b.mat) → b.mat.law = law := by
    intro law hm
    rw [hi1, hi2, C15_none] at hm
    simp only [Option.some.injEq, Except.ok.injEq] at hm
    rw [← hm]
  obtain ⟨hfc, hv⟩ := hv
  cases cls with
  | ec2_2004 =>
    obtain ⟨rfl, rfl, rfl⟩ := hv
    rw [C86_concrete hl a b h hn hi1 hi2 ⟨d1, d2, d3, d4, d5⟩, ← hfc]
  | mc2010 =>
    obtain ⟨t1, t2, t3⟩ := hv
    obtain ⟨m1, m2, m3⟩ := sargin_mc2010 hr.1 hr.2 t1 t2 t3
    obtain ⟨law, hm, hx⟩ := C47_law_mc2010 hl a b _ h hn
    simp only [String.reduceEq, false_and, true_and, false_or, or_false] at hx
    obtain ⟨fc', e, u', k', x1, x2, x3, x4, hlaw⟩ := hx
    obtain ⟨-, -, v1, -, -, -, -, -, -, ⟨-, v2⟩, ⟨-, v3⟩, ⟨-, v4⟩, -⟩ := C47_values_mc2010 a b h _ _ rfl rfl
    rw [v1] at x1
    rw [v2 d3, m1] at x2
    rw [v3 d4, m2] at x3
    rw [v4 d5, m3] at x4
    simp only [Except.ok.injEq, d1, given] at x1 x2 x3 x4
    rw [hmat law hm, hlaw, ← x1, ← x2, ← x3, ← x4, ← hfc]
    simp only [Sargin.new, abs_neg]
  | ec2_2023 =>
    obtain ⟨t1, t2, t3⟩ := hv
    obtain ⟨h12, h100, hkE⟩ := hr
    obtain ⟨law, hm, hx⟩ := C47_law_ec2_2023 hl a b _ h hn
    simp only [String.reduceEq, false_and, true_and, false_or, or_false] at hx
    obtain ⟨fc', e, u', k', x1, x2, x3, x4, hlaw⟩ := hx
    obtain ⟨-, -, v1, -, -, -, -, vE, -, v2, -, v3, -, v4, -⟩ := C47_values_ec2_2023 a b h _ _ rfl rfl
    have hF : given a.fcm (|a.fck| + 8) = fc := by rw [d1, hfc]; rfl
    rw [hF] at v1 v2 v3 v4 vE
    have w2 := v2 d3 f1
    have wE := vE d2 (by rw [hkE]; norm_num) (by rw [hkE]; norm_num)
    have hE0 : 0 < a.kE * fc ^ ((1:ℝ) / 3) := by
      rw [hkE]; exact mul_pos (by norm_num) (Real.rpow_pos_of_pos (by linarith) _)
    have he0 : 0 < min (0.7 * fc ^ ((1:ℝ) / 3)) 2.8 / 1000 :=
      div_pos (lt_min (mul_pos (by norm_num) (Real.rpow_pos_of_pos (by linarith) _)) (by norm_num)) (by norm_num)
    rw [v1] at x1
    rw [w2] at x2
    rw [v3 d4 f1] at x3
    rw [v4 d5 f1 _ _ wE w2 hE0 he0] at x4
    simp only [Except.ok.injEq] at x1 x2 x3 x4
    rw [hmat law hm, hlaw, ← x1, ← x2, ← x3, ← x4, t1, t2, t3]
    rfl

/-- **C86** (design, all codes). The same from the arguments of the material constructors, for concrete to any of the three codes with the
default values of Sargin's law: C12 to C90 (Eurocode 2, 2004), C12 to C120 (Model Code 2010), C12 to C100 (Eurocode 2, 2023, quartzite).
Partial: see `C86_sargin_partial`. -/
theorem C86_codes_design_partial (hl : PyLower lower) (ccls : ConcClass) (ca : ConcArgs) (c : Built Conc)
    (hc : newConcrete lower ccls ca = some (.ok c)) (hcn : ca.law = .name "sargin")
    (hci : ca.initialStrain = none ∧ ca.initialStress = none)
    (hce : ca.fcm = none ∧ ca.E = none ∧ ca.eps_c1 = none ∧ ca.eps_cu1 = none ∧ ca.k = none)
    (hcf : SarginRange ccls ca)
    (scls : SteelClass) (sa : SteelArgs) (s : Built Steel)
    (hs : newSteel lower scls sa = some (.ok s)) (hsn : sa.law = .name "elasticperfectlyplastic")
    (hsi : sa.initialStrain = none ∧ sa.initialStress = none)
    (hgap : designYield sa + 1e-6 + 1e-5 * designUltimate scls sa ≤ designUltimate scls sa)
    {eu : ℝ} (heud : eu = designUltimate scls sa) (heu : 0.0035 ≤ eu ∧ eu ≤ 0.09)
    (split : Polygon → ℝ → ℝ → ShapelyResult) (ms : ℝ) (lu : Matrix (Fin 3) (Fin 3) ℝ → (Fin 3 → ℝ) → (Fin 3 → ℝ))
    (shapes : List (Polygon × Set (ℝ × ℝ))) (bars : List Bar) (id : ℕ) (hbars : ∀ b ∈ bars, b.law = ⟨id, s.mat.law⟩)
    (henc : ∀ p ∈ shapes, Encloses p.1.ext p.1.ints p.2) (hull : ∀ p ∈ shapes, p.2 ⊆ convexHull ℝ {v | v ∈ p.1.ext})
    {th H H0 R L δ A fc e1 u k m : ℝ} (hsplit : ∀ p ∈ shapes,
      SplitsExactly split ((p.1.rotate (-th)).rotate (-Real.pi)) (rotPt (-Real.pi) '' (rotPt (-th) '' p.2)))
    (hg0 : RCGeometry 0 shapes (bars.map fun b => (b.x, b.y)) H0) (hg : RCGeometry th shapes (bars.map fun b => (b.x, b.y)) H)
    (hR : ∀ p ∈ shapes, ∀ v ∈ p.1.ext, |height th v| ≤ R)
    (hval : SarginValues ccls ca fc e1 u k)
    (hm : m = min 1 (1 + (k - 2) * (u / e1))) (hL : L = max (sarginSlope fc e1 u k m) |sa.Es|)
    (hδ : δ = L * (grossArea shapes + (bars.map fun b => |b.area|).sum) * H) (hsmall : δ ≤ 1e22)
    (hAr : A = fc * ((k - 1) ^ 2 * (u / e1) ^ 2 / (400 * m ^ 3)) * grossArea shapes)
    {T : CrossSection} (hT : T = plateSection shapes bars (sarginDiagram fc e1 k) u) {parts : List PolyPart}
    (hparts : parts = softParts (Sargin.new fc e1 u k).stress (Sargin.new fc e1 u k).ult u shapes)
    {E : Engine} (hE : E = sectionEngine split (parts.map PolyPart.solid) bars ms) :
    c.mat.law = (Sargin.new fc e1 u k).law ∧
    (∀ p ∈ parts, ∀ a b, (Sargin.new fc e1 u k).marinMethod.call .keyword a b = .ok (p.law.marin a b)) ∧
    (limits E .fresh).2 = .ok (T.forces ![-u, 0, 0] 0, T.forces ![eu, 0, 0] 0) ∧
    (∃ C : Set ℝ, C.Countable ∧ ∀ (n : ℝ) (ops : List Op), Undisturbed E lu ops .fresh →
      (n < T.forces ![-u, 0, 0] 0 ∨ T.forces ![eu, 0, 0] 0 < n →
        (bendingStrength E th n (history E lu ops .fresh)).2 = .error .valueError) ∧
      (T.forces ![-u, 0, 0] 0 + δ * 1e-13 < n → n < T.forces ![eu, 0, 0] 0 - δ * 1e-13 →
        ∃ b : BendingResult, (bendingStrength E th n (history E lu ops .fresh)).2 = .ok b ∧ (n ∉ C → |b.n - n| ≤ 1e-2))) ∧
    ∀ (n : ℝ) (ops : List Op) (b : BendingResult), Undisturbed E lu ops .fresh →
      (bendingStrength E th n (history E lu ops .fresh)).2 = .ok b → ∃ c < 0, ∃ e, e = planeThrough th 0 b.eps_a c ∧
        ![b.eps_a, b.chi.1, b.chi.2] = e ∧ T.Admissible e ∧ T.AtLimit e ∧
        T.forces e 0 ≤ b.n ∧ b.n ≤ T.forces e 0 + A ∧
        |bendingMoment th ![b.n, b.m.1, b.m.2] - bendingMoment th (T.forces e)| ≤ R * A := by
  obtain ⟨v1, v2, v3, v4, v5, v6, -⟩ := sargin_codes hval hcf
  obtain ⟨q0, q1, q2, q3, q4, q5, q6, q7, q8, -⟩ := sargin_fit v1 v2 v3 v4 v5 v6 hm
  have q2' : 0 < u := by norm_num at *; linarith
  obtain ⟨hult, hst, hlip⟩ := C73_steel hl scls sa s hs hsn hsi.1 hsi.2 hgap
  rw [← heud] at hult hst
  have a1 : |fc| = fc := abs_of_pos q0
  have a2 : |e1| = e1 := abs_of_pos q1
  have a3 : |u| = u := abs_of_pos q2'
  refine ⟨C86_concrete_codes hl ccls ca c hc hcn hci.1 hci.2 hce hcf hval, ?_⟩
  have := C86_sargin_partial split ms lu shapes bars (fc := fc) (e1 := e1) (u := u) (k := k) (m := m) (eu := eu) (K := |sa.Es|) (L := L)
    (H := H) (H0 := H0) (R := R) (th := th) (δ := δ) (A := A) q0.ne' (by rw [a2]; exact q1)
    (by rw [a3]; have := v3.2; constructor <;> norm_num at * <;> linarith) q3 (by rw [a2, a3]; exact q4) (by norm_num at *; linarith) q6
    (by rw [a2, a3]; exact q7) (by rw [a1, a2, a3]; exact q8) hbars hult
    (by rw [a3]; exact ⟨v3.2.trans heu.1, by have := heu.1; norm_num at *; linarith, heu.2⟩) (by rw [hult] at hlip; exact hlip) henc hull hsplit hg0 hg hR hL
    hδ hsmall (by rw [sarginError, a1, a2, a3]; exact hAr) (T := T) (by rw [a1, a2, a3]; exact hT) (parts := parts) (by rw [a3]; exact hparts) hE
  rw [a3] at this
  exact this

/-- **C88** (design, Sargin's law, all codes). From the arguments of the material constructors and the geometry, for concrete to any of the
three codes from C12 to C80 with the default values of Sargin's law. Partial: see `C88_pieces_partial`. -/
theorem C88_sargin_codes_design_partial (hl : PyLower lower) (ccls : ConcClass) (ca : ConcArgs) (c : Built Conc)
    (hc : newConcrete lower ccls ca = some (.ok c)) (hcn : ca.law = .name "sargin")
    (hci : ca.initialStrain = none ∧ ca.initialStress = none)
    (hce : ca.fcm = none ∧ ca.E = none ∧ ca.eps_c1 = none ∧ ca.eps_cu1 = none ∧ ca.k = none)
    (hcf : SarginRange ccls ca ∧ |ca.fck| ≤ 80)
    (scls : SteelClass) (sa : SteelArgs) (s : Built Steel)
    (hs : newSteel lower scls sa = some (.ok s)) (hsn : sa.law = .name "elasticperfectlyplastic")
    (hsi : sa.initialStrain = none ∧ sa.initialStress = none)
    (hgap : designYield sa + 1e-6 + 1e-5 * designUltimate scls sa ≤ designUltimate scls sa) (hey : 1e-4 ≤ designYield sa)
    (heu : 0.0035 ≤ designUltimate scls sa ∧ designUltimate scls sa ≤ 0.09)
    (split : Polygon → ℝ → ℝ → ShapelyResult) (ms th : ℝ) (lu : Matrix (Fin 3) (Fin 3) ℝ → (Fin 3 → ℝ) → (Fin 3 → ℝ))
    (shapes : List (Polygon × Set (ℝ × ℝ))) (bars : List Bar) (id : ℕ) (hbars : ∀ b ∈ bars, b.law = ⟨id, s.mat.law⟩)
    (henc : ∀ p ∈ shapes, Encloses p.1.ext p.1.ints p.2) (hull : ∀ p ∈ shapes, p.2 ⊆ convexHull ℝ {v | v ∈ p.1.ext})
    (hcut : CutsExactly split th shapes) {A fc e1 u k m lo hi lo' hi' : ℝ}
    (hval : SarginValues ccls ca fc e1 u k)
    (hm : m = min 1 (1 + (k - 2) * (u / e1)))
    (hA : A = fc * ((k - 1) ^ 2 * (u / e1) ^ 2 / (400 * m ^ 3)) * grossArea shapes)
    (hdir : RCSide th (e1 / u) shapes (bars.map fun b => (b.x, b.y)) lo hi) (complete : Bool)
    (hdir' : complete = true → RCSide (th + Real.pi) (e1 / u) shapes (bars.map fun b => (b.x, b.y)) lo' hi')
    (num : Fin 6 → ℤ) (ty : Fin 6 → Spacing) (ha : ProfileArgs num ty)
    {T : CrossSection} (hT : T = plateSection shapes bars (sarginDiagram fc e1 k) u) {parts : List PolyPart}
    (hparts : parts = softParts (Sargin.new fc e1 u k).stress (Sargin.new fc e1 u k).ult u shapes)
    {E : Engine} (hE : E = sectionEngine split (parts.map PolyPart.solid) bars ms)
    (ops : List Op) (hops : Undisturbed E lu ops .fresh) :
    c.mat.law = (Sargin.new fc e1 u k).law ∧
    (∀ p ∈ parts, ∀ a b, (Sargin.new fc e1 u k).marinMethod.call .keyword a b = .ok (p.law.marin a b)) ∧
    ∃ planes labels, ∃ points : List (Fin 3 → ℝ),
      nmProfiles E.balanced (sectionMinY (shapes.map Prod.fst)) true th num ty complete = .ok (planes, labels) ∧
      (nmDomain E ((nmProfiles E.balanced (sectionMinY (shapes.map Prod.fst)) true th num ty complete).map Prod.fst)
        (history E lu ops .fresh)).2 = .ok (points.map .forces) ∧
      planes.length = (∑ i, num i).toNat + (if complete then (∑ i, num i).toNat - 2 else 0) ∧
      List.Forall₂ (fun v r => T.Admissible v ∧ |r 0 - T.forces v 0| ≤ A ∧
        ∀ a R, (∀ p ∈ shapes, ∀ x ∈ p.2, |height a x| ≤ R) → |bendingMoment a r - bendingMoment a (T.forces v)| ≤ R * A) planes points ∧
      (∀ q ∈ planes.zip labels, q.2 ≤ 5 → T.AtLimit q.1) ∧
      (ty 0 = .linear → 1 ≤ num 0 → planes.head? = some ![designUltimate scls sa, 0, 0]) ∧
      (complete = false → planes.getLast? = some ![-e1, 0, 0]) := by
  obtain ⟨v1, v2, v3, v4, v5, v6, v7⟩ := sargin_codes hval hcf.1
  obtain ⟨q0, q1, q2, q3, q4, q5, q6, q7, q8, -⟩ := sargin_fit v1 v2 v3 v4 v5 v6 hm
  have q2' : 0 < u := by norm_num at *; linarith
  have hgap' : e1 + 2e-6 ≤ u := v7 hcf.2
  have a1 : |fc| = fc := abs_of_pos q0
  have a2 : |e1| = e1 := abs_of_pos q1
  have a3 : |u| = u := abs_of_pos q2'
  have hu2 : (2e-5:ℝ) ≤ |u| := by rw [a3]; norm_num at *; linarith
  have hm0 : 0 < m := by norm_num at *; linarith
  refine ⟨C86_concrete_codes hl ccls ca c hc hcn hci.1 hci.2 hce hcf.1 hval, ?_, ?_⟩
  · intro p hp a b
    have := sargin_marin (fc := fc) (e1 := e1) (u := u) (k := k) (shapes := shapes) (p := p) (by rw [a2]; exact q1) hu2 q3
      (by rw [a2, a3]; exact q4) q0.ne' (by rw [a1, a2, a3]; exact q8) (by rw [a3, ← hparts]; exact hp) a b
    exact this
  have hP := sargin_pieces (fc := fc) (e1 := e1) (u := u) (k := k) (m := m) (by rw [a2]; exact q1) hu2 q3 (by rw [a2, a3]; exact q4) hm0 q6
    (by rw [a2, a3]; exact q7)
  have hS := design_strains hl scls sa s hs hsn hsi hgap hey heu hbars (e0 := e1) (u := u) ⟨q2, v3.2⟩
    ⟨by have := v2.1; norm_num at *; linarith, hgap'⟩
  rw [a3] at hP
  rw [hparts] at hE
  obtain ⟨planes, labels, h1, h2, h3, h4, h5, h6⟩ := C88_pieces_partial (ms := ms) lu hP (e0 := e1) (by
      show ((-|e1|, 100) : ℝ × ℝ) = _
      rw [a2]) hS henc hull hcut hdir complete hdir' ha hE rfl (T := T) (by rw [a1, a2] ; exact hT) ops hops
  refine ⟨planes, labels, planes.map (plateSection shapes bars (polygonal (Sargin.new fc e1 u k).stress u) u).forces, h1, ?_, h3, ?_, h5, h6⟩
  · rw [h2, List.map_map]; rfl
  · rw [List.forall₂_map_right_iff, List.forall₂_same]
    intro v hv
    have := h4 v hv
    rw [sarginError, a1, a2, a3, ← hA] at this
    exact this

/-- **C86** (constructors, all codes). In the range of its code, with default values, the law `sargin` is accepted exactly for consistent
arguments (and, in Eurocode 2 (2023), a known development class and a positive partial factor). -/
theorem C86_accepts_codes (hl : PyLower lower) (cls : ConcClass) (a : ConcArgs)
    (hlaw : a.law = .name "sargin") (h1 : a.initialStrain = none) (h2 : a.initialStress = none)
    (hd : a.fcm = none ∧ a.E = none ∧ a.eps_c1 = none ∧ a.eps_cu1 = none ∧ a.k = none) (hr : SarginRange cls a) :
    (∃ b, newConcrete lower cls a = some (.ok b)) ↔
      ¬ Inconsistent a ∧ (cls = .ec2_2023 → DevOk a ∧ ∀ g, a.gamma_c = some g → 0 < g) := by
  have hlook : constitutiveLaws.lookup (lower "sargin") = some .sargin := by
    rw [hl.fixed _ (by simp)]; simp [constitutiveLaws, List.lookup]
  obtain ⟨d1, d2, d3, d4, d5⟩ := hd
  have hname : "__" ++ "sargin" ++ "__" = "__sargin__" := by decide
  have build : cls.check a.store = .ok () → (∃ fc e u k, cls.methods a.store "__sargin__" = some (.ok (.sargin fc e u k))) →
      ∃ b, newConcrete lower cls a = some (.ok b) := by
    rintro hc ⟨fc, e, u, k, hkw⟩
    have hs : selectLaw lower "concrete" a.law (cls.methods a.store) = .ok (AnyLaw.sargin (Sargin.new fc e u k)).law := by
      rw [hlaw]
      exact selectLaw_name_mk (l := .sargin (Sargin.new fc e u k)) hlook (by rw [hname]; exact hkw) (by simp only [mkLaw]) (by simp [AnyLaw.materials])
    exact ⟨_, newConcrete_mk h1 h2 hc hs⟩
  cases cls with
  | ec2_2004 =>
    rw [C86_accepts hl a hlaw h1 h2]
    simp
  | mc2010 =>
    refine ⟨fun ⟨b, hb⟩ => ⟨newConcrete_consistent hb, fun h => absurd h (by decide)⟩, fun hc => build (check_ok.2 hc.1) ?_⟩
    obtain ⟨e1, u, k, m1, m2, m3, -⟩ := mc2010_tables hr.1 hr.2
    refine ⟨MC2010.fcm |a.fck|, -e1, -u, k, ?_⟩
    simp only [ConcClass.methods, ConcreteMC2010.methods, String.reduceEq, if_true, if_false, ConcreteMC2010.fcm, ConcreteMC2010.eps_c1,
      ConcreteMC2010.eps_cu1, ConcreteMC2010.k_sargin, ConcArgs.store, d1, d3, d4, d5, Option.map_none, orElse, m1, m2, m3]
    rfl
  | ec2_2023 =>
    have hiff : ConcClass.check .ec2_2023 a.store = .ok () ↔ ¬ Inconsistent a ∧ DevOk a ∧ ∀ g, a.gamma_c = some g → 0 < g := check2023_ok
    constructor
    · rintro ⟨b, hb⟩
      obtain ⟨-, hchk, -⟩ := newConcrete_ok hb
      obtain ⟨c1, c2⟩ := hiff.1 hchk
      exact ⟨c1, fun _ => c2⟩
    · rintro ⟨c1, c2⟩
      refine build (hiff.2 ⟨c1, c2 rfl⟩) ?_
      obtain ⟨h12, -, hkE⟩ := hr
      have f0 : EC2_2023.fcm |a.fck| = |a.fck| + 8 := by simp only [EC2_2023.fcm, MC2010.fcm, abs_abs]; norm_num
      have hF0 : 0 < |a.fck| + 8 := by linarith
      have n1 : ¬ |a.fck| + 8 < 20 := by linarith
      have n2 : ¬ |a.fck| + 8 < 0 := by linarith
      have hp := Real.rpow_pos_of_pos hF0 ((1:ℝ) / 3)
      have n3 : ¬ (9500 * (|a.fck| + 8) ^ ((1:ℝ) / 3) ≤ 0) := not_le.2 (mul_pos (by norm_num) hp)
      have n4 : ¬ (min (0.7 * (|a.fck| + 8) ^ ((1:ℝ) / 3)) 2.8 / 1000 ≤ 0) :=
        not_le.2 (div_pos (lt_min (mul_pos (by norm_num) hp) (by norm_num)) (by norm_num))
      have g1 : ConcreteEC2_2023.fcm a.store = .ok (|a.fck| + 8) := by
        simp only [ConcreteEC2_2023.fcm, ConcArgs.store, d1, Option.map_none, orElse, f0]
      have g2 : ConcreteEC2_2023.eps_c1 a.store = .ok (min (0.7 * (|a.fck| + 8) ^ ((1:ℝ) / 3)) 2.8 / 1000) := by
        simp only [ConcreteEC2_2023.eps_c1, g1]
        simp only [bind, Except.bind, ConcArgs.store, d3, Option.map_none, orElse, EC2_2023.eps_c1, raiseIf, if_neg n1]
        rfl
      have g3 : ∃ u, ConcreteEC2_2023.eps_cu1 a.store = .ok u := by
        simp only [ConcreteEC2_2023.eps_cu1, g1]
        simp only [bind, Except.bind, ConcArgs.store, d4, Option.map_none, orElse, EC2_2023.eps_cu1, raiseIf, if_neg n1]
        exact ⟨_, rfl⟩
      have g4 : ConcreteEC2_2023.Ecm a.store = .ok (9500 * (|a.fck| + 8) ^ ((1:ℝ) / 3)) := by
        simp only [ConcreteEC2_2023.Ecm, g1]
        simp only [bind, Except.bind, ConcArgs.store, d2, hkE, Option.map_none, orElse, EC2_2023.Ecm, raiseIf, if_neg n2,
          if_neg (show ¬ ((9500:ℝ) < 5000) by norm_num), if_neg (show ¬ ((9500:ℝ) > 13000) by norm_num)]
        rfl
      have g5 : ∃ k, ConcreteEC2_2023.k_sargin a.store = .ok k := by
        simp only [ConcreteEC2_2023.k_sargin, g1, g2, g4]
        simp only [bind, Except.bind, ConcArgs.store, d5, orElse, EC2_2023.k_sargin, raiseIf, if_neg n1, if_neg n3, if_neg n4]
        exact ⟨_, rfl⟩
      obtain ⟨u, g3⟩ := g3
      obtain ⟨k, g5⟩ := g5
      refine ⟨|a.fck| + 8, min (0.7 * (|a.fck| + 8) ^ ((1:ℝ) / 3)) 2.8 / 1000, u, k, ?_⟩
      simp only [ConcClass.methods, ConcreteEC2_2023.methods, String.reduceEq, if_true, if_false, g1, g2, g3, g5]
      rfl

/-- **C86** (Model Code). Outside 12 ... 120 MPa the law `sargin` with default values is refused. -/
theorem C86_refused_mc2010 (hl : PyLower lower) (a : ConcArgs) (hlaw : a.law = .name "sargin")
    (hd : a.eps_c1 = none) (hr : |a.fck| < 12 ∨ 120 < |a.fck|) (b : Built Conc) : newConcrete lower .mc2010 a ≠ some (.ok b) := by
  intro h
  obtain ⟨law, hm, hx⟩ := C47_law_mc2010 hl a b _ h hlaw
  simp only [String.reduceEq, false_and, true_and, false_or, or_false] at hx
  obtain ⟨fc', e, u', k', x1, x2, -⟩ := hx
  obtain ⟨-, -, -, -, -, -, -, -, -, ⟨-, v2⟩, -⟩ := C47_values_mc2010 a b h _ _ rfl rfl
  rw [v2 hd, ((MC2010.C45_table_range |a.fck|).1 hr).1] at x2
  simp at x2

end SC
