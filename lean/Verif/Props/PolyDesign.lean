import Verif.Props.PolyStrength
import Verif.Props.OrdinaryMaterials

/-! # C84: the strength of sections whose concrete law the Marin integrator replaces by straight pieces -/

set_option autoImplicit false

namespace SC

open Spec MeasureTheory

/-- The geometry of a reinforced concrete section, for any crushing strain. -/
theorem RCGeometry.solids {th H el eu ecu : ℝ} {shapes : List (Polygon × Set (ℝ × ℝ))} {bars : List Bar} {L : LawObj}
    (h : RCGeometry th shapes (bars.map fun b => (b.x, b.y)) H) (hb : ∀ b ∈ bars, b.law = L) (hu : L.law.ult false = (-el, eu))
    (hecu : 1e-3 ≤ ecu ∧ ecu ≤ 5e-3) (hel : ecu ≤ el) (heu : 1e-4 ≤ eu) (heu' : eu ≤ 0.09) (f : Polygon × Set (ℝ × ℝ) → ConcretePart)
    (hf : ∀ s ∈ shapes, (f s).polygon = s.1 ∧ |(f s).eps_u| = ecu) : OrdinaryRC th (shapes.map f) bars ecu eu H := by
  have hcor : ∀ c ∈ (concreteSection (shapes.map f) bars).corners, ∃ s ∈ shapes, c.1 ∈ convexHull ℝ {v | v ∈ s.1.ext} := by
    intro c hc
    simp only [CrossSection.corners, concreteSection, List.mem_append, List.mem_flatMap, List.mem_map] at hc
    rcases hc with ⟨_, ⟨_, ⟨s, hs, rfl⟩, rfl⟩, v, hv, rfl⟩ | ⟨_, ⟨b, hb', rfl⟩, rfl⟩
    · simp only [(hf s hs).1] at hv
      exact ⟨s, hs, subset_convexHull ℝ _ hv⟩
    · exact h.inside _ (List.mem_map_of_mem hb')
  refine ⟨?_, ?_, hecu, ⟨heu, heu'⟩, ?_, ?_, h.size, ?_⟩
  · intro p hp
    obtain ⟨s, hs, rfl⟩ := List.mem_map.1 hp
    exact (hf s hs).2
  · intro b hb'
    rw [hb b hb', hu]
    exact ⟨rfl, by simp only; linarith⟩
  · intro b hb'
    obtain ⟨s, hs, hin⟩ := h.inside _ (List.mem_map_of_mem hb')
    exact ⟨_, List.mem_map_of_mem hs, by rw [(hf s hs).1]; exact hin⟩
  · intro c hc d hd
    obtain ⟨s, hs, h1⟩ := hcor c hc
    obtain ⟨t, ht, h2⟩ := hcor d hd
    obtain ⟨v, hv, hle⟩ := OrdinaryRC.hull_height (th := th) h1
    obtain ⟨w, hw, hle'⟩ := hull_low (th := th) h2
    linarith [h.span s hs v hv t ht w hw]
  · obtain ⟨_, hb', s, hs, v, hv, hle⟩ := h.depth
    obtain ⟨b, hb'', rfl⟩ := List.mem_map.1 hb'
    exact ⟨b, hb'', _, List.mem_map_of_mem hs, v, by rw [(hf s hs).1]; exact hv, hle⟩

theorem height_hull {th R : ℝ} {P : Set (ℝ × ℝ)} (hR : ∀ v ∈ P, |height th v| ≤ R) {x : ℝ × ℝ} (hx : x ∈ convexHull ℝ P) :
    |height th x| ≤ R := by
  obtain ⟨v, hv, h1⟩ := OrdinaryRC.hull_height (th := th) hx
  obtain ⟨w, hw, h2⟩ := hull_low (th := th) hx
  exact abs_le.2 ⟨by linarith [(abs_le.1 (hR w hw)).1], by linarith [(abs_le.1 (hR v hv)).2]⟩

theorem plate_limit {shapes : List (Polygon × Set (ℝ × ℝ))} {bars : List Bar} {u : ℝ} (f g : ℝ → ℝ) (e : Fin 3 → ℝ) :
    (plateSection shapes bars f u).AtLimit e ↔ (plateSection shapes bars g u).AtLimit e := by
  simp only [CrossSection.AtLimit, CrossSection.corners, plateSection, List.flatMap_map]

/-- Two diagrams with the same stress at a uniform strain. -/
theorem plate_uniform {shapes : List (Polygon × Set (ℝ × ℝ))} {bars : List Bar} {u e : ℝ} {f g : ℝ → ℝ} (h : f e = g e) :
    (plateSection shapes bars f u).forces ![e, 0, 0] = (plateSection shapes bars g u).forces ![e, 0, 0] := by
  have hr : ∀ R : Set (ℝ × ℝ), regionResultants R f ![e, 0, 0] = regionResultants R g ![e, 0, 0] := by
    intro R
    funext i
    simp only [regionResultants, planeStrain, Matrix.cons_val, zero_mul, add_zero, sub_zero, h]
  simp only [CrossSection.forces, plateSection, List.map_map, Function.comp_def, hr]

/-- **C84** (strength). Sections of concrete with a parabola-rectangle diagram with an exponent other than 2, which the Marin integrator
replaces by ten straight pieces, and bars of one steel: with `T` the section as designed (the exact diagram), the limit loads are those
of `T`; loads outside are refused and loads inside answered; the answer is an admissible plane of `T` at its limit, with forces of `T`
up to the area times `chordError`, and no admissible plane of `T` with the same load has a larger moment up to this error.
Partial: the equilibrium of the answer with the load holds for all loads but countably many, and answers are shown to exist for
loads inside the limits by `δ · 1e-13`. -/
theorem C84_strength_partial (split : Polygon → ℝ → ℝ → ShapelyResult) (ms : ℝ) (lu : Matrix (Fin 3) (Fin 3) ℝ → (Fin 3 → ℝ) → (Fin 3 → ℝ))
    (shapes : List (Polygon × Set (ℝ × ℝ))) (bars : List Bar) {fc e0 u k el eu K L H H0 R th δ A : ℝ}
    (hfc : fc ≠ 0) (h0 : 0 < |e0|) (hu0 : |e0| ≤ |u|) (hu : 1e-3 ≤ |u| ∧ |u| ≤ 5e-3) (hk : 1 ≤ k) (h2 : k ≠ 2)
    {M : LawObj} (hbars : ∀ b ∈ bars, b.law = M) (hult : M.law.ult false = (-el, eu)) (heu : |u| ≤ el ∧ 1e-4 ≤ eu ∧ eu ≤ 0.09)
    (hK : ∀ x ∈ Set.Icc (-el) eu, ∀ y ∈ Set.Icc (-el) eu, |M.law.stress x - M.law.stress y| ≤ K * |x - y|)
    (hmono : MonotoneOn M.law.stress (Set.Icc (-el) eu)) (hA : ∀ b ∈ bars, 0 ≤ b.area)
    (henc : ∀ p ∈ shapes, Encloses p.1.ext p.1.ints p.2) (hull : ∀ p ∈ shapes, p.2 ⊆ convexHull ℝ {v | v ∈ p.1.ext})
    (hsplit : ∀ p ∈ shapes,
      SplitsExactly split ((p.1.rotate (-th)).rotate (-Real.pi)) (rotPt (-Real.pi) '' (rotPt (-th) '' p.2)))
    (hg0 : RCGeometry 0 shapes (bars.map fun b => (b.x, b.y)) H0) (hg : RCGeometry th shapes (bars.map fun b => (b.x, b.y)) H)
    (hR : ∀ p ∈ shapes, ∀ v ∈ p.1.ext, |height th v| ≤ R) (hL : L = max (k * |fc| / |e0|) K)
    (hδ : δ = L * (grossArea shapes + (bars.map fun b => |b.area|).sum) * H) (hsmall : δ ≤ 1e22)
    (hAr : A = chordError fc e0 u k * grossArea shapes)
    {T : CrossSection} (hT : T = plateSection shapes bars (parabolaRectangle |fc| |e0| k) |u|)
    {E : Engine} (hE : E = sectionEngine split ((parabolaParts fc e0 u k shapes).map PolyPart.solid) bars ms) :
    (∀ p ∈ parabolaParts fc e0 u k shapes, ∀ a b, (ParabolaRectangle.new fc e0 u k).marinAny a b = .ok (p.law.marin a b)) ∧
    (limits E .fresh).2 = .ok (T.forces ![-|u|, 0, 0] 0, T.forces ![eu, 0, 0] 0) ∧
    (∃ C : Set ℝ, C.Countable ∧ ∀ (n : ℝ) (ops : List Op), Undisturbed E lu ops .fresh →
      (n < T.forces ![-|u|, 0, 0] 0 ∨ T.forces ![eu, 0, 0] 0 < n →
        (bendingStrength E th n (history E lu ops .fresh)).2 = .error .valueError) ∧
      (T.forces ![-|u|, 0, 0] 0 + δ * 1e-13 < n → n < T.forces ![eu, 0, 0] 0 - δ * 1e-13 →
        ∃ b : BendingResult, (bendingStrength E th n (history E lu ops .fresh)).2 = .ok b ∧ (n ∉ C → |b.n - n| ≤ 1e-2))) ∧
    ∀ (n : ℝ) (ops : List Op) (b : BendingResult), Undisturbed E lu ops .fresh →
      (bendingStrength E th n (history E lu ops .fresh)).2 = .ok b → ∃ c < 0, ∃ e, e = planeThrough th 0 b.eps_a c ∧
        ![b.eps_a, b.chi.1, b.chi.2] = e ∧ T.Admissible e ∧ T.AtLimit e ∧
        T.forces e 0 ≤ b.n ∧ b.n ≤ T.forces e 0 + A ∧
        |bendingMoment th ![b.n, b.m.1, b.m.2] - bendingMoment th (T.forces e)| ≤ R * A ∧
        ∀ v c, T.Admissible (planeThrough th 0 v c) → bendingMoment th (T.forces (planeThrough th 0 v c)) ≤
          bendingMoment th ![b.n, b.m.1, b.m.2] + R * |T.forces (planeThrough th 0 v c) 0 - b.n| + 2 * (R * A) := by
  have hu' : (2e-5:ℝ) ≤ |u| := by have := hu.1; norm_num at *; linarith
  have hpos : 0 < |u| := by linarith
  have hL1 : k * |fc| / |e0| ≤ L := by rw [hL]; exact le_max_left _ _
  have hL2 : K ≤ L := by rw [hL]; exact le_max_right _ _
  have hLn : 0 ≤ L := le_trans (by positivity) hL1
  have hfit := parabola_fits (split := split) (th := th) (eu := eu) (L := L) henc hull hsplit h0 hu0 hu.1 hk
    heu.2.1 hL1
  have hf := fun s hs => (hfit s hs).1
  have hgr := fun s hs => (hfit s hs).2
  have hmapS : ((parabolaParts fc e0 u k shapes).map PolyPart.solid).map Solid.shadow =
      shapes.map fun s => (PolyPart.solid ⟨s.1, s.2, (ParabolaRectangle.new fc e0 u k).stress,
        (ParabolaRectangle.new fc e0 u k).ult, |u|⟩).shadow := by
    simp only [parabolaParts, List.map_map, Function.comp_def]
  have hsh : ∀ s ∈ shapes, (PolyPart.solid ⟨s.1, s.2, (ParabolaRectangle.new fc e0 u k).stress,
        (ParabolaRectangle.new fc e0 u k).ult, |u|⟩).shadow.polygon = s.1 ∧
      |(PolyPart.solid ⟨s.1, s.2, (ParabolaRectangle.new fc e0 u k).stress,
        (ParabolaRectangle.new fc e0 u k).ult, |u|⟩).shadow.eps_u| = |u| := by
    intro s hs
    refine ⟨rfl, ?_⟩
    show |(-|u|)| = |u|
    rw [abs_neg, abs_abs]
  have o0 := hg0.solids hbars hult hu heu.1 heu.2.1 heu.2.2 _ hsh
  have o := hg.solids hbars hult hu heu.1 heu.2.1 heu.2.2 _ hsh
  rw [← hmapS] at o0 o
  have hK' : ∀ b ∈ bars, ∀ x ∈ Set.Icc (b.law.law.ult false).1 (b.law.law.ult false).2,
      ∀ y ∈ Set.Icc (b.law.law.ult false).1 (b.law.law.ult false).2, |b.law.law.stress x - b.law.law.stress y| ≤ L * |x - y| := by
    intro b hb
    rw [hbars b hb, hult]
    intro x hx y hy
    exact (hK x hx y hy).trans (mul_le_mul_of_nonneg_right hL2 (abs_nonneg _))
  have hmono' : ∀ b ∈ bars, MonotoneOn b.law.law.stress (Set.Icc (b.law.law.ult false).1 (b.law.law.ult false).2) := by
    intro b hb
    rw [hbars b hb, hult]
    exact hmono
  have hmod : Solid.totalModulus ((parabolaParts fc e0 u k shapes).map PolyPart.solid) bars L * H = δ := by
    rw [hδ, Solid.totalModulus, grossArea]
    simp only [parabolaParts, List.map_map, Function.comp_def]
    rfl
  have hS := parabola_section (fc := fc) (e0 := e0) (u := u) (n := k) shapes bars
  set f := polygonal (ParabolaRectangle.new fc e0 u k).stress |u| with hfdef
  have hz : (ParabolaRectangle.new fc e0 u k).stress 0 = 0 :=
    (C09_parabola_rectangle fc e0 u k h0 hu0 (by linarith) (by linarith)).2
  have u1 : (plateSection shapes bars f |u|).forces ![-|u|, 0, 0] = T.forces ![-|u|, 0, 0] := by
    rw [hT]
    refine plate_uniform ?_
    have e1 := parabola_node (fc := fc) h0 hk hu' 0 (by norm_num)
    have e2 := polygonal_node (ParabolaRectangle.new fc e0 u k).stress hpos (i := 0) (by norm_num)
    rw [tenth_zero] at e1 e2
    rw [hfdef, e2, e1]
  have u2 : (plateSection shapes bars f |u|).forces ![eu, 0, 0] = T.forces ![eu, 0, 0] := by
    rw [hT]
    refine plate_uniform ?_
    rw [hfdef, polygonal_tension hpos hz (by have := heu.2.1; norm_num at *; linarith), parabolaRectangle_tension h0.le (by have := heu.2.1; norm_num at *; linarith)]
  have hstr := Solid.strength split _ bars ms lu hf o0 o (single_ids hbars) (single_sizes hbars) hLn hK' (by rw [hmod]; exact hsmall)
    rfl hmod.symm hE
  rw [hS, u1, u2] at hstr
  refine ⟨fun p hp a b => parabola_marin hfc h0 hu0 hu' hk h2 hp a b, hstr.1, hstr.2, ?_⟩
  intro n ops b hops hrun
  rw [hE] at hops hrun
  have hcmp := fun e ha => plate_compare (bars := bars) (cf := |fc|) (cg := |fc|) (measurable_polygonal _ _) (measurable_parabolaRectangle |fc| |e0| k)
    (polygonal_bounded hpos (C08_parabola_rectangle fc e0 u k h0 hu0 (by linarith) (by linarith)))
    (parabolaRectangle_bounds (abs_nonneg fc) h0 (by linarith)) henc hull
    (fun e he => parabola_polygon (fc := fc) h0 hk hu' he) (e := e) ha
  rw [← hAr] at hcmp
  rw [← hT] at hcmp
  rw [← hfdef] at hcmp
  have hR' : ∀ p ∈ shapes, ∀ x ∈ p.2, |height th x| ≤ R := fun p hp x hx => height_hull (hR p hp) (hull p hp hx)
  obtain ⟨c, hc, e1, ha, hl, hfor⟩ := Solid.strength_plane hf o (single_ids hbars) (single_sizes hbars) n ops b hops hrun
  rw [hS] at ha hl hfor
  obtain ⟨c1, c2, c3⟩ := hcmp _ ha
  have c3 := c3 th R hR'
  rw [hfor] at c1 c2 c3
  simp only [Matrix.cons_val] at c1 c2
  have had : ∀ e, T.Admissible e ↔ (plateSection shapes bars f |u|).Admissible e := by
    intro e; rw [hT]; exact plate_admissible _ _ e
  refine ⟨c, hc, _, rfl, e1, (had _).2 ha, ?_, c1, by linarith, c3, ?_⟩
  · rw [hT]; exact (plate_limit _ _ _).1 hl
  intro v c' ha'
  have ha'' := (had _).1 ha'
  have hlar := Solid.largest hf hgr o (single_ids hbars) (single_sizes hbars) hA hmono' (R := R) (by
    intro s hs w hw
    obtain ⟨p, hp, rfl⟩ := List.mem_map.1 hs
    obtain ⟨q, hq, rfl⟩ := List.mem_map.1 hp
    exact hR q hq w hw) n ops b hops hrun v c' (by rw [hS]; exact ha'')
  rw [hS] at hlar
  obtain ⟨d1, d2, d3⟩ := hcmp _ ha''
  have d3 := (abs_le.1 (d3 th R hR')).1
  have hR0 : 0 ≤ R := (Solid.within hf o (R := R) (by
    intro s hs w hw
    obtain ⟨p, hp, rfl⟩ := List.mem_map.1 hs
    obtain ⟨q, hq, rfl⟩ := List.mem_map.1 hp
    exact hR q hq w hw)).2
  have hab : |(plateSection shapes bars f |u|).forces (planeThrough th 0 v c') 0 - b.n| ≤
      |T.forces (planeThrough th 0 v c') 0 - b.n| + A := by
    rw [show (plateSection shapes bars f |u|).forces (planeThrough th 0 v c') 0 - b.n = (T.forces (planeThrough th 0 v c') 0 - b.n) +
      ((plateSection shapes bars f |u|).forces (planeThrough th 0 v c') 0 - T.forces (planeThrough th 0 v c') 0) by ring]
    refine (abs_add_le _ _).trans (add_le_add le_rfl ?_)
    rw [abs_of_nonneg (by linarith)]
    exact d2
  have := mul_le_mul_of_nonneg_left hab hR0
  linarith

variable {lower : String → String}

/-- **C84** (concrete). A concrete of high strength with default strains and the law `parabolarectangle` has the design diagram of
table 3.1, with an exponent below 2. -/
theorem C84_concrete (hl : PyLower lower) (cls : ConcClass) (hcls : cls ≠ .ec2_2023) (a : ConcArgs) (b : Built Conc)
    (h : newConcrete lower cls a = some (.ok b)) (hn : a.law = .name "parabolarectangle")
    (hi1 : a.initialStrain = none) (hi2 : a.initialStress = none)
    (h1 : a.eps_c2 = none) (h2 : a.eps_cu2 = none) (h3 : a.n = none) (hf : 50 < |a.fck|) :
    b.mat.law = (ParabolaRectangle.new (designConcrete cls a) (plateauStrain |a.fck|) (crushingStrain |a.fck|)
      (parabolaExponent |a.fck|)).law := by
  have hmat : ∀ law, Material.create a.density a.initialStrain a.initialStress a.compat law = some (.ok b.mat) → b.mat.law = law := by
    intro law hm
    rw [hi1, hi2, C15_none] at hm
    simp only [Option.some.injEq, Except.ok.injEq] at hm
    rw [← hm]
  have hf' : ¬ |a.fck| ≤ 50 := not_le.2 hf
  cases cls with
  | ec2_2004 =>
    obtain ⟨law, hm, hx⟩ := C47_law_ec2_2004 hl a b _ h hn
    simp only [String.reduceEq, false_and, true_and, false_or, or_false] at hx
    obtain ⟨fc, e, u, n, e1, e2, e3, e4, hlaw⟩ := hx
    obtain ⟨-, -, -, -, -, -, -, v1, -, -, -, v2, v3, v4, -⟩ := C47_values_ec2_2004 a b h _ _ _ _ rfl rfl rfl rfl
    rw [v1] at e1
    rw [v2] at e2
    rw [v3] at e3
    rw [v4] at e4
    simp only [Except.ok.injEq, h1, h2, h3, given, Option.getD_none, EC2_2004.eps_c2, EC2_2004.eps_cu2,
      EC2_2004.n_parabolic_rectangular, abs_abs, if_neg hf'] at e1 e2 e3 e4
    rw [hmat law hm, hlaw, ← e1, ← e2, ← e3, ← e4]
    rfl
  | mc2010 =>
    obtain ⟨law, hm, hx⟩ := C47_law_mc2010 hl a b _ h hn
    simp only [String.reduceEq, false_and, true_and, false_or, or_false] at hx
    obtain ⟨fc, e, u, n, e1, e2, e3, e4, hlaw⟩ := hx
    obtain ⟨-, -, -, -, -, -, -, -, v1, -, -, -, v2, v3, v4, -⟩ := C47_values_mc2010 a b h _ _ rfl rfl
    rw [v1] at e1
    rw [v2] at e2
    rw [v3] at e3
    rw [v4] at e4
    simp only [Except.ok.injEq, h1, h2, h3, given, Option.getD_none, MC2010.eps_c2, MC2010.eps_cu2,
      MC2010.n_parabolic_rectangular, abs_abs, if_neg hf'] at e1 e2 e3 e4
    rw [hmat law hm, hlaw, ← e1, ← e2, ← e3, ← e4]
    rfl
  | ec2_2023 => exact absurd rfl hcls

theorem high_ranges {f : ℝ} (h1 : 50 < f) (h2 : f ≤ 89) : 0.002 ≤ plateauStrain f ∧ plateauStrain f ≤ crushingStrain f ∧
    0.0026 ≤ crushingStrain f ∧ crushingStrain f ≤ 0.0035 ∧ 1.4 ≤ parabolaExponent f ∧ parabolaExponent f < 2 := by
  have a0 : (0:ℝ) ≤ (90 - f) / 100 := by linarith
  have a1 : (90 - f) / 100 < 0.4 := by norm_num at *; linarith
  have p0 : 0 ≤ ((90 - f) / 100) ^ 4 := by positivity
  have p1 : ((90 - f) / 100) ^ 4 < 0.4 ^ 4 := pow_lt_pow_left₀ a1 a0 (by norm_num)
  have r0 : 0 ≤ (f - 50) ^ (0.53:ℝ) := Real.rpow_nonneg (by linarith) _
  have r1 : (f - 50) ^ (0.53:ℝ) ≤ 7 := by
    have hle : (f - 50) ^ (0.53:ℝ) ≤ (39:ℝ) ^ (0.53:ℝ) := Real.rpow_le_rpow (by linarith) (by linarith) (by norm_num)
    refine hle.trans ?_
    have : (39:ℝ) ^ (0.53:ℝ) = ((39:ℝ) ^ (53:ℕ)) ^ ((1:ℝ) / 100) := by
      rw [← Real.rpow_natCast, ← Real.rpow_mul (by norm_num)]; norm_num
    rw [this]
    have h7 : (7:ℝ) = ((7:ℝ) ^ (100:ℕ)) ^ ((1:ℝ) / 100) := by
      rw [← Real.rpow_natCast, ← Real.rpow_mul (by norm_num)]; norm_num
    conv_rhs => rw [h7]
    exact Real.rpow_le_rpow (by positivity) (by norm_num) (by norm_num)
  unfold plateauStrain crushingStrain parabolaExponent
  norm_num at *
  refine ⟨?_, ?_, ?_, ?_, ?_, ?_⟩ <;> linarith

/-- **C84** (design). The same from the arguments of the material constructors, for concrete above C50 and up to 89 MPa.
Partial: see `C84_strength_partial`. -/
theorem C84_design_partial (hl : PyLower lower) (ccls : ConcClass) (hcls : ccls ≠ .ec2_2023) (ca : ConcArgs) (c : Built Conc)
    (hc : newConcrete lower ccls ca = some (.ok c)) (hcn : ca.law = .name "parabolarectangle")
    (hci : ca.initialStrain = none ∧ ca.initialStress = none) (hce : ca.eps_c2 = none ∧ ca.eps_cu2 = none ∧ ca.n = none)
    (hcf : 50 < |ca.fck| ∧ |ca.fck| ≤ 89)
    (scls : SteelClass) (sa : SteelArgs) (s : Built Steel)
    (hs : newSteel lower scls sa = some (.ok s)) (hsn : sa.law = .name "elasticperfectlyplastic")
    (hsi : sa.initialStrain = none ∧ sa.initialStress = none)
    (hgap : designYield sa + 1e-6 + 1e-5 * designUltimate scls sa ≤ designUltimate scls sa)
    {eu : ℝ} (heud : eu = designUltimate scls sa) (heu : 0.0035 ≤ eu ∧ eu ≤ 0.09)
    (split : Polygon → ℝ → ℝ → ShapelyResult) (ms : ℝ) (lu : Matrix (Fin 3) (Fin 3) ℝ → (Fin 3 → ℝ) → (Fin 3 → ℝ))
    (shapes : List (Polygon × Set (ℝ × ℝ))) (bars : List Bar) (id : ℕ) (hbars : ∀ b ∈ bars, b.law = ⟨id, s.mat.law⟩)
    (hA : ∀ b ∈ bars, 0 ≤ b.area)
    (henc : ∀ p ∈ shapes, Encloses p.1.ext p.1.ints p.2) (hull : ∀ p ∈ shapes, p.2 ⊆ convexHull ℝ {v | v ∈ p.1.ext})
    {th H H0 R L δ A fc e0 u k : ℝ} (hsplit : ∀ p ∈ shapes,
      SplitsExactly split ((p.1.rotate (-th)).rotate (-Real.pi)) (rotPt (-Real.pi) '' (rotPt (-th) '' p.2)))
    (hg0 : RCGeometry 0 shapes (bars.map fun b => (b.x, b.y)) H0) (hg : RCGeometry th shapes (bars.map fun b => (b.x, b.y)) H)
    (hR : ∀ p ∈ shapes, ∀ v ∈ p.1.ext, |height th v| ≤ R)
    (hfc : fc = designConcrete ccls ca) (hfc0 : 0 < fc) (he0 : e0 = plateauStrain |ca.fck|) (hu : u = crushingStrain |ca.fck|)
    (hk : k = parabolaExponent |ca.fck|) (hL : L = max (k * fc / e0) |sa.Es|)
    (hδ : δ = L * (grossArea shapes + (bars.map fun b => |b.area|).sum) * H) (hsmall : δ ≤ 1e22)
    (hAr : A = k * fc / e0 * u / 40 * grossArea shapes)
    {T : CrossSection} (hT : T = plateSection shapes bars (parabolaRectangle fc e0 k) u)
    {E : Engine} (hE : E = sectionEngine split ((parabolaParts fc e0 u k shapes).map PolyPart.solid) bars ms) :
    c.mat.law = (ParabolaRectangle.new fc e0 u k).law ∧
    (∀ p ∈ parabolaParts fc e0 u k shapes, ∀ a b, (ParabolaRectangle.new fc e0 u k).marinAny a b = .ok (p.law.marin a b)) ∧
    (limits E .fresh).2 = .ok (T.forces ![-u, 0, 0] 0, T.forces ![eu, 0, 0] 0) ∧
    (∃ C : Set ℝ, C.Countable ∧ ∀ (n : ℝ) (ops : List Op), Undisturbed E lu ops .fresh →
      (n < T.forces ![-u, 0, 0] 0 ∨ T.forces ![eu, 0, 0] 0 < n →
        (bendingStrength E th n (history E lu ops .fresh)).2 = .error .valueError) ∧
      (T.forces ![-u, 0, 0] 0 + δ * 1e-13 < n → n < T.forces ![eu, 0, 0] 0 - δ * 1e-13 →
        ∃ b : BendingResult, (bendingStrength E th n (history E lu ops .fresh)).2 = .ok b ∧ (n ∉ C → |b.n - n| ≤ 1e-2))) ∧
    ∀ (n : ℝ) (ops : List Op) (b : BendingResult), Undisturbed E lu ops .fresh →
      (bendingStrength E th n (history E lu ops .fresh)).2 = .ok b → ∃ c < 0, ∃ e, e = planeThrough th 0 b.eps_a c ∧
        ![b.eps_a, b.chi.1, b.chi.2] = e ∧ T.Admissible e ∧ T.AtLimit e ∧
        T.forces e 0 ≤ b.n ∧ b.n ≤ T.forces e 0 + A ∧
        |bendingMoment th ![b.n, b.m.1, b.m.2] - bendingMoment th (T.forces e)| ≤ R * A ∧
        ∀ v c, T.Admissible (planeThrough th 0 v c) → bendingMoment th (T.forces (planeThrough th 0 v c)) ≤
          bendingMoment th ![b.n, b.m.1, b.m.2] + R * |T.forces (planeThrough th 0 v c) 0 - b.n| + 2 * (R * A) := by
  obtain ⟨r1, r2, r3, r4, r5, r6⟩ := high_ranges hcf.1 hcf.2
  rw [← he0] at r1 r2
  rw [← hu] at r2 r3 r4
  rw [← hk] at r5 r6
  have q1 : 0 < e0 := by norm_num at *; linarith
  have q2 : 0 < u := by norm_num at *; linarith
  obtain ⟨hult, hst, hlip⟩ := C73_steel hl scls sa s hs hsn hsi.1 hsi.2 hgap
  rw [← heud] at hult hst
  refine ⟨?_, ?_⟩
  · rw [C84_concrete hl ccls hcls ca c hc hcn hci.1 hci.2 hce.1 hce.2.1 hce.2.2 hcf.1, hfc, he0, hu, hk]
  have a1 : |fc| = fc := abs_of_pos hfc0
  have a2 : |e0| = e0 := abs_of_pos q1
  have a3 : |u| = u := abs_of_pos q2
  have hce' : chordError fc e0 u k = k * fc / e0 * u / 40 := by rw [chordError, a1, a2, a3]
  have hyp : MonotoneOn s.mat.law.stress (Set.Icc (-eu) eu) := by
    intro x hx y hy hxy
    rw [hst x (abs_le.2 hx), hst y (abs_le.2 hy)]
    exact mul_le_mul_of_nonneg_left (max_le_max_left _ (min_le_min_right _ hxy)) (abs_nonneg _)
  have := C84_strength_partial split ms lu shapes bars (fc := fc) (e0 := e0) (u := u) (k := k) (eu := eu) (K := |sa.Es|) (L := L)
    (H := H) (H0 := H0) (R := R) (th := th) (δ := δ) (A := A) hfc0.ne' (by rw [a2]; exact q1) (by rw [a2, a3]; exact r2)
    (by rw [a3]; constructor <;> norm_num at * <;> linarith) (by norm_num at *; linarith) r6.ne hbars hult
    (by rw [a3]; exact ⟨r4.trans heu.1, by have := heu.1; norm_num at *; linarith, heu.2⟩) (by rw [hult] at hlip; exact hlip) hyp hA henc hull hsplit hg0 hg hR (by rw [a1, a2]; exact hL)
    hδ hsmall (by rw [hce']; exact hAr) (T := T) (by rw [a1, a2, a3]; exact hT) hE
  rw [a3] at this
  exact this

end SC
