import Verif.Props.ScalingConcrete
import Verif.Props.OrdinaryExample

/-! # C90: Marin integrals; a section of the same materials and another size -/

set_option autoImplicit false

namespace SC

open Spec MeasureTheory

theorem marinEdge_scaled (m n : ℕ) (l y0 z0 y1 z1 : ℝ) :
    marinEdge m n (l * y0) (l * z0) (l * y1) (l * z1) = l ^ (m + n + 2) * marinEdge m n y0 z0 y1 z1 := by
  have hc : (∑ j ∈ Finset.range (m + 1), (∑ k ∈ Finset.range (n + 1), (marinCoeff m n j k : ℝ) * (l * z0) ^ (n - k) * (l * z1) ^ k) *
      (l * y0) ^ (m - j) * (l * y1) ^ j) = l ^ (m + n) *
      ∑ j ∈ Finset.range (m + 1), (∑ k ∈ Finset.range (n + 1), (marinCoeff m n j k : ℝ) * z0 ^ (n - k) * z1 ^ k) * y0 ^ (m - j) * y1 ^ j := by
    rw [Finset.mul_sum]
    refine Finset.sum_congr rfl fun j hj => ?_
    have hj' : m - j + j = m := Nat.sub_add_cancel (Nat.lt_succ_iff.1 (Finset.mem_range.1 hj))
    have hin : (∑ k ∈ Finset.range (n + 1), (marinCoeff m n j k : ℝ) * (l * z0) ^ (n - k) * (l * z1) ^ k) =
        l ^ n * ∑ k ∈ Finset.range (n + 1), (marinCoeff m n j k : ℝ) * z0 ^ (n - k) * z1 ^ k := by
      rw [Finset.mul_sum]
      refine Finset.sum_congr rfl fun k hk => ?_
      have hk' : n - k + k = n := Nat.sub_add_cancel (Nat.lt_succ_iff.1 (Finset.mem_range.1 hk))
      have e : l ^ n = l ^ (n - k) * l ^ k := by rw [← pow_add, hk']
      rw [mul_pow, mul_pow, e]
      ring
    have e : l ^ m = l ^ (m - j) * l ^ j := by rw [← pow_add, hj']
    rw [hin, mul_pow, mul_pow, pow_add, e]
    ring
  simp only [marinEdge]
  rw [hc, pow_add l (m + n) 2]
  ring

/-- **C90** (Marin integrals). -/
theorem C90_marin (s : Scale) (poly : List (ℝ × ℝ)) (m n : ℕ) :
    marin (poly.map s.point) m n = s.len ^ (m + n + 2) * marin poly m n := by
  simp only [marin, List.length_map, mul_div_assoc', Finset.mul_sum]
  congr 1
  refine Finset.sum_congr rfl fun i hi => ?_
  have hg : ∀ i, (poly.map s.point).getD i 0 = s.point (poly.getD i 0) := by
    intro i
    have z : s.point 0 = 0 := by simp [Scale.point]
    rw [List.getD_eq_getElem?_getD, List.getD_eq_getElem?_getD, List.getElem?_map]
    cases poly[i]? <;> simp [z]
  rw [hg, hg]
  exact marinEdge_scaled ..

variable {lower : String → String}

/-- **C90** for the constructor arguments (partial as C73): ordinary reinforced concrete of the given materials, and the section with all
lengths multiplied by `k` (bar areas by its square) - a larger member, or the same member in other units of length. -/
theorem C90_design_partial (hl : PyLower lower) (ccls : ConcClass) (ca : ConcArgs) (c : Built Conc)
    (hc : newConcrete lower ccls ca = some (.ok c)) (hcn : ca.law = .name "parabolarectangle")
    (hci : ca.initialStrain = none ∧ ca.initialStress = none) (hce : ca.eps_c2 = none ∧ ca.eps_cu2 = none ∧ ca.n = none)
    (hcf : ccls ≠ .ec2_2023 → |ca.fck| ≤ 50)
    (scls : SteelClass) (sa : SteelArgs) (s : Built Steel)
    (hs : newSteel lower scls sa = some (.ok s)) (hsn : sa.law = .name "elasticperfectlyplastic")
    (hsi : sa.initialStrain = none ∧ sa.initialStress = none)
    (hgap : designYield sa + 1e-6 + 1e-5 * designUltimate scls sa ≤ designUltimate scls sa)
    (heu : 0.0035 ≤ designUltimate scls sa ∧ designUltimate scls sa ≤ 0.09)
    (split split' : Polygon → ℝ → ℝ → ShapelyResult) (ms ms' th : ℝ) (lu lu' : Matrix (Fin 3) (Fin 3) ℝ → (Fin 3 → ℝ) → (Fin 3 → ℝ))
    (shapes : List (Polygon × Set (ℝ × ℝ))) (bars : List Bar) (id : ℕ) (hbars : ∀ b ∈ bars, b.law = ⟨id, s.mat.law⟩)
    (hA : ∀ b ∈ bars, 0 ≤ b.area)
    (henc : ∀ p ∈ shapes, Encloses p.1.ext p.1.ints p.2) (hull : ∀ p ∈ shapes, p.2 ⊆ convexHull ℝ {v | v ∈ p.1.ext})
    (hsplit : ∀ p ∈ shapes,
      SplitsExactly split ((p.1.rotate (-th)).rotate (-Real.pi)) (rotPt (-Real.pi) '' (rotPt (-th) '' p.2)))
    (sc : Scale) (hsc : sc.stress = 1)
    (hsplit' : ∀ p ∈ shapes, SplitsExactly split'
      (((Polygon.mk (p.1.ext.map sc.point) (p.1.ints.map (List.map sc.point))).rotate (-th)).rotate (-Real.pi))
      (rotPt (-Real.pi) '' (rotPt (-th) '' (sc.point '' p.2))))
    {H H0 R : ℝ} (hg0 : RCGeometry 0 shapes (bars.map fun b => (b.x, b.y)) H0)
    (hg : RCGeometry th shapes (bars.map fun b => (b.x, b.y)) H)
    (hH0 : 1e-3 ≤ sc.len * H0 ∧ sc.len * H0 ≤ 1e9) (hH : 1e-3 ≤ sc.len * H ∧ sc.len * H ≤ 1e9)
    (hR : ∀ p ∈ shapes, ∀ v ∈ p.1.ext, |height th v| ≤ R)
    (fc : ℝ) (hfc : fc = designConcrete ccls ca) (δ : ℝ)
    (hδ : δ = (2 * |fc| / 0.002 * (shapes.map fun p => areaMoment 0 0 p.2).sum + |sa.Es| * (bars.map fun b => |b.area|).sum) * H)
    (hsmall : δ ≤ 1e22) (hsmall' : sc.len ^ 3 * δ ≤ 1e22) (S : CrossSection) (hS : S = concreteSection (normalParts fc shapes) bars)
    (E E' : Engine) (hE : E = sectionEngine split ((normalParts fc shapes).map ConcretePart.solid) bars ms)
    (hE' : E' = sectionEngine split' ((normalParts fc (shapes.map fun p =>
      (⟨p.1.ext.map sc.point, p.1.ints.map (List.map sc.point)⟩, sc.point '' p.2))).map ConcretePart.solid)
      (bars.map fun b => ⟨sc.len * b.x, sc.len * b.y, sc.len ^ 2 * b.area, b.law⟩) ms') :
    (∃ lo hi : ℝ, (limits E .fresh).2 = .ok (lo, hi) ∧ (limits E' .fresh).2 = .ok (sc.len ^ 2 * lo, sc.len ^ 2 * hi)) ∧
    ∃ C : Set ℝ, C.Countable ∧ ∀ n ∉ C, ∀ (ops ops' : List Op), Undisturbed E lu ops .fresh → Undisturbed E' lu' ops' .fresh →
      S.forces ![-0.0035, 0, 0] 0 + max 1 sc.len * δ * 1e-13 < n →
      n < S.forces ![designUltimate scls sa, 0, 0] 0 - max 1 sc.len * δ * 1e-13 →
      ∃ b b' : BendingResult, (bendingStrength E th n (history E lu ops .fresh)).2 = .ok b ∧
        (bendingStrength E' th (sc.len ^ 2 * n) (history E' lu' ops' .fresh)).2 = .ok b' ∧
        |b'.n - sc.len ^ 2 * b.n| ≤ (1 + sc.len ^ 2) * 1e-2 ∧
        |bendingMoment th ![b'.n, b'.m.1, b'.m.2] - sc.len ^ 3 * bendingMoment th ![b.n, b.m.1, b.m.2]| ≤
          sc.len * R * ((1 + sc.len ^ 2) * 1e-2) := by
  have hlaw := C73_concrete hl ccls ca c hc hcn hci.1 hci.2 hce.1 hce.2.1 hce.2.2 hcf
  obtain ⟨hult, hst, hlip⟩ := C73_steel hl scls sa s hs hsn hsi.1 hsi.2 hgap
  have hr : OrdinaryRC.axialRigidity (normalParts fc shapes) bars |sa.Es| * H = δ := by
    have e1 : (shapes.map fun p => 2 * |fc| / |(0.002:ℝ)| * areaMoment 0 0 p.2).sum =
        2 * |fc| / 0.002 * (shapes.map fun p => areaMoment 0 0 p.2).sum := by
      rw [List.sum_map_mul_left, abs_of_pos (by norm_num : (0:ℝ) < 0.002)]
    have e2 : (bars.map fun b => |sa.Es| * |b.area|).sum = |sa.Es| * (bars.map fun b => |b.area|).sum := List.sum_map_mul_left ..
    rw [hδ, OrdinaryRC.axialRigidity, e2, ← e1]
    simp only [normalParts, List.map_map, Function.comp_def]
  have hok : ∀ p ∈ normalParts fc shapes, p.Ok split th := by
    intro p hp
    obtain ⟨q, hq, rfl⟩ := List.mem_map.1 hp
    exact ⟨henc q hq, hull q hq, hsplit q hq, by norm_num, by norm_num [abs_of_pos]⟩
  have hok' : ∀ p ∈ normalParts fc shapes, (p.scaled sc).Ok split' th := by
    intro p hp
    refine ok_scaled sc (hok p hp) ?_
    obtain ⟨q, hq, rfl⟩ := List.mem_map.1 hp
    exact hsplit' q hq
  have hparts : normalParts fc (shapes.map fun p =>
      ((⟨p.1.ext.map sc.point, p.1.ints.map (List.map sc.point)⟩, sc.point '' p.2) : Polygon × Set (ℝ × ℝ))) =
      (normalParts fc shapes).map (ConcretePart.scaled sc) := by
    simp only [normalParts, List.map_map]
    refine List.map_congr_left fun p _ => ?_
    simp only [Function.comp_apply, ConcretePart.scaled, hsc, one_mul]
  have hb : List.Forall₂ (Bar.ScaledTo sc) bars (bars.map (Bar.scaled sc)) := by
    rw [List.forall₂_map_right_iff, List.forall₂_same]
    exact fun b _ => ⟨rfl, rfl, rfl, fun e => by rw [hsc, one_mul]; rfl, rfl⟩
  have hbars' : ∀ b ∈ bars.map (Bar.scaled sc), b.law = ⟨id, s.mat.law⟩ := by
    intro b' hb'
    obtain ⟨b, hb1, rfl⟩ := List.mem_map.1 hb'
    exact hbars b hb1
  have hE'2 : E' = sectionEngine split' (((normalParts fc shapes).map (ConcretePart.scaled sc)).map ConcretePart.solid)
      (bars.map (Bar.scaled sc)) ms' := by
    rw [hE', hparts]
    rfl
  have h0 := hg0.ordinary (fc := fc) hbars hult heu.1 heu.2
  have h := hg.ordinary (fc := fc) hbars hult heu.1 heu.2
  subst hE hE'2 hS
  constructor
  · have := C90_limits split split' ms ms' sc h0 hb hH0 (by
      intro p hp
      obtain ⟨q, hq, rfl⟩ := List.mem_map.1 hp
      exact ⟨henc q hq, by norm_num, by norm_num [abs_of_pos]⟩) (single_ids hbars) (single_sizes hbars) (single_ids hbars')
      (single_sizes hbars')
    simpa only [hsc, one_mul] using this
  · have hδ0 : 0 ≤ δ := by
      rw [hδ]
      refine mul_nonneg (add_nonneg (mul_nonneg (by positivity) (List.sum_nonneg ?_)) (mul_nonneg (abs_nonneg _) (List.sum_nonneg ?_))) (by
        linarith [hg.size.1])
      · intro x hx
        obtain ⟨p, -, rfl⟩ := List.mem_map.1 hx
        simp only [areaMoment, pow_zero, mul_one]
        exact integral_nonneg fun _ => zero_le_one
      · intro x hx
        obtain ⟨p, -, rfl⟩ := List.mem_map.1 hx
        exact abs_nonneg _
    have := C90_load_partial split split' ms ms' sc lu lu' h0 h hb hH0 hH hok hok' (single_ids hbars) (single_sizes hbars)
      (single_ids hbars') (single_sizes hbars') hA (by
        intro b hb1
        rw [hbars b hb1]
        intro x hx y hy hxy
        simp only [hult] at hx hy
        rw [hst x (abs_le.2 hx), hst y (abs_le.2 hy)]
        exact mul_le_mul_of_nonneg_left (max_le_max_left _ (min_le_min_right _ hxy)) (abs_nonneg _)) (abs_nonneg sa.Es) (by
        intro b hb1
        rw [hbars b hb1]
        exact hlip) (by rw [hr]; exact hsmall) (by rw [hr, hsc, one_mul]; exact hsmall') (R := R) (by
        intro p hp
        obtain ⟨q, hq, rfl⟩ := List.mem_map.1 hp
        exact hR q hq) (δ := max 1 sc.len * δ * 1e-13) (by
        rw [hr]
        refine mul_le_mul_of_nonneg_right ?_ (by norm_num)
        exact le_mul_of_one_le_left hδ0 (le_max_left _ _)) (by
        rw [hr]
        exact mul_le_mul_of_nonneg_right (mul_le_mul_of_nonneg_right (le_max_right _ _) hδ0) (by norm_num))
    simpa only [hsc, one_mul] using this

namespace OrdinaryBeam

/-- Twice the size. -/
noncomputable def twice : Scale := ⟨2, 1, by norm_num, one_pos⟩

theorem twice_ring : (rectRing (-150) 150 (-250) 250).map twice.point = rectRing (-300) 300 (-500) 500 := by
  simp only [rectRing, closeRing, List.cons_append, List.nil_append, List.take_succ_cons, List.take_zero, List.map_cons, List.map_nil,
    Scale.point, twice]
  norm_num

theorem twice_region : twice.point '' (Set.Icc (-150:ℝ) 150 ×ˢ Set.Icc (-250:ℝ) 250) = Set.Icc (-300:ℝ) 300 ×ˢ Set.Icc (-500:ℝ) 500 := by
  ext ⟨x, y⟩
  simp only [Set.mem_image, Set.mem_prod, Set.mem_Icc, Prod.exists, Scale.point, twice, Prod.mk.injEq]
  constructor
  · rintro ⟨a, b, ⟨⟨h1, h2⟩, h3, h4⟩, rfl, rfl⟩
    constructor <;> constructor <;> linarith
  · rintro ⟨⟨h1, h2⟩, h3, h4⟩
    exact ⟨x / 2, y / 2, ⟨⟨by linarith, by linarith⟩, by linarith, by linarith⟩, by ring, by ring⟩

/-- The hypotheses of `C90_design_partial` hold for every combination of concrete and steel class, C30 and B500, and the beam of twice
the size has eight times the strength in pure bending, up to the tolerances of the searches. -/
theorem twice_the_size (hl : PyLower lower) (ccls : ConcClass) (scls : SteelClass) :
    ∃ c s, newConcrete lower ccls (defaultArgs 30) = some (.ok c) ∧ newSteel lower scls sargs = some (.ok s) ∧
    ∃ C : Set ℝ, C.Countable ∧ (0 ∉ C → ∃ b b' : BendingResult,
      (bendingStrength (sectionEngine RCBeam.split ((normalParts (designConcrete ccls (defaultArgs 30)) shapes).map
        ConcretePart.solid) (bars s.mat.law) 0.01) 0 0 .fresh).2 = .ok b ∧
      (bendingStrength (sectionEngine (rectSplit (-300) 300 (-500) 500) ((normalParts (designConcrete ccls (defaultArgs 30))
        [(⟨rectRing (-300) 300 (-500) 500, []⟩, Set.Icc (-300) 300 ×ˢ Set.Icc (-500) 500)]).map ConcretePart.solid)
        ((bars s.mat.law).map fun b => ⟨2 * b.x, 2 * b.y, 4 * b.area, b.law⟩) 0.01) 0 0 .fresh).2 = .ok b' ∧
      |bendingMoment 0 ![b'.n, b'.m.1, b'.m.2] - 8 * bendingMoment 0 ![b.n, b.m.1, b.m.2]| ≤ 25) := by
  obtain ⟨c, s, hc, hs⟩ := accepted hl ccls scls
  refine ⟨c, s, hc, hs, ?_⟩
  have hu := ultimate_range scls
  obtain ⟨m1, m2, m3⟩ := margins_wide hl ccls scls s hs _ rfl _ rfl
  obtain ⟨-, C, hC, hmain⟩ := C90_design_partial hl ccls (defaultArgs 30) c hc rfl ⟨rfl, rfl⟩ ⟨rfl, rfl, rfl⟩
    (fun _ => by norm_num [defaultArgs, abs_of_pos]) scls sargs s hs rfl ⟨rfl, rfl⟩ (gap scls) ⟨by linarith [hu.1], by linarith [hu.2]⟩
    RCBeam.split (rectSplit (-300) 300 (-500) 500) 0.01 0.01 0 (fun _ _ => 0) (fun _ _ => 0) shapes (bars s.mat.law) 1 (one_steel _)
    (by intro b hb; simp only [bars, bar, List.mem_cons, List.not_mem_nil, or_false] at hb; rcases hb with rfl | rfl | rfl | rfl <;> norm_num)
    (by intro p hp; rw [List.mem_singleton.1 hp]; exact RCBeam.ok.encloses)
    (by intro p hp; rw [List.mem_singleton.1 hp]; exact hull)
    (by intro p hp; rw [List.mem_singleton.1 hp]; exact RCBeam.ok.splits) twice rfl
    (by
      intro p hp
      rw [List.mem_singleton.1 hp]
      simp only [List.map_nil]
      rw [twice_ring, twice_region]
      have h0 : rotPt (-0) '' (Set.Icc (-300:ℝ) 300 ×ˢ Set.Icc (-500:ℝ) 500) = Set.Icc (-300:ℝ) 300 ×ˢ Set.Icc (-500:ℝ) 500 := by
        rw [neg_zero, show rotPt 0 = id from funext rotPt_zero, Set.image_id]
      have : rotPt (-Real.pi) '' (Set.Icc (-300:ℝ) 300 ×ˢ Set.Icc (-500:ℝ) 500) = Set.Icc (-300:ℝ) 300 ×ˢ Set.Icc (-500:ℝ) 500 := by
        ext x
        constructor
        · rintro ⟨y, ⟨h1, h2⟩, rfl⟩
          rw [RCBeam.rot_pi]
          exact ⟨⟨by linarith [h1.2], by linarith [h1.1]⟩, ⟨by linarith [h2.2], by linarith [h2.1]⟩⟩
        · rintro ⟨h1, h2⟩
          refine ⟨(-x.1, -x.2), ⟨⟨by linarith [h1.2], by linarith [h1.1]⟩, ⟨by linarith [h2.2], by linarith [h2.1]⟩⟩, ?_⟩
          rw [RCBeam.rot_pi]; simp
      rw [h0, this]
      exact rectSplit_exact (by norm_num) _)
    (geometry _) (geometry _) (by norm_num [twice]) (by norm_num [twice]) (R := 250) (by
      intro p hp v hv
      rw [List.mem_singleton.1 hp] at hv
      rw [RCBeam.height_zero]
      rcases mem_ring hv with rfl | rfl | rfl | rfl <;> norm_num [abs_le]) _ rfl _ rfl (m1.trans (by norm_num)) (by
      simp only [twice]; linarith) _ rfl _ _ rfl rfl
  refine ⟨C, hC, fun h0 => ?_⟩
  have e1 : max 1 twice.len = 2 := max_eq_right (by norm_num [twice])
  obtain ⟨b, b', hb, hb', -, hM⟩ := hmain 0 h0 [] [] trivial trivial (by rw [e1]; linarith) (by rw [e1]; linarith)
  simp only [shapes, List.map_cons, List.map_nil, twice_ring, twice_region, mul_zero] at hb'
  simp only [twice] at hb' hM
  norm_num at hb' hM
  exact ⟨b, b', hb, hb', hM.trans (by norm_num)⟩

end OrdinaryBeam

end SC
