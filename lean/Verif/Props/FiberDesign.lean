import Verif.Props.FiberOrdinary
import Verif.Props.AddedDesign

/-! # C80: sections of the design codes with both integrators -/

set_option autoImplicit false

namespace SC

open Spec MeasureTheory MeshedConcrete

variable {lower : String → String}

/-- The parts of `normalParts` with their triangles; `id` is the identity of the concrete object. -/
noncomputable def normalMeshed (fc : ℝ) (shapes : List (Polygon × Set (ℝ × ℝ))) (id : ℕ)
    (mesh : Polygon × Set (ℝ × ℝ) → ℝ → List ((ℝ × ℝ) × (ℝ × ℝ) × (ℝ × ℝ))) : List MeshedConcrete :=
  shapes.map fun s => ⟨⟨s.1, s.2, fc, 0.002, 0.0035⟩, id, mesh s⟩

theorem normalMeshed_part (fc : ℝ) (shapes : List (Polygon × Set (ℝ × ℝ))) (id : ℕ)
    (mesh : Polygon × Set (ℝ × ℝ) → ℝ → List ((ℝ × ℝ) × (ℝ × ℝ) × (ℝ × ℝ))) :
    (normalMeshed fc shapes id mesh).map MeshedConcrete.part = normalParts fc shapes := by
  simp only [normalMeshed, normalParts, List.map_map, Function.comp_def]

set_option maxHeartbeats 1000000 in
/-- **C80** (design, partial: the loads of C73). For a section of normal strength concrete with bars of one perfectly plastic steel and
every axial load between the limit loads (up to a margin, and except countably many loads), both integrators return a bending strength,
and the two differ by at most `R` times the tolerances of the searches and an error that vanishes with the square root of the relative
triangle size. -/
theorem C80_design_partial (hl : PyLower lower) (ccls : ConcClass) (ca : ConcArgs) (c : Built Conc)
    (hc : newConcrete lower ccls ca = some (.ok c)) (hcn : ca.law = .name "parabolarectangle")
    (hci : ca.initialStrain = none ∧ ca.initialStress = none) (hce : ca.eps_c2 = none ∧ ca.eps_cu2 = none ∧ ca.n = none)
    (hcf : ccls ≠ .ec2_2023 → |ca.fck| ≤ 50)
    (scls : SteelClass) (sa : SteelArgs) (s : Built Steel)
    (hs : newSteel lower scls sa = some (.ok s)) (hsn : sa.law = .name "elasticperfectlyplastic")
    (hsi : sa.initialStrain = none ∧ sa.initialStress = none)
    (hgap : designYield sa + 1e-6 + 1e-5 * designUltimate scls sa ≤ designUltimate scls sa)
    (heu : 0.0035 ≤ designUltimate scls sa ∧ designUltimate scls sa ≤ 0.09)
    (split : Polygon → ℝ → ℝ → ShapelyResult) (turned : ℝ → List MeshSurf) {ms : ℝ} (hms : 0 < ms) (hms1 : ms ≤ 1) (ms' th : ℝ)
    (lu lu' : Matrix (Fin 3) (Fin 3) ℝ → (Fin 3 → ℝ) → (Fin 3 → ℝ))
    (shapes : List (Polygon × Set (ℝ × ℝ))) (bars : List Bar) (id : ℕ) (hbars : ∀ b ∈ bars, b.law = ⟨id, s.mat.law⟩)
    (hA : ∀ b ∈ bars, 0 ≤ b.area) (idc : ℕ) (mesh : Polygon × Set (ℝ × ℝ) → ℝ → List ((ℝ × ℝ) × (ℝ × ℝ) × (ℝ × ℝ)))
    (hmesh : ∀ p ∈ shapes, Triangulates (mesh p (areaMoment 0 0 p.2 * ms)) p.2 ∧
      Quality (areaMoment 0 0 p.2 * ms) (mesh p (areaMoment 0 0 p.2 * ms)))
    (henc : ∀ p ∈ shapes, Encloses p.1.ext p.1.ints p.2) (hull : ∀ p ∈ shapes, p.2 ⊆ convexHull ℝ {v | v ∈ p.1.ext})
    (hsplit : ∀ p ∈ shapes,
      SplitsExactly split ((p.1.rotate (-th)).rotate (-Real.pi)) (rotPt (-Real.pi) '' (rotPt (-th) '' p.2)))
    {H H0 R D : ℝ} (hg0 : RCGeometry 0 shapes (bars.map fun b => (b.x, b.y)) H0)
    (hg : RCGeometry th shapes (bars.map fun b => (b.x, b.y)) H)
    (hR : ∀ p ∈ shapes, ∀ v ∈ p.1.ext, |height th v| ≤ R)
    (hD0 : 0 < D) (hD : ∃ b ∈ bars, ∃ p ∈ shapes, ∃ w ∈ p.1.ext, D ≤ height th w - height th (b.x, b.y))
    (fc : ℝ) (hfc : fc = designConcrete ccls ca) (δ : ℝ)
    (hδ : δ = max (2 * |fc| / 0.002) |sa.Es| * ((shapes.map fun p => areaMoment 0 0 p.2).sum + (bars.map fun b => |b.area|).sum) * H)
    (hsmall : δ ≤ 1e22) (S : CrossSection) (hS : S = concreteSection (normalParts fc shapes) bars)
    (E E' : Engine) (hE : E = engine turned (normalMeshed fc shapes idc mesh) bars ms)
    (hE' : E' = sectionEngine split ((normalParts fc shapes).map ConcretePart.solid) bars ms')
    (m : ℝ) (hm : m = (δ + 2 * (√ms * weight (normalParts fc shapes) 0)) * 1e-13) :
    (∀ q ∈ normalMeshed fc shapes idc mesh, q.part.law.law = c.mat.law) ∧
    ∃ C : Set ℝ, C.Countable ∧ ∀ (n : ℝ) (ops ops' : List Op), n ∉ C → (ops = [] ∨ ms = defaultMesh) → Undisturbed E lu ops .fresh →
      Undisturbed E' lu' ops' .fresh →
      S.forces ![-0.0035, 0, 0] 0 + m < n → n < S.forces ![designUltimate scls sa, 0, 0] 0 - m →
        ∃ b b' : BendingResult, (bendingStrength E th n (history E lu ops .fresh)).2 = .ok b ∧
          (bendingStrength E' th n (history E' lu' ops' .fresh)).2 = .ok b' ∧
          |bendingMoment th ![b.n, b.m.1, b.m.2] - bendingMoment th ![b'.n, b'.m.1, b'.m.2]| ≤
            R * 2e-2 + momentWeight (normalParts fc shapes) th 0.0035 (designUltimate scls sa) D R * √ms := by
  have hlaw := C73_concrete hl ccls ca c hc hcn hci.1 hci.2 hce.1 hce.2.1 hce.2.2 hcf
  obtain ⟨hult, hst, hlip⟩ := C73_steel hl scls sa s hs hsn hsi.1 hsi.2 hgap
  have hHpos : 0 < H := by linarith [hg.size.1, show (0:ℝ) < 1e-3 by norm_num]
  have hW := weight_nonneg (normalParts fc shapes) 0
  have hA1 : 0 ≤ (shapes.map fun p => areaMoment 0 0 p.2).sum := by
    refine List.sum_nonneg fun x hx => ?_
    obtain ⟨p, -, rfl⟩ := List.mem_map.1 hx
    simp only [areaMoment, pow_zero, mul_one]
    exact integral_nonneg fun _ => by norm_num
  have hA2 : 0 ≤ (bars.map fun b => |b.area|).sum := List.sum_nonneg fun x hx => by
    obtain ⟨b, -, rfl⟩ := List.mem_map.1 hx; exact abs_nonneg _
  set δ' := (2 * |fc| / 0.002 * (shapes.map fun p => areaMoment 0 0 p.2).sum + |sa.Es| * (bars.map fun b => |b.area|).sum) * H with hδ'
  have hδle : δ' ≤ δ := by
    rw [hδ, hδ', mul_add (max _ _)]
    refine mul_le_mul_of_nonneg_right (add_le_add ?_ ?_) hHpos.le
    · exact mul_le_mul_of_nonneg_right (le_max_left _ _) hA1
    · exact mul_le_mul_of_nonneg_right (le_max_right _ _) hA2
  obtain ⟨hpl, C1, hC1, m1⟩ := C73_design_partial hl ccls ca c hc hcn hci hce hcf scls sa s hs hsn hsi hgap heu split ms' th lu' shapes bars id
    hbars henc hull hsplit hg0 hg fc hfc δ' hδ' (hδle.trans hsmall) S hS E' hE'
  set qs := normalMeshed fc shapes idc mesh with hqs
  have hpart : qs.map MeshedConcrete.part = normalParts fc shapes := normalMeshed_part ..
  have hq : ∀ q ∈ qs, ∃ p ∈ shapes, q = ⟨⟨p.1, p.2, fc, 0.002, 0.0035⟩, idc, mesh p⟩ := by
    intro q hq
    obtain ⟨p, hp, rfl⟩ := List.mem_map.1 hq
    exact ⟨p, hp, rfl⟩
  have hok : ∀ q ∈ qs, q.part.Ok split th := by
    intro q hq'
    obtain ⟨p, hp, rfl⟩ := hq q hq'
    exact ⟨henc p hp, hull p hp, hsplit p hp, by norm_num, by norm_num [abs_of_pos]⟩
  have hfine : ∀ q ∈ qs, q.Fine ms := by
    intro q hq'
    obtain ⟨p, hp, rfl⟩ := hq q hq'
    exact ⟨(hmesh p hp).1, (hmesh p hp).2⟩
  have hmono : ∀ b ∈ bars, MonotoneOn b.law.law.stress (Set.Icc (b.law.law.ult false).1 (b.law.law.ult false).2) := by
    intro b hb
    rw [hbars b hb]
    intro x hx y hy hxy
    simp only [hult] at hx hy
    rw [hst x (abs_le.2 hx), hst y (abs_le.2 hy)]
    exact mul_le_mul_of_nonneg_left (max_le_max_left _ (min_le_min_right _ hxy)) (abs_nonneg _)
  have hRC := hg.ordinary (fc := fc) (L := ⟨id, s.mat.law⟩) hbars hult heu.1 heu.2
  have hRC0 := hg0.ordinary (fc := fc) (L := ⟨id, s.mat.law⟩) hbars hult heu.1 heu.2
  rw [← hpart] at hRC hRC0
  have hmod : totalModulus (qs.map MeshedConcrete.part) bars (max (2 * |fc| / 0.002) |sa.Es|) * H = δ := by
    rw [hδ, hpart]
    simp only [totalModulus, normalParts, List.map_map, Function.comp_def]
  obtain ⟨-, C2, hC2, m2⟩ := C80_strength_partial turned qs hms hms1 lu hRC0 hRC (fun q hq => (hok q hq).sound) hfine (single_ids hbars)
    (L := max (2 * |fc| / 0.002) |sa.Es|) ((abs_nonneg sa.Es).trans (le_max_right _ _)) (by
      intro q hq'
      obtain ⟨p, hp, rfl⟩ := hq q hq'
      rw [abs_of_pos (by norm_num : (0:ℝ) < 0.002)]
      exact le_max_left _ _) (by
      intro b hb x hx y hy
      rw [hbars b hb] at hx hy ⊢
      exact (hlip x hx y hy).trans (mul_le_mul_of_nonneg_right (le_max_right _ _) (abs_nonneg _)))
    (by rw [hmod]; exact hsmall) (S := S) (by rw [hS, hpart]) (δ := δ + 2 * (√ms * weight (normalParts fc shapes) 0))
    (by rw [hmod, hpart]) (E := E) hE
  refine ⟨fun q hq' => ?_, C1 ∪ C2, hC1.union hC2, fun n ops ops' hn hops hun hun' hlo hhi => ?_⟩
  · obtain ⟨p, hp, rfl⟩ := hq q hq'
    rw [hlaw, hfc]
    rfl
  have hmle : δ' * 1e-13 ≤ m := by
    rw [hm]
    have : 0 ≤ √ms * weight (normalParts fc shapes) 0 := mul_nonneg (Real.sqrt_nonneg _) hW
    refine mul_le_mul_of_nonneg_right ?_ (by norm_num)
    linarith
  obtain ⟨b', hb', -, -, -, -, htol'⟩ := (m1 n ops' hun').2 (by linarith) (by linarith)
  obtain ⟨b, hb, htol⟩ := (m2 n ops hops hun).2 (by rw [← hm]; exact hlo) (by rw [← hm]; exact hhi)
  refine ⟨b, b', hb, hb', ?_⟩
  have t1 := htol fun hm => hn (Or.inr hm)
  have t2 := htol' fun hm => hn (Or.inl hm)
  rw [hE] at hun hb
  rw [hE', ← hpart] at hun' hb'
  have hR' : ∀ q ∈ qs, ∀ v ∈ q.part.polygon.ext, |height th v| ≤ R := by
    intro q hq'
    obtain ⟨p, hp, rfl⟩ := hq q hq'
    exact hR p hp
  have key := C80_agree hms hms1 hRC hok hfine (single_ids hbars) (single_sizes hbars) hA hmono hD0 (by
      obtain ⟨x, hx, p, hp, w, hw, hle⟩ := hD
      exact ⟨x, hx, ⟨⟨p.1, p.2, fc, 0.002, 0.0035⟩, idc, mesh p⟩, List.mem_map_of_mem hp, w, hw, hle⟩) hR' n n ops ops' b b' hops hun hb hun' hb'
  have hR0 := (hRC.sound_within (R := R) (by
      intro p hp
      obtain ⟨q, hq', rfl⟩ := List.mem_map.1 hp
      exact (hok q hq').sound) (by
      intro p hp
      obtain ⟨q, hq', rfl⟩ := List.mem_map.1 hp
      exact hR' q hq')).2
  have hdiff : |b.n - b'.n| ≤ 2e-2 := by
    have : b.n - b'.n = (b.n - n) - (b'.n - n) := by ring
    rw [this]
    refine (abs_sub _ _).trans ?_
    norm_num at *
    linarith
  have := mul_le_mul_of_nonneg_left hdiff hR0
  rw [hpart] at key
  linarith

end SC
