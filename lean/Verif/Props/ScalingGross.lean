import Verif.Props.ScalingConcrete
import Verif.Props.Gross

/-! # C90: gross properties -/

set_option autoImplicit false

namespace SC

open Spec MeasureTheory

/-- The polygon with all coordinates times `len`. -/
def Polygon.scaled (s : Scale) (p : Polygon) : Polygon := ⟨p.ext.map s.point, p.ints.map (List.map s.point)⟩

/-- `p'` is the scaled surface `p`; moduli times `stress`, densities times `dens`. -/
structure PartScaledTo (s : Scale) (dens : ℝ) (p p' : GSurf × Set (ℝ × ℝ)) : Prop where
  poly : p'.1.poly = p.1.poly.scaled s
  region : p'.2 = s.point '' p.2
  modulus : initialModulus p'.1.mat = s.stress * initialModulus p.1.mat
  density : p'.1.mat.density = dens * p.1.mat.density

/-- `b'` is the scaled bar `b`. -/
structure GBarScaledTo (s : Scale) (dens : ℝ) (b b' : GBar) : Prop where
  pt : b'.pt = s.point b.pt
  area : b'.area = s.len ^ 2 * b.area
  modulus : initialModulus b'.mat = s.stress * initialModulus b.mat
  density : b'.mat.density = dens * b.mat.density

/-- Integrals over the scaled body. -/
theorem body_scaled (s : Scale) (dens k c : ℝ) {w : Material → ℝ} {parts parts' : List (GSurf × Set (ℝ × ℝ))} {bars bars' : List GBar}
    (hp : List.Forall₂ (PartScaledTo s dens) parts parts') (hb : List.Forall₂ (GBarScaledTo s dens) bars bars')
    (hw : ∀ p p', PartScaledTo s dens p p' → w p'.1.mat = k * w p.1.mat) (hw' : ∀ b b', GBarScaledTo s dens b b' → w b'.mat = k * w b.mat)
    {g g' : ℝ × ℝ → ℝ} (hg : ∀ x, g' (s.point x) = c * g x) :
    (sectionBody w parts' bars').integral g' = k * s.len ^ 2 * c * (sectionBody w parts bars).integral g := by
  simp only [Body.integral, sectionBody, List.map_map, mul_add]
  congr 1
  · induction hp with
    | nil => simp
    | cons h _ ih =>
      simp only [List.map_cons, List.sum_cons, mul_add, Function.comp_apply] at ih ⊢
      rw [ih, hw _ _ h, h.region, integral_scaled]
      simp only [hg]
      rw [integral_const_mul]
      ring
  · induction hb with
    | nil => simp
    | cons h _ ih =>
      simp only [List.map_cons, List.sum_cons, mul_add, Function.comp_apply] at ih ⊢
      rw [ih, hw' _ _ h, h.area, h.pt, hg]
      ring

/-- The moments of a scaled body: static moments times `len ^ 3`, second moments times `len ^ 4`, and the weight. -/
def AreaMoments.scaled (s : Scale) (k : ℝ) (m : AreaMoments) : AreaMoments :=
  ⟨k * s.len ^ 3 * m.sy, k * s.len ^ 3 * m.sz, k * s.len ^ 4 * m.iyy, k * s.len ^ 4 * m.izz, k * s.len ^ 4 * m.iyz⟩

theorem perimeter_scaled (s : Scale) (ring : List (ℝ × ℝ)) : Spec.perimeter (ring.map s.point) = s.len * Spec.perimeter ring := by
  unfold Spec.perimeter
  rw [edges_map, List.map_map, ← List.sum_map_mul_left]
  congr 1
  refine List.map_congr_left fun e _ => ?_
  simp only [Function.comp_apply, Scale.point]
  rw [show (s.len * e.2.1 - s.len * e.1.1) ^ 2 + (s.len * e.2.2 - s.len * e.1.2) ^ 2 =
    s.len ^ 2 * ((e.2.1 - e.1.1) ^ 2 + (e.2.2 - e.1.2) ^ 2) by ring, Real.sqrt_mul (sq_nonneg _), Real.sqrt_sq s.len_pos.le]

/-- **C90** (gross properties). -/
theorem C90_gross (split split' : Polygon → ℝ → ℝ → ShapelyResult) (eig eig' : ℝ → ℝ → ℝ → Eig)
    (union union' : List Polygon → ShapelyResult) (s : Scale) (dens : ℝ) {parts parts' : List (GSurf × Set (ℝ × ℝ))} {bars bars' : List GBar}
    (hp : List.Forall₂ (PartScaledTo s dens) parts parts') (hb : List.Forall₂ (GBarScaledTo s dens) bars bars')
    (henc : ∀ p ∈ parts, Encloses p.1.poly.ext p.1.poly.ints p.2)
    (hs : ∀ p ∈ parts, 0 < initialModulus p.1.mat) (hbm : ∀ b ∈ bars, 0 < initialModulus b.mat)
    (hea : (sectionBody initialModulus parts bars).integral (fun _ => 1) ≠ 0)
    (q : Polygon) (hu : union (parts.map fun p => p.1.poly) = .polygon q)
    (hu' : union' (parts'.map fun p => p.1.poly) = .polygon (q.scaled s)) :
    ∃ gp gp', grossProperties (marinElastic split) eig union ⟨parts.map Prod.fst, bars⟩ = .ok gp ∧
      grossProperties (marinElastic split') eig' union' ⟨parts'.map Prod.fst, bars'⟩ = .ok gp' ∧
      gp'.area = s.len ^ 2 * gp.area ∧ gp'.areaReinf = s.len ^ 2 * gp.areaReinf ∧ gp'.perimeter = s.len * gp.perimeter ∧
      gp'.ea = s.stress * s.len ^ 2 * gp.ea ∧ gp'.mass = dens * s.len ^ 2 * gp.mass ∧
      gp'.cy = s.len * gp.cy ∧ gp'.cz = s.len * gp.cz ∧
      gp'.m = gp.m.scaled s 1 ∧ gp'.mc = gp.mc.scaled s 1 ∧ gp'.em = gp.em.scaled s s.stress ∧ gp'.emc = gp.emc.scaled s s.stress := by
  have hl := s.len_pos
  have hk := s.stress_pos
  have hE := fun (g g' : ℝ × ℝ → ℝ) c => body_scaled (g := g) (g' := g') s dens s.stress c hp hb (w := initialModulus)
    (fun _ _ h => h.modulus) (fun _ _ h => h.modulus)
  have hM := fun (g g' : ℝ × ℝ → ℝ) c => body_scaled (g := g) (g' := g') s dens dens c hp hb (w := fun m => m.density * 1e-9)
    (fun _ _ h => by rw [h.density]; ring) (fun _ _ h => by rw [h.density]; ring)
  have hG := fun (g g' : ℝ × ℝ → ℝ) c => body_scaled (g := g) (g' := g') s dens 1 c hp hb (w := fun _ => 1)
    (fun _ _ h => by ring) (fun _ _ h => by ring)
  have e1 : (sectionBody initialModulus parts' bars').integral (fun _ => 1) =
      s.stress * s.len ^ 2 * (sectionBody initialModulus parts bars).integral (fun _ => 1) := by
    rw [hE (fun _ => 1) (fun _ => 1) 1 (fun x => by ring)]; ring
  obtain ⟨gp, hgp, a1, a2, a3, a4, a5, a6, a7, a8, a9, a10, a11, -, -⟩ := C52_marin split eig union parts bars henc hs hbm hea q hu
  obtain ⟨gp', hgp', b1, b2, b3, b4, b5, b6, b7, b8, b9, b10, b11, -, -⟩ := C52_marin split' eig' union' parts' bars' (by
      intro p' hp'
      obtain ⟨p, h1, h2⟩ := forall2_left hp hp'
      rw [h2.poly, h2.region]
      exact encloses_scaled s (henc p h1)) (by
      intro p' hp'
      obtain ⟨p, h1, h2⟩ := forall2_left hp hp'
      rw [h2.modulus]
      exact mul_pos hk (hs p h1)) (by
      intro b' hb'
      obtain ⟨b, h1, h2⟩ := forall2_left hb hb'
      rw [h2.modulus]
      exact mul_pos hk (hbm b h1)) (by
      rw [e1]
      exact mul_ne_zero (mul_pos hk (pow_pos hl 2)).ne' hea) (q.scaled s) hu'
  have hgea : gp.ea ≠ 0 := by rw [a3]; exact hea
  have hkl := (mul_pos hk (pow_pos hl 2)).ne'
  have ea : gp'.ea = s.stress * s.len ^ 2 * gp.ea := by rw [b3, e1, a3]
  have cy : gp'.cy = s.len * gp.cy := by
    rw [b8, a8, hE Prod.fst Prod.fst s.len (fun x => rfl), ea]
    field_simp
  have cz : gp'.cz = s.len * gp.cz := by
    rw [b9, a9, hE Prod.snd Prod.snd s.len (fun x => rfl), ea]
    field_simp
  have mom : ∀ (k : ℝ) (B B' : Body) (h : ∀ (g g' : ℝ × ℝ → ℝ) c, (∀ x, g' (s.point x) = c * g x) →
      B'.integral g' = k * s.len ^ 2 * c * B.integral g) (c c' : ℝ × ℝ), c' = s.point c → momentsOf B' c' = (momentsOf B c).scaled s k := by
    intro k B B' h c c' hc
    subst hc
    simp only [momentsOf, AreaMoments.scaled, AreaMoments.mk.injEq]
    refine ⟨?_, ?_, ?_, ?_, ?_⟩
    · rw [h (fun x => x.2 - c.2) _ s.len (fun x => by simp only [Scale.point]; ring)]; ring
    · rw [h (fun x => x.1 - c.1) _ s.len (fun x => by simp only [Scale.point]; ring)]; ring
    · rw [h (fun x => (x.2 - c.2) ^ 2) _ (s.len ^ 2) (fun x => by simp only [Scale.point]; ring)]; ring
    · rw [h (fun x => (x.1 - c.1) ^ 2) _ (s.len ^ 2) (fun x => by simp only [Scale.point]; ring)]; ring
    · rw [h (fun x => (x.1 - c.1) * (x.2 - c.2)) _ (s.len ^ 2) (fun x => by simp only [Scale.point]; ring)]; ring
  have z : (0 : ℝ × ℝ) = s.point 0 := by simp [Scale.point]; rfl
  refine ⟨gp, gp', hgp, hgp', ?_, ?_, ?_, ea, ?_, cy, cz, ?_, ?_, ?_, ?_⟩
  · rw [a1, b1]
    clear * - hp
    induction hp with
    | nil => simp
    | cons h _ ih =>
      simp only [List.map_cons, List.sum_cons, mul_add]
      rw [ih, h.region, integral_scaled]
  · rw [a2, b2]
    clear * - hb
    induction hb with
    | nil => simp
    | cons h _ ih =>
      simp only [List.map_cons, List.sum_cons, mul_add]
      rw [ih, h.area]
  · rw [b5, a5]
    exact perimeter_scaled s q.ext
  · rw [b4, a4, hM (fun _ => 1) (fun _ => 1) 1 (fun x => by ring)]; ring
  · rw [a6, b6]; exact mom 1 _ _ hG 0 0 z
  · rw [a10, b10]; exact mom 1 _ _ hG _ _ (by rw [cy, cz]; rfl)
  · rw [a7, b7]; exact mom s.stress _ _ hE 0 0 z
  · rw [a11, b11]; exact mom s.stress _ _ hE _ _ (by rw [cy, cz]; rfl)

end SC
