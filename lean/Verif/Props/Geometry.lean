import Verif.Model.Geometry
import Verif.Lemmas.Rotation
import Verif.Spec.Area
import Mathlib.Tactic.Abel

/-! # C34 - C37: geometries -/

set_option autoImplicit false

namespace SC

open Spec

/-! ### C34: compounds -/

/-- How users build geometries: single surfaces and bars, lists passed to `CompoundGeometry`, sums;
nested to any depth. -/
inductive GeoExpr
  | surface (s : Surface)
  | point (p : PointGeo)
  | compound (l : List GeoExpr)
  | add (a b : GeoExpr)

/-- The object built by the code. -/
noncomputable def GeoExpr.eval : GeoExpr → Geo
  | .surface s => .surface s
  | .point p => .point p
  | .compound l => .compound (Compound.ofList (l.map GeoExpr.eval))
  | .add a b => .compound (Geo.add a.eval b.eval)

/-- The surfaces written in the expression, from left to right. -/
def GeoExpr.surfaces : GeoExpr → List Surface
  | .surface s => [s]
  | .point _ => []
  | .compound l => l.flatMap GeoExpr.surfaces
  | .add a b => a.surfaces ++ b.surfaces

/-- The bars written in the expression, from left to right. -/
def GeoExpr.bars : GeoExpr → List PointGeo
  | .surface _ => []
  | .point p => [p]
  | .compound l => l.flatMap GeoExpr.bars
  | .add a b => a.bars ++ b.bars

/-- Surfaces of an object. -/
def Geo.surfaces : Geo → List Surface
  | .surface s => [s]
  | .point _ => []
  | .compound c => c.surfs

/-- Bars of an object. -/
def Geo.bars : Geo → List PointGeo
  | .surface _ => []
  | .point p => [p]
  | .compound c => c.pts

theorem processList_eq (l : List Geo) :
    processList l = (l.flatMap Geo.surfaces, l.flatMap Geo.bars) := by
  induction l with
  | nil => rfl
  | cons g l ih =>
    simp only [processList, ih]
    cases g <;> simp [Geo.surfaces, Geo.bars]

/-- **C34 (flattening).** Whatever the nesting, the object contains exactly the surfaces and the bars
of the expression, in order. -/
theorem C34_flatten (e : GeoExpr) : e.eval.surfaces = e.surfaces ∧ e.eval.bars = e.bars := by
  induction e using GeoExpr.eval.induct with
  | case1 s => simp [GeoExpr.eval, GeoExpr.surfaces, GeoExpr.bars, Geo.surfaces, Geo.bars]
  | case2 p => simp [GeoExpr.eval, GeoExpr.surfaces, GeoExpr.bars, Geo.surfaces, Geo.bars]
  | case3 l ih =>
    have h1 : (l.map GeoExpr.eval).flatMap Geo.surfaces = l.flatMap GeoExpr.surfaces := by
      rw [List.flatMap_map]
      exact List.flatMap_congr fun x hx => (ih x hx).1
    have h2 : (l.map GeoExpr.eval).flatMap Geo.bars = l.flatMap GeoExpr.bars := by
      rw [List.flatMap_map]
      exact List.flatMap_congr fun x hx => (ih x hx).2
    constructor
    · rw [GeoExpr.eval, GeoExpr.surfaces, ← h1]
      simp [Geo.surfaces, Compound.ofList, processList_eq]
    · rw [GeoExpr.eval, GeoExpr.bars, ← h2]
      simp [Geo.bars, Compound.ofList, processList_eq]
  | case4 a b iha ihb =>
    constructor
    · rw [GeoExpr.eval, GeoExpr.surfaces, ← iha.1, ← ihb.1]
      simp [Geo.surfaces, Geo.add, Compound.ofList, processList_eq]
    · rw [GeoExpr.eval, GeoExpr.bars, ← iha.2, ← ihb.2]
      simp [Geo.bars, Geo.add, Compound.ofList, processList_eq]

/-- **C34 (associativity).** `(a + b) + c` and `a + (b + c)` are the same compound. -/
theorem C34_assoc (a b c : Geo) :
    Geo.add (.compound (Geo.add a b)) c = Geo.add a (.compound (Geo.add b c)) := by
  simp [Geo.add, Compound.ofList, processList_eq, Geo.surfaces, Geo.bars]

/-- **C34 (bars).** The area of a bar is that of the disc of its diameter. -/
theorem C34_bar_area (p : PointGeo) : p.area = Real.pi * (p.diameter / 2) ^ 2 := by
  unfold PointGeo.area; ring

/-- **C34 (area).** The area of a compound is the sum over its surfaces. -/
theorem C34_area (c : Compound) : c.area = (c.surfs.map fun s => s.poly.area).sum := by
  unfold Compound.area
  suffices ∀ (l : List Surface) (a : ℝ),
      l.foldl (fun a s => a + s.poly.area) a = a + (l.map fun s => s.poly.area).sum by
    simpa using this c.surfs 0
  intro l
  induction l with
  | nil => intro a; simp
  | cons s l ih => intro a; simp [ih, add_assoc]

theorem foldl_min_le (l : List ℝ) (a : ℝ) : l.foldl min a ≤ a ∧ ∀ x ∈ l, l.foldl min a ≤ x := by
  induction l generalizing a with
  | nil => simp
  | cons b l ih =>
    obtain ⟨h1, h2⟩ := ih (min a b)
    refine ⟨h1.trans (min_le_left _ _), fun x hx => ?_⟩
    rcases List.mem_cons.1 hx with rfl | hx
    · exact h1.trans (min_le_right _ _)
    · exact h2 x hx

theorem foldl_min_mem (l : List ℝ) (a : ℝ) : l.foldl min a = a ∨ l.foldl min a ∈ l := by
  induction l generalizing a with
  | nil => simp
  | cons b l ih =>
    rcases ih (min a b) with h | h
    · rcases min_choice a b with hm | hm
      · left; rw [List.foldl_cons, h, hm]
      · right; rw [List.foldl_cons, h, hm]; exact List.mem_cons_self
    · right; exact List.mem_cons_of_mem _ h

theorem foldl_max_ge (l : List ℝ) (a : ℝ) : a ≤ l.foldl max a ∧ ∀ x ∈ l, x ≤ l.foldl max a := by
  induction l generalizing a with
  | nil => simp
  | cons b l ih =>
    obtain ⟨h1, h2⟩ := ih (max a b)
    refine ⟨(le_max_left _ _).trans h1, fun x hx => ?_⟩
    rcases List.mem_cons.1 hx with rfl | hx
    · exact (le_max_right _ _).trans h1
    · exact h2 x hx

theorem foldl_max_mem (l : List ℝ) (a : ℝ) : l.foldl max a = a ∨ l.foldl max a ∈ l := by
  induction l generalizing a with
  | nil => simp
  | cons b l ih =>
    rcases ih (max a b) with h | h
    · rcases max_choice a b with hm | hm
      · left; rw [List.foldl_cons, h, hm]
      · right; rw [List.foldl_cons, h, hm]; exact List.mem_cons_self
    · right; exact List.mem_cons_of_mem _ h

theorem extents_fold (l : List Surface) (a : ℝ × ℝ × ℝ × ℝ) :
    l.foldl (fun a s => (min a.1 s.extents.1, max a.2.1 s.extents.2.1,
      min a.2.2.1 s.extents.2.2.1, max a.2.2.2 s.extents.2.2.2)) a =
    ((l.map fun s => s.extents.1).foldl min a.1, (l.map fun s => s.extents.2.1).foldl max a.2.1,
      (l.map fun s => s.extents.2.2.1).foldl min a.2.2.1,
      (l.map fun s => s.extents.2.2.2).foldl max a.2.2.2) := by
  induction l generalizing a with
  | nil => rfl
  | cons s l ih => simp only [List.foldl_cons, List.map_cons, ih]

theorem listMin_spec (l : List ℝ) (h : l ≠ []) : listMin l ∈ l ∧ ∀ x ∈ l, listMin l ≤ x := by
  obtain ⟨a, l, rfl⟩ := List.exists_cons_of_ne_nil h
  simp only [listMin, List.headD_cons]
  refine ⟨?_, (foldl_min_le _ _).2⟩
  rcases foldl_min_mem (a :: l) a with h | h
  · rw [h]; exact List.mem_cons_self
  · exact h

theorem listMax_spec (l : List ℝ) (h : l ≠ []) : listMax l ∈ l ∧ ∀ x ∈ l, x ≤ listMax l := by
  obtain ⟨a, l, rfl⟩ := List.exists_cons_of_ne_nil h
  simp only [listMax, List.headD_cons]
  refine ⟨?_, (foldl_max_ge _ _).2⟩
  rcases foldl_max_mem (a :: l) a with h | h
  · rw [h]; exact List.mem_cons_self
  · exact h

/-- **C34 (extents).** For a compound with at least one surface, non-empty polygons and coordinates
within ±1e16: the four extents are the least and greatest coordinates of the vertices of its
surfaces, attained. -/
theorem C34_extents (c : Compound) (hne : c.surfs ≠ []) (hpoly : ∀ s ∈ c.surfs, s.poly.ext ≠ [])
    (hb : ∀ s ∈ c.surfs, ∀ p ∈ s.poly.ext, |p.1| ≤ 1e16 ∧ |p.2| ≤ 1e16) :
    let V : ℝ × ℝ → Prop := fun p => ∃ s ∈ c.surfs, p ∈ s.poly.ext
    (∀ p, V p → c.extents.1 ≤ p.1 ∧ p.1 ≤ c.extents.2.1 ∧ c.extents.2.2.1 ≤ p.2 ∧ p.2 ≤ c.extents.2.2.2) ∧
    (∃ p, V p ∧ p.1 = c.extents.1) ∧ (∃ p, V p ∧ p.1 = c.extents.2.1) ∧
    (∃ p, V p ∧ p.2 = c.extents.2.2.1) ∧ (∃ p, V p ∧ p.2 = c.extents.2.2.2) := by
  intro V
  have hext : c.extents = ((c.surfs.map fun s => s.extents.1).foldl min 1e16,
      (c.surfs.map fun s => s.extents.2.1).foldl max (-1e16),
      (c.surfs.map fun s => s.extents.2.2.1).foldl min 1e16,
      (c.surfs.map fun s => s.extents.2.2.2).foldl max (-1e16)) := extents_fold _ _
  have hmap : ∀ s ∈ c.surfs, ∀ f : ℝ × ℝ → ℝ, s.poly.ext.map f ≠ [] := by
    intro s hs f; simpa using hpoly s hs
  obtain ⟨s0, hs0⟩ := List.exists_mem_of_ne_nil _ hne
  -- attained minima and maxima
  have amin : ∀ (f : ℝ × ℝ → ℝ), (∀ s ∈ c.surfs, ∀ p ∈ s.poly.ext, |f p| ≤ 1e16) →
      ∃ p, V p ∧ f p = (c.surfs.map fun s => listMin (s.poly.ext.map f)).foldl min 1e16 := by
    intro f hf
    rcases foldl_min_mem (c.surfs.map fun s => listMin (s.poly.ext.map f)) 1e16 with h | h
    · -- the initial value: the minimum of any surface is below it, so equal
      have h1 := (listMin_spec _ (hmap s0 hs0 f)).1
      obtain ⟨p, hp, hpe⟩ := List.mem_map.1 h1
      refine ⟨p, ⟨s0, hs0, hp⟩, ?_⟩
      have h2 := (foldl_min_le (c.surfs.map fun s => listMin (s.poly.ext.map f)) 1e16).2
        _ (List.mem_map.2 ⟨s0, hs0, rfl⟩)
      rw [h] at h2 ⊢
      have h3 := (abs_le.1 (hf s0 hs0 p hp)).2
      rw [hpe] at h3 ⊢
      exact le_antisymm h3 h2
    · obtain ⟨s, hs, he⟩ := List.mem_map.1 h
      obtain ⟨p, hp, hpe⟩ := List.mem_map.1 (listMin_spec _ (hmap s hs f)).1
      exact ⟨p, ⟨s, hs, hp⟩, by rw [hpe, he]⟩
  have amax : ∀ (f : ℝ × ℝ → ℝ), (∀ s ∈ c.surfs, ∀ p ∈ s.poly.ext, |f p| ≤ 1e16) →
      ∃ p, V p ∧ f p = (c.surfs.map fun s => listMax (s.poly.ext.map f)).foldl max (-1e16) := by
    intro f hf
    rcases foldl_max_mem (c.surfs.map fun s => listMax (s.poly.ext.map f)) (-1e16) with h | h
    · have h1 := (listMax_spec _ (hmap s0 hs0 f)).1
      obtain ⟨p, hp, hpe⟩ := List.mem_map.1 h1
      refine ⟨p, ⟨s0, hs0, hp⟩, ?_⟩
      have h2 := (foldl_max_ge (c.surfs.map fun s => listMax (s.poly.ext.map f)) (-1e16)).2
        _ (List.mem_map.2 ⟨s0, hs0, rfl⟩)
      rw [h] at h2 ⊢
      have h3 := (abs_le.1 (hf s0 hs0 p hp)).1
      rw [hpe] at h3 ⊢
      exact le_antisymm h2 h3
    · obtain ⟨s, hs, he⟩ := List.mem_map.1 h
      obtain ⟨p, hp, hpe⟩ := List.mem_map.1 (listMax_spec _ (hmap s hs f)).1
      exact ⟨p, ⟨s, hs, hp⟩, by rw [hpe, he]⟩
  rw [hext]
  refine ⟨?_, amin Prod.fst fun s hs p hp => (hb s hs p hp).1,
    amax Prod.fst fun s hs p hp => (hb s hs p hp).1, amin Prod.snd fun s hs p hp => (hb s hs p hp).2,
    amax Prod.snd fun s hs p hp => (hb s hs p hp).2⟩
  rintro p ⟨s, hs, hp⟩
  refine ⟨?_, ?_, ?_, ?_⟩
  · exact ((foldl_min_le _ _).2 _ (List.mem_map.2 ⟨s, hs, rfl⟩)).trans
      ((listMin_spec _ (hmap s hs Prod.fst)).2 _ (List.mem_map_of_mem hp))
  · exact ((listMax_spec _ (hmap s hs Prod.fst)).2 _ (List.mem_map_of_mem hp)).trans
      ((foldl_max_ge _ _).2 _ (List.mem_map.2 ⟨s, hs, rfl⟩))
  · exact ((foldl_min_le _ _).2 _ (List.mem_map.2 ⟨s, hs, rfl⟩)).trans
      ((listMin_spec _ (hmap s hs Prod.snd)).2 _ (List.mem_map_of_mem hp))
  · exact ((listMax_spec _ (hmap s hs Prod.snd)).2 _ (List.mem_map_of_mem hp)).trans
      ((foldl_max_ge _ _).2 _ (List.mem_map.2 ⟨s, hs, rfl⟩))

/-- **C34, violated.** Bars do not count: for a compound of bars only the extents are the initial
values of the search, an inverted box from 1e16 to -1e16 (and the area is 0). -/
theorem C34_bars_only_violated (bars : List PointGeo) :
    (Compound.ofList (bars.map Geo.point)).extents = (1e16, -1e16, 1e16, -1e16) ∧
    (Compound.ofList (bars.map Geo.point)).area = 0 := by
  have : (Compound.ofList (bars.map Geo.point)).surfs = [] := by
    simp [Compound.ofList, processList_eq, Geo.surfaces, List.flatMap_map]
  simp [Compound.extents, Compound.area, this]

/-! ### C35: rigid motions -/

/-- Affine map with linear part `a b; c d` and shift `e f`. -/
def Affine (a b c d e f : ℝ) (g : ℝ × ℝ → ℝ × ℝ) : Prop :=
  ∀ p, g p = (a * p.1 + b * p.2 + e, c * p.1 + d * p.2 + f)

/-- Shoelace area of a path from `p` to the end `q` of the list: an affine map multiplies it by the
determinant, up to a term that depends on the two ends only. -/
theorem shoelace_affine {a b c d e f : ℝ} {g : ℝ × ℝ → ℝ × ℝ} (h : Affine a b c d e f g)
    (p : ℝ × ℝ) (l : List (ℝ × ℝ)) :
    shoelace ((p :: l).map g) = (a * d - b * c) * shoelace (p :: l) +
      ((e * (c * ((p :: l).getLast (by simp)).1 + d * ((p :: l).getLast (by simp)).2) -
        f * (a * ((p :: l).getLast (by simp)).1 + b * ((p :: l).getLast (by simp)).2)) -
       (e * (c * p.1 + d * p.2) - f * (a * p.1 + b * p.2))) / 2 := by
  induction l generalizing p with
  | nil => simp [shoelace]
  | cons q l ih =>
    have := ih q
    simp only [List.map_cons] at this ⊢
    rw [shoelace, this, List.getLast_cons (by simp : q :: l ≠ [])]
    rw [show shoelace (p :: q :: l) = (p.1 * q.2 - q.1 * p.2) / 2 + shoelace (q :: l) from rfl]
    rw [h p, h q]
    ring

theorem shoelace_affine_closed {a b c d e f : ℝ} {g : ℝ × ℝ → ℝ × ℝ} (h : Affine a b c d e f g)
    (ring : List (ℝ × ℝ)) (hc : Closed ring) :
    shoelace (ring.map g) = (a * d - b * c) * shoelace ring := by
  cases ring with
  | nil => simp [shoelace]
  | cons p l =>
    rw [shoelace_affine h p l]
    have : (p :: l).getLast (by simp) = p := by
      unfold Closed at hc
      rw [List.head?_cons, List.getLast?_eq_getLast (by simp : p :: l ≠ [])] at hc
      exact (Option.some.inj hc).symm
    rw [this]; ring

/-- All rings of the polygon are closed coordinate lists (shapely guarantees it). -/
def Polygon.ClosedRings (p : Polygon) : Prop := Closed p.ext ∧ ∀ r ∈ p.ints, Closed r

theorem area_affine {a b c d e f : ℝ} {g : ℝ × ℝ → ℝ × ℝ} (h : Affine a b c d e f g)
    (hdet : |a * d - b * c| = 1) (p : Polygon) (hp : p.ClosedRings) : (p.map g).area = p.area := by
  have key : ∀ r, Closed r → |shoelace (r.map g)| = |shoelace r| := by
    intro r hr
    rw [shoelace_affine_closed h r hr, abs_mul, hdet, one_mul]
  unfold Polygon.area Polygon.map
  simp only [List.map_map]
  rw [key _ hp.1]
  congr 2
  exact List.map_congr_left fun r hr => key r (hp.2 r hr)

theorem translate_affine (dx dy : ℝ) : Affine 1 0 0 1 dx dy (translatePt dx dy) := by
  intro p; simp [translatePt]

/-- The angle in radians meant by the caller. -/
noncomputable def radians (angle : ℝ) (useRadians : Bool) : ℝ :=
  if useRadians then angle else angle * Real.pi / 180

theorem rotatePt_eq (angle : ℝ) (o : ℝ × ℝ) (u : Bool) (p : ℝ × ℝ) :
    rotatePt angle o u p = ((rotPt (radians angle u) (p.1 - o.1, p.2 - o.2)).1 + o.1,
      (rotPt (radians angle u) (p.1 - o.1, p.2 - o.2)).2 + o.2) := rfl

theorem rotate_affine (angle : ℝ) (o : ℝ × ℝ) (u : Bool) :
    Affine (Real.cos (radians angle u)) (-Real.sin (radians angle u)) (Real.sin (radians angle u))
      (Real.cos (radians angle u))
      (o.1 - Real.cos (radians angle u) * o.1 + Real.sin (radians angle u) * o.2)
      (o.2 - Real.sin (radians angle u) * o.1 - Real.cos (radians angle u) * o.2)
      (rotatePt angle o u) := by
  intro p
  rw [rotatePt_eq]
  simp only [rotPt]
  ext <;> simp <;> ring

/-- Translations compose additively. -/
theorem translatePt_add (a b c d : ℝ) (p : ℝ × ℝ) :
    translatePt c d (translatePt a b p) = translatePt (a + c) (b + d) p := by
  simp [translatePt, add_assoc]

/-- Rotations about one point compose additively. -/
theorem rotatePt_add (a b : ℝ) (o : ℝ × ℝ) (u : Bool) (p : ℝ × ℝ) :
    rotatePt b o u (rotatePt a o u p) = rotatePt (a + b) o u p := by
  simp only [rotatePt_eq, add_sub_cancel_right, Prod.mk.eta, rotPt_add]
  have : radians b u + radians a u = radians (a + b) u := by
    unfold radians; split_ifs <;> ring
  rw [this]

theorem translatePt_zero (p : ℝ × ℝ) : translatePt 0 0 p = p := by simp [translatePt]

theorem rotatePt_zero (o : ℝ × ℝ) (u : Bool) (p : ℝ × ℝ) : rotatePt 0 o u p = p := by
  have : radians 0 u = 0 := by unfold radians; split_ifs <;> simp
  rw [rotatePt_eq, this, rotPt_zero]; simp

/-- The matrix of the code is the reflection about the line through the first point in the
direction `theta` of the axis. -/
theorem mirrorMatrix_eq (x1 y1 x2 y2 : ℝ) :
    mirrorMatrix [(x1, y1), (x2, y2)] = .ok
      (let t := atan2 (y2 - y1) (x2 - x1)
       let C := Real.cos t ^ 2 - Real.sin t ^ 2
       let S := 2 * (Real.sin t * Real.cos t)
       !![C, S, x1 - C * x1 - S * y1; S, -C, y1 - S * x1 + C * y1; 0, 0, 1]) := by
  simp only [mirrorMatrix]
  set t := atan2 (y2 - y1) (x2 - x1)
  have hsc := Real.sin_sq_add_cos_sq t
  have hT : (!![1, 0, -x1; 0, 1, -y1; 0, 0, 1] : Matrix (Fin 3) (Fin 3) ℝ)⁻¹ =
      !![1, 0, x1; 0, 1, y1; 0, 0, 1] := by
    apply Matrix.inv_eq_left_inv
    ext i j
    fin_cases i <;> fin_cases j <;> simp [Matrix.mul_apply, Fin.sum_univ_three]
  have hR : (!![Real.cos t, Real.sin t, 0; -Real.sin t, Real.cos t, 0; 0, 0, 1] :
      Matrix (Fin 3) (Fin 3) ℝ)⁻¹ =
      !![Real.cos t, -Real.sin t, 0; Real.sin t, Real.cos t, 0; 0, 0, 1] := by
    apply Matrix.inv_eq_left_inv
    ext i j
    fin_cases i <;> fin_cases j <;> simp [Matrix.mul_apply, Fin.sum_univ_three] <;> nlinarith
  rw [hT, hR]
  congr 1
  ext i j
  fin_cases i <;> fin_cases j <;> simp [Matrix.mul_apply, Fin.sum_univ_three] <;> ring_nf

theorem atan2_cos_sin (dx dy : ℝ) (h : (dx, dy) ≠ (0, 0)) :
    ∃ r : ℝ, 0 < r ∧ dx = r * Real.cos (atan2 dy dx) ∧ dy = r * Real.sin (atan2 dy dx) := by
  have hz : (⟨dx, dy⟩ : ℂ) ≠ 0 := by
    intro h0
    apply h
    have h1 := congrArg Complex.re h0
    have h2 := congrArg Complex.im h0
    simp at h1 h2
    rw [h1, h2]
  refine ⟨‖(⟨dx, dy⟩ : ℂ)‖, norm_pos_iff.2 hz, ?_, ?_⟩
  · exact (Complex.norm_mul_cos_arg (⟨dx, dy⟩ : ℂ)).symm
  · exact (Complex.norm_mul_sin_arg (⟨dx, dy⟩ : ℂ)).symm

/-- Squared distance. -/
def dist2 (p q : ℝ × ℝ) : ℝ := (p.1 - q.1) ^ 2 + (p.2 - q.2) ^ 2

/-- **C35 (mirror).** For an axis through two different points `a`, `b`, the map applied to every
point is the reflection about the line `ab`: it is an isometry, it is its own inverse, and it fixes
exactly the points of the line. -/
theorem C35_mirror (a b : ℝ × ℝ) (hab : a ≠ b) : ∃ A, mirrorMatrix [a, b] = .ok A ∧
    (∀ p q, dist2 (affinePt A p) (affinePt A q) = dist2 p q) ∧
    (∀ p, affinePt A (affinePt A p) = p) ∧
    (∀ p, affinePt A p = p ↔ cross a b p = 0) := by
  obtain ⟨x1, y1⟩ := a
  obtain ⟨x2, y2⟩ := b
  refine ⟨_, mirrorMatrix_eq x1 y1 x2 y2, ?_⟩
  have hne : (x2 - x1, y2 - y1) ≠ ((0 : ℝ), (0 : ℝ)) := by
    intro h
    simp only [Prod.mk.injEq, sub_eq_zero] at h
    exact hab (by rw [h.1, h.2])
  obtain ⟨r, hr, hdx, hdy⟩ := atan2_cos_sin _ _ hne
  set t := atan2 (y2 - y1) (x2 - x1)
  have hsc := Real.sin_sq_add_cos_sq t
  simp only
  generalize hs : Real.sin t = s at *
  generalize hc : Real.cos t = c at *
  have hCS : (c ^ 2 - s ^ 2) ^ 2 + (2 * (s * c)) ^ 2 = 1 := by
    have : (c ^ 2 - s ^ 2) ^ 2 + (2 * (s * c)) ^ 2 = (s ^ 2 + c ^ 2) ^ 2 := by ring
    rw [this, hsc, one_pow]
  refine ⟨?_, ?_, ?_⟩
  · intro p q
    simp only [dist2, affinePt]
    simp
    linear_combination ((p.1 - q.1) ^ 2 + (p.2 - q.2) ^ 2) * hCS
  · intro p
    simp only [affinePt]
    ext
    · simp
      linear_combination (p.1 - x1) * hCS
    · simp
      linear_combination (p.2 - y1) * hCS
  · intro p
    have hcross : cross (x1, y1) (x2, y2) p = r * (c * (p.2 - y1) - s * (p.1 - x1)) := by
      simp only [cross]
      rw [hdx, hdy]; ring
    rw [hcross]
    simp only [affinePt, Prod.ext_iff]
    simp
    constructor
    · rintro ⟨h1, h2⟩
      right
      -- combine the two fixed-point equations
      have e1 : 2 * s * (c * (p.2 - y1) - s * (p.1 - x1)) = 0 := by
        linear_combination h1 - (p.1 - x1) * hsc
      have e2 : 2 * c * (c * (p.2 - y1) - s * (p.1 - x1)) = 0 := by
        linear_combination -h2 + (p.2 - y1) * hsc
      linear_combination (s / 2) * e1 + (c / 2) * e2
        - (c * (p.2 - y1) - s * (p.1 - x1)) * hsc
    · rintro (h | h)
      · exact absurd h hr.ne'
      · constructor
        · linear_combination (2 * s) * h + (p.1 - x1) * hsc
        · linear_combination (-2 * c) * h + (p.2 - y1) * hsc

/-- The flag of a surface as the constructor leaves it: concrete materials are flagged. -/
def Surface.WF (s : Surface) : Prop := s.mat.isConcrete = true → s.concrete = true

theorem Surface.new_wf (p : Polygon) (m : Mat) (c : Bool) (n l : Option String) :
    (Surface.new p m c n l).WF := by
  intro h
  simp only [Surface.new] at h ⊢
  simp [h]

/-- What a geometry consists of, apart from names and labels: polygons with material and concrete
flag; bars with position, diameter and material. -/
def Geo.content (g : Geo) : List (Polygon × Mat × Bool) × List ((ℝ × ℝ) × ℝ × Mat) :=
  (g.surfaces.map fun s => (s.poly, s.mat, s.concrete), g.bars.map fun p => (p.pt, p.diameter, p.mat))

/-- All surfaces are as their constructor left them. -/
def Geo.WF (g : Geo) : Prop := ∀ s ∈ g.surfaces, s.WF

theorem flatMap_single {α β : Type} (f : α → β) (l : List α) : (l.flatMap fun a => [f a]) = l.map f := by
  induction l with
  | nil => rfl
  | cons a l ih => simp [ih]

theorem flatMap_none {α β : Type} (l : List α) : (l.flatMap fun _ => ([] : List β)) = [] := by
  induction l with
  | nil => rfl
  | cons a l ih => simp [ih]

theorem move_surfaces (f : ℝ × ℝ → ℝ × ℝ) (g : Geo) :
    (g.move f).surfaces = g.surfaces.map (Surface.move f) ∧ (g.move f).bars = g.bars.map (PointGeo.move f) := by
  cases g with
  | surface s => simp [Geo.move, Geo.surfaces, Geo.bars]
  | point p => simp [Geo.move, Geo.surfaces, Geo.bars]
  | compound c =>
    simp [Geo.move, Geo.surfaces, Geo.bars, Compound.move, Compound.ofList, processList_eq, List.flatMap_append,
      List.flatMap_map, flatMap_single, flatMap_none]

theorem move_wf (f : ℝ × ℝ → ℝ × ℝ) (g : Geo) : (g.move f).WF := by
  intro s hs
  rw [(move_surfaces f g).1] at hs
  obtain ⟨t, _, rfl⟩ := List.mem_map.1 hs
  exact Surface.new_wf _ _ _ _ _

/-- **C35 (what a motion does).** Moving a geometry maps every coordinate of every surface and every
bar, and changes no material, flag or diameter, nor the order. -/
theorem C35_move_content (f : ℝ × ℝ → ℝ × ℝ) (g : Geo) (hg : g.WF) :
    (g.move f).content = (g.content.1.map fun x => (x.1.map f, x.2.1, x.2.2),
      g.content.2.map fun x => (f x.1, x.2.1, x.2.2)) := by
  unfold Geo.content
  rw [(move_surfaces f g).1, (move_surfaces f g).2]
  simp only [List.map_map]
  congr 1
  apply List.map_congr_left
  intro s hs
  have := hg s hs
  simp only [Function.comp_apply, Surface.move, Surface.new, Prod.mk.injEq, true_and]
  by_cases h : s.mat.isConcrete = true
  · simp [h, this h]
  · simp [h]

theorem Polygon.map_map (f h : ℝ × ℝ → ℝ × ℝ) (p : Polygon) :
    (p.map f).map h = p.map fun x => h (f x) := by
  simp [Polygon.map, List.map_map, Function.comp_def]

theorem Polygon.map_id (p : Polygon) : (p.map fun x => x) = p := by
  simp [Polygon.map]

theorem move_move_content (f h : ℝ × ℝ → ℝ × ℝ) (g : Geo) (hg : g.WF) :
    ((g.move f).move h).content = (g.move fun x => h (f x)).content := by
  rw [C35_move_content h _ (move_wf f g), C35_move_content f g hg, C35_move_content _ g hg]
  simp [List.map_map, Function.comp_def, Polygon.map_map]

theorem move_id_content (g : Geo) (hg : g.WF) : (g.move fun x => x).content = g.content := by
  rw [C35_move_content _ g hg]
  simp [Polygon.map_id]

/-- **C35 (translation).** Translations of any geometry compose additively and are undone by the
opposite translation. -/
theorem C35_translate (g : Geo) (hg : g.WF) (a b c d : ℝ) :
    ((g.translate a b).translate c d).content = (g.translate (a + c) (b + d)).content ∧
    ((g.translate a b).translate (-a) (-b)).content = g.content := by
  unfold Geo.translate
  constructor
  · rw [move_move_content _ _ _ hg]; simp_rw [translatePt_add]
  · rw [move_move_content _ _ _ hg]; simp_rw [translatePt_add, add_neg_cancel, translatePt_zero]
    exact move_id_content g hg

/-- **C35 (rotation).** Rotations about one point compose additively and are undone by the opposite
rotation, in degrees as in radians. -/
theorem C35_rotate (g : Geo) (hg : g.WF) (a b : ℝ) (o : ℝ × ℝ) (u : Bool) :
    ((g.rotate a o u).rotate b o u).content = (g.rotate (a + b) o u).content ∧
    ((g.rotate a o u).rotate (-a) o u).content = g.content := by
  unfold Geo.rotate
  constructor
  · rw [move_move_content _ _ _ hg]; simp_rw [rotatePt_add]
  · rw [move_move_content _ _ _ hg]; simp_rw [rotatePt_add, add_neg_cancel, rotatePt_zero]
    exact move_id_content g hg

/-- **C35 (rotation is the rotation).** The image is at the same distance from the centre and turned
counter-clockwise by the angle. -/
theorem C35_rotate_point (angle : ℝ) (o : ℝ × ℝ) (u : Bool) (r phi : ℝ) :
    rotatePt angle o u (o.1 + r * Real.cos phi, o.2 + r * Real.sin phi) =
      (o.1 + r * Real.cos (phi + radians angle u), o.2 + r * Real.sin (phi + radians angle u)) := by
  rw [rotatePt_eq]
  simp only [rotPt, Real.cos_add, Real.sin_add]
  ext <;> simp <;> ring

/-- **C35 (mirror).** Mirroring any geometry twice about the same axis gives it back. -/
theorem C35_mirror_twice (g : Geo) (hg : g.WF) (a b : ℝ × ℝ) (hab : a ≠ b) :
    ∃ g1 g2, g.mirror [a, b] = .ok g1 ∧ g1.mirror [a, b] = .ok g2 ∧ g2.content = g.content := by
  obtain ⟨A, hA, -, hinv, -⟩ := C35_mirror a b hab
  refine ⟨g.move (affinePt A), (g.move (affinePt A)).move (affinePt A), ?_, ?_, ?_⟩
  · simp [Geo.mirror, hA]
  · simp [Geo.mirror, hA]
  · rw [move_move_content _ _ _ hg]; simp_rw [hinv]; exact move_id_content g hg

/-- Sum of the areas of the surfaces, and of the bars. -/
noncomputable def Geo.areas (g : Geo) : ℝ × ℝ :=
  ((g.surfaces.map fun s => s.poly.area).sum, (g.bars.map PointGeo.area).sum)

theorem areas_move {a b c d e f : ℝ} {h : ℝ × ℝ → ℝ × ℝ} (haff : Affine a b c d e f h)
    (hdet : |a * d - b * c| = 1) (g : Geo) (hr : ∀ s ∈ g.surfaces, s.poly.ClosedRings) :
    (g.move h).areas = g.areas := by
  unfold Geo.areas
  rw [(move_surfaces h g).1, (move_surfaces h g).2]
  simp only [List.map_map]
  congr 2
  exact List.map_congr_left fun s hs => area_affine haff hdet s.poly (hr s hs)

/-- **C35 (area).** Translation, rotation and mirroring preserve the area of the surfaces and of the
bars. -/
theorem C35_area (g : Geo) (hr : ∀ s ∈ g.surfaces, s.poly.ClosedRings) :
    (∀ dx dy, (g.translate dx dy).areas = g.areas) ∧
    (∀ angle o u, (g.rotate angle o u).areas = g.areas) ∧
    (∀ axis g', g.mirror axis = .ok g' → g'.areas = g.areas) := by
  refine ⟨fun dx dy => areas_move (translate_affine dx dy) (by simp) g hr, fun angle o u => ?_, ?_⟩
  · refine areas_move (rotate_affine angle o u) ?_ g hr
    have := Real.sin_sq_add_cos_sq (radians angle u)
    rw [show Real.cos (radians angle u) * Real.cos (radians angle u) -
      -Real.sin (radians angle u) * Real.sin (radians angle u) = 1 by nlinarith]
    simp
  · intro axis g' h
    match axis, h with
    | [(x1, y1), (x2, y2)], h =>
      simp only [Geo.mirror, mirrorMatrix_eq, Except.ok.injEq] at h
      subst h
      set t := atan2 (y2 - y1) (x2 - x1)
      have hsc := Real.sin_sq_add_cos_sq t
      refine areas_move (a := Real.cos t ^ 2 - Real.sin t ^ 2) (b := 2 * (Real.sin t * Real.cos t))
        (c := 2 * (Real.sin t * Real.cos t)) (d := -(Real.cos t ^ 2 - Real.sin t ^ 2))
        (e := _) (f := _) (fun p => by simp [affinePt]; constructor <;> rfl) ?_ g hr
      rw [show (Real.cos t ^ 2 - Real.sin t ^ 2) * -(Real.cos t ^ 2 - Real.sin t ^ 2) -
        2 * (Real.sin t * Real.cos t) * (2 * (Real.sin t * Real.cos t)) =
        -(Real.sin t ^ 2 + Real.cos t ^ 2) ^ 2 by ring, hsc]
      simp
    | [], h => simp [Geo.mirror, mirrorMatrix] at h
    | [_], h => simp [Geo.mirror, mirrorMatrix] at h
    | _ :: _ :: _ :: _, h => simp [Geo.mirror, mirrorMatrix] at h

/-- **C35 (bad axes).** An axis with other than two points raises `ValueError`. -/
theorem C35_mirror_rejects (g : Geo) (axis : List (ℝ × ℝ)) (h : axis.length ≠ 2) :
    g.mirror axis = .error .valueError := by
  match axis, h with
  | [], _ => rfl
  | [_], _ => rfl
  | _ :: _ :: _ :: _, _ => rfl
  | [_, _], h => simp at h

/-- **C35, violated.** A degenerate axis (two equal points, no line at all) is accepted and silently
stands for the horizontal line through the point. -/
theorem C35_mirror_degenerate_violated (a : ℝ × ℝ) : ∃ A, mirrorMatrix [a, a] = .ok A ∧
    ∀ p, affinePt A p = (p.1, 2 * a.2 - p.2) := by
  obtain ⟨x, y⟩ := a
  refine ⟨_, mirrorMatrix_eq x y x y, fun p => ?_⟩
  have : atan2 (y - y) (x - x) = 0 := by
    simp only [sub_self, atan2]
    exact Complex.arg_zero
  simp only [this]
  simp [affinePt]
  ring

/-- A square with a hole, a bar in it, and one beside it: the hypotheses of the theorems above. -/
noncomputable example : let g : Geo := .compound (Compound.ofList [.surface (Surface.new
      ⟨[(0, 0), (4, 0), (4, 4), (0, 4), (0, 0)], [[(1, 1), (1, 2), (2, 2), (1, 1)]]⟩ ⟨0, true⟩ false none none),
      .point ⟨(3, 3), 16, ⟨1, false⟩, none, none⟩, .point ⟨(5, 5), 12, ⟨1, false⟩, none, none⟩])
    g.WF ∧ (∀ s ∈ g.surfaces, s.poly.ClosedRings) ∧ g.areas.1 = 15.5 := by
  intro g
  have hs : g.surfaces = [Surface.new
      ⟨[(0, 0), (4, 0), (4, 4), (0, 4), (0, 0)], [[(1, 1), (1, 2), (2, 2), (1, 1)]]⟩ ⟨0, true⟩ false none none] := rfl
  refine ⟨?_, ?_, ?_⟩
  · intro s h
    rw [hs] at h
    rw [List.mem_singleton.1 h]
    exact Surface.new_wf _ _ _ _ _
  · intro s h
    rw [hs] at h
    rw [List.mem_singleton.1 h]
    simp [Polygon.ClosedRings, Surface.new, Closed]
  · simp only [Geo.areas, hs]
    simp [Polygon.area, Surface.new, shoelace]
    norm_num [abs_of_nonneg, abs_of_nonpos]

/-! ### C36: splitting lines -/

/-- The point lies on the line through the two ends. -/
def OnLine (p a b : ℝ × ℝ) : Prop := cross a b p = 0

/-- **C36 (line).** The returned segment lies on the line through the point in direction `theta`,
for every angle and box (the box being non-empty). -/
theorem C36_on_line (p : ℝ × ℝ) (theta : ℝ) (bbox : ℝ × ℝ × ℝ × ℝ) :
    let l := createLine p theta bbox
    (l.1.1 - p.1) * Real.sin theta = (l.1.2 - p.2) * Real.cos theta ∧
    (l.2.1 - p.1) * Real.sin theta = (l.2.2 - p.2) * Real.cos theta := by
  intro l
  simp only [l, createLine]
  split_ifs with h
  · have hc : Real.cos theta ≠ 0 := by
      intro h0; rw [h0] at h; norm_num at h
    constructor <;> field_simp <;> ring
  · have hs : Real.sin theta ≠ 0 := by
      intro h0
      have := Real.sin_sq_add_cos_sq theta
      rw [h0] at this
      have hc2 : Real.cos theta ^ 2 = |Real.cos theta| ^ 2 := (sq_abs _).symm
      push Not at h
      have h0' := abs_nonneg (Real.cos theta)
      nlinarith
    constructor <;> field_simp <;> ring

/-- **C36 (span), partial.** Unless the line is within 1e-8 of vertical, its ends lie strictly to the
left and to the right of the box; for a vertical one they lie strictly below and above the box if
`max_x ≥ max_y`. -/
theorem C36_span_partial (p : ℝ × ℝ) (theta x0 y0 x1 y1 : ℝ) :
    let l := createLine p theta (x0, y0, x1, y1)
    (1e-8 < |Real.cos theta| → l.1.1 < x0 ∧ x1 < l.2.1) ∧
    (|Real.cos theta| ≤ 1e-8 → y1 ≤ x1 → l.1.2 < y0 ∧ y1 < l.2.2) := by
  intro l
  constructor
  · intro h
    simp only [l, createLine, if_pos h]
    constructor <;> norm_num
  · intro h hxy
    simp only [l, createLine, if_neg (not_lt.2 h)]
    constructor
    · norm_num
    · have : (0 : ℝ) < 1e-3 := by norm_num
      linarith

/-- **C36, violated.** For a vertical line through a box that is higher than it is wide the segment
ends inside the box: the upper end is computed from `max_x`.  A section split with it would stay in
one piece. -/
theorem C36_vertical_violated (p : ℝ × ℝ) (x0 y0 x1 y1 : ℝ) (h : x1 + 1e-3 < y1) :
    let l := createLine p (Real.pi / 2) (x0, y0, x1, y1)
    l.1.1 = p.1 ∧ l.2.1 = p.1 ∧ l.1.2 < y0 ∧ l.2.2 < y1 := by
  intro l
  have : ¬ |Real.cos (Real.pi / 2)| > 1e-8 := by rw [Real.cos_pi_div_two]; norm_num
  simp only [l, createLine, if_neg this]
  refine ⟨by simp, by simp, by norm_num, h⟩

/-- A beam 300 wide and 500 high centred at the origin: the line ends 100 below its top. -/
example : (150 : ℝ) + 1e-3 < 250 := by norm_num

/-! ### C37: concrete flag -/

/-- Operations that derive one compound from others. -/
inductive Derived : Compound → Prop
  | list (l : List Geo) (h : ∀ g ∈ l, ∀ c, g = .compound c → Derived c) : Derived (Compound.ofList l)
  | move (f : ℝ × ℝ → ℝ × ℝ) (c : Compound) (h : Derived c) : Derived (c.move f)
  | read (c : Compound) (h : Derived c) : Derived c.reinforcedConcrete.1

theorem derived_cache (c : Compound) (h : Derived c) :
    c.rcCache = some none ∨ c.rcCache = some (some (c.surfs.any fun s => s.concrete)) := by
  induction h with
  | list l _ _ => left; rfl
  | move f c _ _ => left; rfl
  | read c _ ih =>
    rcases ih with h | h
    · right; simp [Compound.reinforcedConcrete, h]
    · right; simp [Compound.reinforcedConcrete, h]

/-- **C37, partial.** For compounds built from lists (sums are lists of two), moved and read any
number of times: `reinforced_concrete` is true exactly when some surface is flagged, reading it does
not change it, and it changes neither surfaces nor bars.  Missing: compounds built from a
`MultiPolygon`, and differences; see below. -/
theorem C37_flag_partial (c : Compound) (h : Derived c) :
    (∃ b, c.reinforcedConcrete.2 = .ok b ∧ (b = true ↔ ∃ s ∈ c.surfs, s.concrete = true)) ∧
    c.reinforcedConcrete.1.reinforcedConcrete.2 = c.reinforcedConcrete.2 ∧
    c.reinforcedConcrete.1.surfs = c.surfs ∧ c.reinforcedConcrete.1.pts = c.pts := by
  rcases derived_cache c h with hc | hc <;> simp [Compound.reinforcedConcrete, hc]

/-- **C37 (moves keep the flag).** A derived compound is flagged if and only if the original is. -/
theorem C37_move_partial (c : Compound) (hw : ∀ s ∈ c.surfs, s.WF) (h : Derived c) (f : ℝ × ℝ → ℝ × ℝ) :
    (c.move f).reinforcedConcrete.2 = c.reinforcedConcrete.2 := by
  have hs : (c.move f).surfs = c.surfs.map (Surface.move f) := by
    have := (move_surfaces f (.compound c)).1
    simpa [Geo.move, Geo.surfaces] using this
  have hany : ((c.move f).surfs.any fun s => s.concrete) = c.surfs.any fun s => s.concrete := by
    rw [hs, Bool.eq_iff_iff]
    simp only [List.any_eq_true, List.mem_map]
    have hc : ∀ s ∈ c.surfs, (Surface.move f s).concrete = s.concrete := by
      intro s hs
      have := hw s hs
      simp only [Surface.move, Surface.new]
      by_cases hm : s.mat.isConcrete = true
      · simp [hm, this hm]
      · simp [hm]
    constructor
    · rintro ⟨_, ⟨s, hs, rfl⟩, h⟩
      exact ⟨s, hs, by rw [← hc s hs]; exact h⟩
    · rintro ⟨s, hs, h⟩
      exact ⟨_, ⟨s, hs, rfl⟩, by rw [hc s hs]; exact h⟩
  have e1 : (c.move f).reinforcedConcrete.2 = .ok ((c.move f).surfs.any fun s => s.concrete) := by
    have : (c.move f).rcCache = some none := rfl
    simp [Compound.reinforcedConcrete, this]
  rw [e1, hany]
  rcases derived_cache c h with hc | hc <;> simp [Compound.reinforcedConcrete, hc]

/-- **C37 (multi-polygons).** A multi-polygon with a list of materials is accepted exactly if the lists have the same
length; then the surfaces carry the polygons in order, each with its own material. -/
theorem C37_multipolygon (polys : List Polygon) (ms : List Mat) :
    (polys.length ≠ ms.length → Compound.ofMultiPolygon polys (.many ms) = .error .valueError) ∧
    (polys.length = ms.length → ∃ c, Compound.ofMultiPolygon polys (.many ms) = .ok c ∧
      c.surfs.map (·.poly) = polys ∧ c.surfs.map (·.mat) = ms ∧ c.pts = []) := by
  constructor
  · intro h; simp [Compound.ofMultiPolygon, h]
  · intro h
    refine ⟨⟨(polys.zip ms).map fun pm => Surface.new pm.1 pm.2 false none none, [], none⟩,
      by simp [Compound.ofMultiPolygon, h], ?_, ?_, rfl⟩
    · simp only [List.map_map]
      rw [show ((fun s : Surface => s.poly) ∘ fun pm : Polygon × Mat => Surface.new pm.1 pm.2 false none none) = Prod.fst from rfl]
      exact List.map_fst_zip h.le
    · simp only [List.map_map]
      rw [show ((fun s : Surface => s.mat) ∘ fun pm : Polygon × Mat => Surface.new pm.1 pm.2 false none none) = Prod.snd from rfl]
      exact List.map_snd_zip h.ge

/-- **C37, violated (MultiPolygon).** The attribute is never set: asking for it raises
`AttributeError`, whatever the material. -/
theorem C37_multipolygon_violated (polys : List Polygon) (m : Mat) :
    ∃ c, Compound.ofMultiPolygon polys (.one m) = .ok c ∧
      c.reinforcedConcrete.2 = .error .attributeError := ⟨_, rfl, rfl⟩

/-- ... although moving that compound once makes the flag available. -/
theorem C37_multipolygon_moved (polys : List Polygon) (m : Mat) (f : ℝ × ℝ → ℝ × ℝ)
    (hm : m.isConcrete = true) (hp : polys ≠ []) :
    ∃ c, Compound.ofMultiPolygon polys (.one m) = .ok c ∧ (c.move f).reinforcedConcrete.2 = .ok true := by
  refine ⟨_, rfl, ?_⟩
  obtain ⟨p, l, rfl⟩ := List.exists_cons_of_ne_nil hp
  simp [Compound.reinforcedConcrete, Compound.move, Compound.ofList, processList_eq, Geo.surfaces, Surface.move,
    Surface.new, hm]

/-- **C37 (difference), partial.** Subtracting keeps material, and the flag of surfaces whose material
is a `Concrete`. -/
theorem C37_sub_partial (diff : ShapelyResult → Polygon → ShapelyResult) (s t : Surface) (o : Geo)
    (h : s.sub diff o = .ok t) : t.mat = s.mat ∧ (s.mat.isConcrete = true → t.concrete = true) := by
  simp only [Surface.sub] at h
  split at h
  · rw [← Except.ok.inj h]
    exact ⟨rfl, fun hm => by simp [Surface.new, hm]⟩
  · simp at h

/-- **C37, violated (difference).** A surface flagged by the user (`concrete=True` with a generic
material) loses the flag by any subtraction, even of a bar. -/
theorem C37_sub_violated (diff : ShapelyResult → Polygon → ShapelyResult) (poly : Polygon) (m : Mat)
    (hm : m.isConcrete = false) (b : PointGeo) :
    let s := Surface.new poly m true none none
    s.concrete = true ∧ ∃ t, s.sub diff (.point b) = .ok t ∧ t.poly = s.poly ∧ t.concrete = false := by
  intro s
  refine ⟨by simp [s, Surface.new, hm], Surface.new poly m false none none, rfl, rfl, by simp [Surface.new, hm]⟩

/-- Differences of compounds keep all bars and subtract from every surface. -/
theorem C37_compound_sub (diff : ShapelyResult → Polygon → ShapelyResult) (c d : Compound) (o : Geo)
    (h : c.sub diff o = .ok d) : d.pts = c.pts ∧ d.surfs.length = c.surfs.length ∧
      d.surfs.map Surface.mat = c.surfs.map Surface.mat := by
  have key : ∀ (l ss : List Surface), (l.mapM fun s => s.sub diff o) = .ok ss →
      ss.length = l.length ∧ ss.map Surface.mat = l.map Surface.mat := by
    intro l
    induction l with
    | nil => intro ss h; simp [pure, Except.pure] at h; simp [← h]
    | cons s l ih =>
      intro ss h
      rw [List.mapM_cons] at h
      cases h1 : s.sub diff o with
      | error e => rw [h1] at h; simp [bind, Except.bind] at h
      | ok t =>
        cases h2 : l.mapM fun s => s.sub diff o with
        | error e => rw [h1, h2] at h; simp [bind, Except.bind] at h
        | ok ts =>
          rw [h1, h2] at h
          simp [bind, Except.bind, pure, Except.pure] at h
          obtain ⟨i1, i2⟩ := ih ts h2
          rw [← h]
          simp [i1, i2, (C37_sub_partial diff s t o h1).1]
  cases o with
  | point p => simp [Compound.sub] at h; simp [← h]
  | surface t =>
    simp only [Compound.sub] at h
    split at h
    · simp at h
    · rename_i ss hss
      obtain ⟨k1, k2⟩ := key _ _ hss
      rw [← Except.ok.inj h]
      simp [Compound.ofList, processList_eq, Geo.surfaces, Geo.bars, List.flatMap_map, List.flatMap_append, k1, k2]
  | compound t =>
    simp only [Compound.sub] at h
    split at h
    · simp at h
    · rename_i ss hss
      obtain ⟨k1, k2⟩ := key _ _ hss
      rw [← Except.ok.inj h]
      simp [Compound.ofList, processList_eq, Geo.surfaces, Geo.bars, List.flatMap_map, List.flatMap_append, k1, k2]

/-! ### C55: names and labels -/

/-- **C55, partial.** Moving a geometry keeps name and label of every bar. -/
theorem C55_bars_partial (f : ℝ × ℝ → ℝ × ℝ) (g : Geo) :
    (g.move f).bars.map (fun p => (p.name, p.label)) = g.bars.map fun p => (p.name, p.label) := by
  rw [(move_surfaces f g).2]
  simp [PointGeo.move, Function.comp_def]

/-- **C55, violated.** Every surface loses its name and label by any motion, even by a translation
by zero. -/
theorem C55_surfaces_violated (f : ℝ × ℝ → ℝ × ℝ) (g : Geo) :
    ∀ s ∈ (g.move f).surfaces, s.name = none ∧ s.label = none := by
  intro s hs
  rw [(move_surfaces f g).1] at hs
  obtain ⟨t, _, rfl⟩ := List.mem_map.1 hs
  exact ⟨rfl, rfl⟩

end SC
