import Verif.Props.DiscretizeSection
import Verif.Props.FiberStrength
import Verif.Props.FiberOrdinary

/-! # C84: sections of concrete whose law has no Marin expressions of its own -/

set_option autoImplicit false

namespace SC

open Spec MeasureTheory

/-! ### The polygon -/

theorem polygonal_node (f : ℝ → ℝ) {u : ℝ} (hu : 0 < u) (i : ℕ) (hi : i ≤ 10) : polygonal f u (tenth u i) = f (tenth u i) := by
  rcases Nat.lt_or_ge i 10 with h | h
  · have := polygonal_chord f hu i h 0 le_rfl zero_le_one
    simpa using this
  · have e : i = 10 := by omega
    subst e
    have := polygonal_chord f hu 9 (by norm_num) 1 zero_le_one le_rfl
    have e : tenth u 9 + 1 * (u / 10) = tenth u 10 := by rw [one_mul, ← tenth_succ]
    rw [e] at this
    simpa using this

/-- A transitive relation between the strains of a segment, and between positive strains, holds throughout. -/
theorem tenths_glue {u : ℝ} (hu : 0 < u) (Q : ℝ → ℝ → Prop) (htrans : ∀ x y z, x ≤ y → y ≤ z → Q x y → Q y z → Q x z)
    (hseg : ∀ i < 10, ∀ x y, tenth u i ≤ x → x ≤ y → y ≤ tenth u (i + 1) → Q x y)
    (hpos : ∀ x y, 0 ≤ x → x ≤ y → Q x y) {x y : ℝ} (hx : -u ≤ x) (hxy : x ≤ y) : Q x y := by
  have key : ∀ k ≤ 10, ∀ x y, -u ≤ x → x ≤ y → y ≤ tenth u k → Q x y := by
    intro k
    induction k with
    | zero =>
      intro _ x y h1 h2 h3
      refine hseg 0 (by norm_num) x y (by rw [tenth_zero]; exact h1) h2 (h3.trans (tenth_lt hu (by norm_num)).le)
    | succ k ih =>
      intro hk x y h1 h2 h3
      rcases le_total y (tenth u k) with h | h
      · exact ih (by omega) x y h1 h2 h
      rcases le_total (tenth u k) x with h' | h'
      · exact hseg k (by omega) x y h' h2 h3
      · exact htrans x _ y h' h (ih (by omega) x _ h1 h' le_rfl) (hseg k (by omega) _ y le_rfl h h3)
  have k10 := key 10 le_rfl
  rw [tenth_ten] at k10
  rcases le_total y 0 with h | h
  · exact k10 x y hx hxy h
  rcases le_total 0 x with h' | h'
  · exact hpos x y h' hxy
  · exact htrans x 0 y h' h (k10 x 0 hx h' le_rfl) (hpos 0 y le_rfl h)

theorem polygonal_tension {f : ℝ → ℝ} {u : ℝ} (hu : 0 < u) (hz : f 0 = 0) {x : ℝ} (hx : 0 ≤ x) : polygonal f u x = 0 := by
  rcases hx.eq_or_lt with rfl | h
  · have := polygonal_node f hu 10 le_rfl
    rw [tenth_ten, hz] at this
    exact this
  · exact polygonal_outside f hu (.inr h)

theorem polygonal_segment (f : ℝ → ℝ) {u : ℝ} (hu : 0 < u) (i : ℕ) (hi : i < 10) {x y : ℝ} (h1 : tenth u i ≤ x) (h2 : x ≤ y)
    (h3 : y ≤ tenth u (i + 1)) :
    polygonal f u y - polygonal f u x = (f (tenth u (i + 1)) - f (tenth u i)) * ((y - x) / (u / 10)) := by
  have key : ∀ z, tenth u i ≤ z → z ≤ tenth u (i + 1) →
      polygonal f u z = (1 - (z - tenth u i) / (u / 10)) * f (tenth u i) + (z - tenth u i) / (u / 10) * f (tenth u (i + 1)) := by
    intro z hz1 hz2
    have hp : 0 < u / 10 := by positivity
    rw [tenth_succ] at hz2
    rw [← polygonal_chord f hu i hi ((z - tenth u i) / (u / 10)) (div_nonneg (by linarith) hp.le)
      ((div_le_one hp).2 (by linarith)), div_mul_cancel₀ _ hp.ne']
    congr 1
    ring
  rw [key y (h1.trans h2) h3, key x h1 (h2.trans h3)]
  ring

theorem polygonal_lipschitz {f : ℝ → ℝ} {u L : ℝ} (hu : 0 < u) (hL : 0 ≤ L)
    (h : ∀ i < 10, |f (tenth u (i + 1)) - f (tenth u i)| ≤ L * (u / 10)) (hz : f 0 = 0) {x y : ℝ} (hx : -u ≤ x) (hy : -u ≤ y) :
    |polygonal f u x - polygonal f u y| ≤ L * |x - y| := by
  have key : ∀ x y, -u ≤ x → x ≤ y → |polygonal f u y - polygonal f u x| ≤ L * (y - x) := by
    intro x y hx hxy
    refine tenths_glue hu (fun x y => |polygonal f u y - polygonal f u x| ≤ L * (y - x)) ?_ ?_ ?_ hx hxy
    · intro x y z _ _ h1 h2
      have := abs_sub_le (polygonal f u z) (polygonal f u y) (polygonal f u x)
      linarith
    · intro i hi x y h1 h2 h3
      have hp : 0 < u / 10 := by positivity
      rw [polygonal_segment f hu i hi h1 h2 h3, abs_mul, abs_of_nonneg (div_nonneg (sub_nonneg.2 h2) hp.le)]
      refine (mul_le_mul_of_nonneg_right (h i hi) (div_nonneg (sub_nonneg.2 h2) hp.le)).trans_eq ?_
      field_simp
    · intro x y h1 h2
      rw [polygonal_tension hu hz h1, polygonal_tension hu hz (h1.trans h2)]
      simp only [sub_self, abs_zero]
      exact mul_nonneg hL (by linarith)
  rcases le_total x y with h' | h'
  · rw [abs_sub_comm x y, abs_of_nonneg (sub_nonneg.2 h'), abs_sub_comm]
    exact key x y hx h'
  · rw [abs_of_nonneg (sub_nonneg.2 h')]
    exact key y x hy h'

theorem polygonal_mono {f : ℝ → ℝ} {u : ℝ} (hu : 0 < u)
    (h : ∀ i < 10, f (tenth u i) ≤ f (tenth u (i + 1))) (hz : f 0 = 0) {x y : ℝ} (hx : -u ≤ x) (hxy : x ≤ y) :
    polygonal f u x ≤ polygonal f u y := by
  refine tenths_glue hu (fun x y => polygonal f u x ≤ polygonal f u y) (fun x y z _ _ => le_trans) ?_ ?_ hx hxy
  · intro i hi x y h1 h2 h3
    have := polygonal_segment f hu i hi h1 h2 h3
    have hp : 0 < u / 10 := by positivity
    have := mul_nonneg (sub_nonneg.2 (h i hi)) (div_nonneg (sub_nonneg.2 h2) hp.le)
    linarith
  · intro x y h1 h2
    rw [polygonal_tension hu hz h1, polygonal_tension hu hz (h1.trans h2)]

/-- A non-decreasing law with slope at most `L` differs from the polygon by at most a fortieth of `L u`; if it is moreover convex, the
polygon is on the safe side. -/
theorem polygonal_error {f g : ℝ → ℝ} {u L : ℝ} (hu : 0 < u) (hL : 0 ≤ L) (hfg : ∀ i ≤ 10, f (tenth u i) = g (tenth u i))
    (hmono : ∀ x y, -u ≤ x → x ≤ y → y ≤ 0 → g x ≤ g y ∧ g y - g x ≤ L * (y - x)) (hg : ∀ x, 0 < x → g x = 0)
    {e : ℝ} (he : -u ≤ e) :
    polygonal f u e - g e ≤ L * u / 40 ∧ (ConvexOn ℝ (Set.Icc (-u) 0) g → 0 ≤ polygonal f u e - g e) := by
  have h40 : 0 ≤ L * u / 40 := by positivity
  rcases lt_or_ge 0 e with h | h
  · rw [polygonal_outside f hu (.inr h), hg e h]
    exact ⟨by linarith, fun _ => by simp⟩
  obtain ⟨i, hi, t, h0, h1, rfl⟩ := tenth_cover hu he h
  have hp : 0 < u / 10 := by positivity
  rw [polygonal_chord f hu i hi t h0 h1, hfg i (by omega), hfg (i + 1) (by omega)]
  have l1 := (tenth_mem hu (show i ≤ 10 by omega)).1
  have l2 := (tenth_mem hu (show i + 1 ≤ 10 by omega)).2
  have e1 : tenth u i ≤ tenth u i + t * (u / 10) := by nlinarith
  have e2 : tenth u i + t * (u / 10) ≤ tenth u (i + 1) := by rw [tenth_succ]; nlinarith
  constructor
  · have m1 := (hmono _ _ l1 e1 h).1
    have m2 := (hmono _ _ (l1.trans e1) e2 l2).2
    have e3 : tenth u (i + 1) - (tenth u i + t * (u / 10)) = (1 - t) * (u / 10) := by rw [tenth_succ]; ring
    rw [e3] at m2
    generalize g (tenth u i + t * (u / 10)) = G at *
    have : (1 - t) * g (tenth u i) + t * g (tenth u (i + 1)) - G =
      (1 - t) * (g (tenth u i) - G) + t * (g (tenth u (i + 1)) - G) := by ring
    rw [this]
    have a1 : (1 - t) * (g (tenth u i) - G) ≤ 0 := mul_nonpos_of_nonneg_of_nonpos (by linarith) (by linarith)
    have a2 := mul_le_mul_of_nonneg_left m2 h0
    have a3 : t * (1 - t) ≤ 1 / 4 := by nlinarith [sq_nonneg (t - 1 / 2)]
    have a4 : t * (L * ((1 - t) * (u / 10))) = t * (1 - t) * (L * u / 10) := by ring
    have a5 : t * (1 - t) * (L * u / 10) ≤ 1 / 4 * (L * u / 10) := mul_le_mul_of_nonneg_right a3 (by positivity)
    linarith
  · intro hc
    exact chord_convex hu hc i hi t h0 h1

/-! ### Concrete parts -/

/-- A concrete part: polygon, the region it bounds, the stress `get_stress` of its law and the limit strains; `u` is the ultimate
strain in compression, without its sign. -/
structure PolyPart where
  polygon : Polygon
  region : Set (ℝ × ℝ)
  stress : ℝ → ℝ
  ult : Bool → ℝ × ℝ
  u : ℝ

/-- What the Marin integrator works with instead of the law (core/base.py:268-277; C65_nodes): the law through eleven points. -/
noncomputable def PolyPart.law (p : PolyPart) : UserDefined := ⟨nodes p.stress p.u, -p.u, 0⟩

/-- What the integrator reads of it (section_integrators/_marin_integrator.py:95-113). -/
noncomputable def PolyPart.surf (p : PolyPart) : Surf := Surf.ofMarin p.polygon p.law.marin p.law.marinT

/-- The part with the polygon as response. -/
noncomputable def PolyPart.solid (p : PolyPart) : Solid := ⟨⟨p.surf, p.region, polygonal p.stress p.u⟩, true, p.ult⟩

/-- What is assumed of a part. -/
structure PolyPart.Ok (split : Polygon → ℝ → ℝ → ShapelyResult) (th : ℝ) (p : PolyPart) : Prop where
  encloses : Encloses p.polygon.ext p.polygon.ints p.region
  inHull : p.region ⊆ convexHull ℝ {v | v ∈ p.polygon.ext}
  splits : SplitsExactly split ((p.polygon.rotate (-th)).rotate (-Real.pi)) (rotPt (-Real.pi) '' (rotPt (-th) '' p.region))
  zero : p.stress 0 = 0
  limits : p.ult false = (-p.u, 100)

theorem poly_good {split : Polygon → ℝ → ℝ → ShapelyResult} {th : ℝ} {p : PolyPart} (h : p.Ok split th) (hu : 0 < p.u) (e chi : ℝ)
    (hchi : chi < 0) : (p.solid.spec.turn (-th)).Good split .stress ![e, chi, 0] := by
  have hg : (![e, chi, 0] : Fin 3 → ℝ) 1 ≠ 0 ∨ (![e, chi, 0] : Fin 3 → ℝ) 2 ≠ 0 := Or.inl hchi.ne
  have hp := gradient_pos hg
  obtain ⟨rs, hrs, hm⟩ := polygonal_pieces p.stress hu ((![e, chi, 0] : Fin 3 → ℝ) 0) (gradient ![e, chi, 0]) hp.ne'
  exact (good_of_pieces split ![e, chi, 0] hg (p.polygon.rotate (-th)) (rotPt (-th) '' p.region)
    (encloses_rot (-th) h.encloses) (by rw [neutralAngle_neg hchi]; exact h.splits) p.law.marin p.law.marinT
    (polygonal p.stress p.u) _ (fun _ _ => trivial) (by intro a b hb; simp [UserDefined.marin, hb])
    (by intro a b hb; simp [UserDefined.marinT, hb])).1 ⟨rs, hrs, piecesMatch_interior hm⟩

theorem poly_good_uniform {split : Polygon → ℝ → ℝ → ShapelyResult} {p : PolyPart}
    (henc : Encloses p.polygon.ext p.polygon.ints p.region) (hu : 0 < p.u) {e : ℝ} (he : snap (-p.u, 0) e = e) :
    SurfSpec.Good split .stress ![e, 0, 0] p.solid.spec := by
  have hgrad : gradient ![e, 0, 0] = 0 := by simp [gradient]
  have hs := nodes_increasing p.stress hu
  have hl : 2 ≤ (nodes p.stress p.u).length := by simp [nodes]
  have hy : ∀ y, _ := fun y => C13_userdefined_uniform p.law hs hl e y
  have hr := (hy 0).1
  have h2 : (p.law.marin e 0).2 = e := by
    simp only [UserDefined.marin, if_true]
    exact he
  refine ⟨henc, ?_, ?_⟩
  · rintro ⟨m, rs, hm, hrs⟩
    exfalso
    have : m = (p.law.marin e 0).1 := by
      rw [hgrad] at hm
      simp only [PolyPart.solid, PolyPart.surf, Surf.ofMarin, Surf.coefficients, Matrix.cons_val, Except.ok.injEq] at hm
      exact hm.symm
    rw [this, hr] at hrs
    cases hrs
  · rw [hgrad]
    refine ⟨h2, (p.law.marin e 0).1, rfl, Or.inl ⟨hr, ?_⟩⟩
    obtain ⟨c, hc, -⟩ := (hy 0).2
    refine ⟨c, hc, fun y _ => ?_⟩
    obtain ⟨c', hc', h⟩ := (hy y).2
    rw [hc] at hc'
    cases hc'
    simp only [Matrix.cons_val, zero_mul, add_zero]
    rw [h]
    change interp (snap (-p.u, 0) e) (nodes p.stress p.u) 0 0 = polygonal p.stress p.u e
    rw [he]
    rfl

end SC
