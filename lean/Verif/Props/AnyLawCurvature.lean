import Verif.Props.CurvatureZero
import Verif.Props.SofteningStrength

/-! # C87: moment–curvature diagrams of sections with concrete of any law

The section theorem, for surfaces whose law the Marin integrator integrates exactly, for given and default curvatures, zero
included. -/

set_option autoImplicit false

namespace SC

open Spec MeasureTheory

/-- The plane of curvature `c` about the axis inclined by `th`, with the strain the integrator works with. -/
noncomputable def bentPlane (lim : ℝ × ℝ) (th c e : ℝ) : Fin 3 → ℝ := ![heldStrain lim c e, c * Real.cos th, c * Real.sin th]

/-- Under curvature it is the plane with the given strain at the origin. -/
theorem bentPlane_curved (lim : ℝ × ℝ) (th : ℝ) {c : ℝ} (hc : c ≠ 0) (e : ℝ) :
    bentPlane lim th c e = ![e, c * Real.cos th, c * Real.sin th] := by simp [bentPlane, heldStrain, hc]

/-- Bars and concrete belong together at the curvature `c`: the concrete crushes; strained by `u` either way every bar carries stress;
the strains in the bars differ by no more than `2 u`, and every point of the concrete is within `u` of a bar. -/
structure Spec.CrossSection.Tied (S : CrossSection) (th c u : ℝ) : Prop where
  crushes : ∀ p ∈ S.plates, Crushes p.response
  bars : ∀ r ∈ S.rods, r.fibre.resp u ≠ 0 ∧ r.fibre.resp (-u) ≠ 0
  span : ∀ r ∈ S.rods, ∀ r' ∈ S.rods, |c| * |height th (r.fibre.y, r.fibre.z) - height th (r'.fibre.y, r'.fibre.z)| ≤ 2 * u
  cover : ∀ p ∈ S.plates, ∀ q ∈ p.region, ∃ r ∈ S.rods, |c| * |height th q - height th (r.fibre.y, r.fibre.z)| ≤ u

/-- One point of a moment–curvature diagram of the section `S` for the axial force `n`, with the strain at which the search for it
started (the strain of the point before): its curvature is the one asked for, its moments are those of its strain plane, and the axial
force of its plane is `n`, within 0.01, unless the search was driven away, or met the force exactly on its way. It does not meet it in a
state in which the whole section is broken. -/
structure DiagramPoint (S : CrossSection) (lim : ℝ × ℝ) (th n c : ℝ) (q : ℝ × MCPoint) : Prop where
  curvature : q.2.2.2 = (c * Real.cos th, c * Real.sin th)
  moment : q.2.2.1 = (S.forces (bentPlane lim th c q.2.1) 1, S.forces (bentPlane lim th c q.2.1) 2)
  balance : |S.forces (bentPlane lim th c q.2.1) 0 - n| ≤ 1e-2 ∨ Driven (fun x => S.forces (bentPlane lim th c x) 0) n q.1 ∨
    ∃ x, MetBetween (fun x => S.forces (bentPlane lim th c x) 0) n q.1 x ∧ ∀ u, S.Tied th c u → ¬ S.Broken (bentPlane lim th c x)

theorem plane_heights (th c : ℝ) (p q : ℝ × ℝ) : |planeStrain ![0, c * Real.cos th, c * Real.sin th] p.1 p.2 -
    planeStrain ![0, c * Real.cos th, c * Real.sin th] q.1 q.2| = |c| * |height th p - height th q| := by
  rw [← abs_mul]
  congr 1
  simp only [planeStrain, height, Matrix.cons_val]
  ring

theorem broken_axial {S : CrossSection} {e : Fin 3 → ℝ} (h : S.Broken e) : S.forces e 0 = 0 := by
  rw [axial_eq]
  have h1 : (S.plates.map fun p => ∫ q in p.region, p.response (planeStrain e q.1 q.2)).sum = 0 := by
    refine List.sum_eq_zero ?_
    simp only [List.forall_mem_map]
    exact fun p hp => setIntegral_eq_zero_of_forall_eq_zero fun q hq => h.2 p hp q hq
  have h2 : (S.rods.map fun r => r.fibre.A * r.fibre.resp (planeStrain e r.fibre.y r.fibre.z)).sum = 0 := by
    refine List.sum_eq_zero ?_
    simp only [List.forall_mem_map]
    intro r hr
    rcases h.1 r hr with ⟨-, h⟩ | ⟨-, h⟩
    · rw [h _ le_rfl, mul_zero]
    · rw [h _ le_rfl, mul_zero]
  rw [h1, h2, add_zero]

theorem point_diagram {S : CrossSection} {lim : ℝ × ℝ} (hlim : lim.1 + (1e-6 + 1e-5 * |lim.1|) < lim.2 - (1e-6 + 1e-5 * |lim.2|))
    {th n c : ℝ} {q : ℝ × MCPoint} (h : PointOk (fun c e => S.forces (bentPlane lim th c e)) th n c q) :
    DiagramPoint S lim th n c q := by
  refine ⟨h.curvature, h.moment, h.balance.imp id (Or.imp id ?_)⟩
  rintro ⟨x, hx⟩
  refine ⟨x, hx, fun u hT hB => ?_⟩
  have hmono : Monotone (heldStrain lim c) := by
    intro a b hab
    unfold heldStrain
    split_ifs
    · exact snap_monotone hlim hab
    · exact hab
  refine not_met_broken hx (broken_axial hB) ?_
  rcases broken_side (S := S) (u := u) hT.crushes hT.bars
    (fun r hr r' hr' => by
      rw [plane_heights th c (r.fibre.y, r.fibre.z) (r'.fibre.y, r'.fibre.z)]; exact hT.span r hr r' hr')
    (fun p hp q hq => by
      obtain ⟨r, hr, h⟩ := hT.cover p hp q hq
      exact ⟨r, hr, by rw [plane_heights th c q (r.fibre.y, r.fibre.z)]; exact h⟩) hB with h | h
  · exact Or.inl fun b hb => h _ (hmono hb)
  · exact Or.inr fun a ha => h _ (hmono ha)

/-- The axial forces that a search can meet exactly at one of the curvatures `K`, other than in a broken state. -/
def metWorking (S : CrossSection) (lim : ℝ × ℝ) (th : ℝ) (K : Set ℝ) : Set ℝ :=
  {n | ∃ x ∈ Grain, ∃ c ∈ K, S.forces (bentPlane lim th c x) 0 = n ∧ ∀ u, S.Tied th c u → ¬ S.Broken (bentPlane lim th c x)}

theorem metWorking_countable (S : CrossSection) (lim : ℝ × ℝ) (th : ℝ) {K : Set ℝ} (hK : K.Countable) :
    (metWorking S lim th K).Countable := by
  refine ((grain_countable.prod hK).image fun q : ℝ × ℝ => S.forces (bentPlane lim th q.2 q.1) 0).mono ?_
  rintro n ⟨e, he, c, hc, h, -⟩
  exact ⟨(e, c), ⟨he, hc⟩, h⟩

/-- For all other axial forces a point is in balance, or its search was driven away. -/
theorem DiagramPoint.working {S : CrossSection} {lim : ℝ × ℝ} {th n c : ℝ} {q : ℝ × MCPoint} {K : Set ℝ}
    (h : DiagramPoint S lim th n c q) (hc : c ∈ K) (hn : n ∉ metWorking S lim th K) :
    |S.forces (bentPlane lim th c q.2.1) 0 - n| ≤ 1e-2 ∨ Driven (fun x => S.forces (bentPlane lim th c x) 0) n q.1 := by
  rcases h.balance with h | h | ⟨x, hx, hb⟩
  · exact Or.inl h
  · exact Or.inr h
  · exact absurd ⟨x, hx.2.1, c, hc, hx.2.2.1, hb⟩ hn

/-- A search from an unstrained section without axial force at zero curvature ends at once. -/
theorem DiagramPoint.start {S : CrossSection} {lim : ℝ × ℝ} {th c : ℝ} {q : ℝ × MCPoint} (h : DiagramPoint S lim th 0 c q)
    (h0 : S.forces (bentPlane lim th c q.1) 0 = 0) : |S.forces (bentPlane lim th c q.2.1) 0| ≤ 1e-2 ∨
      Driven (fun x => S.forces (bentPlane lim th c x) 0) 0 q.1 := by
  rcases h.balance with h | h | ⟨x, hx, -⟩
  · exact Or.inl (by simpa using h)
  · exact Or.inr h
  · have := hx.1
    simp only [h0, sub_zero, abs_zero] at this
    norm_num at this

/-! ### Laws and sections -/

/-- What is asked of a law: under curvature the integrator's polynomials are the response `f`; a uniform strain is replaced by a limit
strain close to it, and then answered with `f`. -/
structure Exact (M MT : ℝ → ℝ → MarinOut × ℝ) (f : ℝ → ℝ) (lim : ℝ × ℝ) : Prop where
  pieces : ∀ e0 e1 : ℝ, e1 ≠ 0 → ∃ rs, (M e0 e1).1.ranges = some rs ∧ PiecesMatch f e0 e1 (fun _ => True) rs (M e0 e1).1.coeffs
  kept : ∀ e0 e1 : ℝ, e1 ≠ 0 → (M e0 e1).2 = e0 ∧ (MT e0 e1).2 = e0
  snaps : ∀ e, M e 0 = M (snap lim e) 0
  uniform : ∀ e, snap lim e = e → (M e 0).2 = e ∧ ∀ y, (M e 0).1.ranges = none ∧ ∃ c, (M e 0).1.coeffs = [c] ∧ evalPoly c y = f e
  apart : lim.1 + (1e-6 + 1e-5 * |lim.1|) < lim.2 - (1e-6 + 1e-5 * |lim.2|)

theorem Exact.not_close {M MT : ℝ → ℝ → MarinOut × ℝ} {f : ℝ → ℝ} {lim : ℝ × ℝ} (h : Exact M MT f lim) : ¬ isclose lim.1 lim.2 := by
  intro hc
  have := h.apart
  unfold isclose at hc
  have t1 : 0 ≤ 1e-6 + 1e-5 * |lim.1| := by positivity
  generalize 1e-6 + 1e-5 * |lim.1| = t at *
  generalize 1e-6 + 1e-5 * |lim.2| = t' at *
  rw [abs_le] at hc
  linarith

/-- The surfaces of a section of one material. -/
def lawSolids (M MT : ℝ → ℝ → MarinOut × ℝ) (f : ℝ → ℝ) (concrete : Bool) (ult : Bool → ℝ × ℝ)
    (shapes : List (Polygon × Set (ℝ × ℝ))) : List Solid :=
  shapes.map fun s => ⟨⟨Surf.ofMarin s.1 M MT, s.2, f⟩, concrete, ult⟩

section Section

variable {split : Polygon → ℝ → ℝ → ShapelyResult} {M MT : ℝ → ℝ → MarinOut × ℝ} {f : ℝ → ℝ} {lim : ℝ × ℝ} {concrete : Bool}
  {ult : Bool → ℝ × ℝ} {shapes : List (Polygon × Set (ℝ × ℝ))} {bars : List Bar} {th : ℝ}

theorem law_bends (hlaw : Exact M MT f lim) (henc : ∀ p ∈ shapes, Encloses p.1.ext p.1.ints p.2)
    (hdown : ∀ p ∈ shapes,
      SplitsExactly split ((p.1.rotate (-th)).rotate (-Real.pi)) (rotPt (-Real.pi) '' (rotPt (-th) '' p.2)))
    {chis : List ℝ} (hup : (∃ c ∈ chis, 0 < c) → ∀ p ∈ shapes, SplitsExactly split (p.1.rotate (-th)) (rotPt (-th) '' p.2)) :
    ∀ s ∈ lawSolids M MT f concrete ult shapes, s.Bends split th lim chis := by
  intro s hs
  obtain ⟨q, hq, rfl⟩ := List.mem_map.1 hs
  refine ⟨(henc q hq).measurable, fun c hc h0 e => ?_, fun e => by
    simp only [Surf.ofMarin, hlaw.snaps e], fun e he => ?_⟩
  · exact good_curved (henc q hq) h0 (hdown q hq) (fun h => hup ⟨c, hc, h⟩ q hq) e hlaw.pieces
      (fun a b hb => (hlaw.kept a b hb).1) fun a b hb => (hlaw.kept a b hb).2
  · exact good_uniform (henc q hq) (hlaw.uniform e he).2 (hlaw.uniform e he).1 _

/-- The diagram for curvatures given by the caller, zero included. -/
theorem law_diagram (ms : ℝ) (lu : Matrix (Fin 3) (Fin 3) ℝ → (Fin 3 → ℝ) → (Fin 3 → ℝ)) (hlaw : Exact M MT f lim)
    (hne : shapes ≠ []) (henc : ∀ p ∈ shapes, Encloses p.1.ext p.1.ints p.2)
    (hdown : ∀ p ∈ shapes,
      SplitsExactly split ((p.1.rotate (-th)).rotate (-Real.pi)) (rotPt (-Real.pi) '' (rotPt (-th) '' p.2)))
    (hid : SameIds (bars.map Bar.law)) (hd : EqualSizes (groupBars bars)) (chis : List ℝ)
    (hup : (∃ c ∈ chis, 0 < c) → ∀ p ∈ shapes, SplitsExactly split (p.1.rotate (-th)) (rotPt (-th) '' p.2))
    (n c : ℝ) (a b : ℕ) (ops : List Op) (pts : List MCPoint)
    (hops : Undisturbed (sectionEngine split (lawSolids M MT f concrete ult shapes) bars ms) lu ops .fresh)
    (hrun : (momentCurvature (sectionEngine split (lawSolids M MT f concrete ult shapes) bars ms) th n c a b (some chis)
      (history (sectionEngine split (lawSolids M MT f concrete ult shapes) bars ms) lu ops .fresh)).2 = .ok pts) :
    List.Forall₂ (DiagramPoint (crossSection (lawSolids M MT f concrete ult shapes) bars) lim th n) chis
      ((0 :: pts.map Prod.fst).zip pts) := by
  have hE : (sectionEngine split (lawSolids M MT f concrete ult shapes) bars ms).Lawful fun _ => .ok (groupBars bars) :=
    marinEngine_lawful _ _ _ _ _ _
  have hb := law_bends (concrete := concrete) (ult := ult) hlaw henc hdown hup
  have := gives_diagram hE rfl rfl lu chis
    (G := fun c e => (crossSection (lawSolids M MT f concrete ult shapes) bars).forces (bentPlane lim th c e))
    (fun c hc => bends_gives split ms hid hd (by simpa [lawSolids] using hne) hlaw.not_close hb hc) n c a b ops pts hops hrun
  exact this.imp fun c q h => point_diagram hlaw.apart h

/-- The diagram with the default curvatures. -/
theorem law_default (ms : ℝ) (lu : Matrix (Fin 3) (Fin 3) ℝ → (Fin 3 → ℝ) → (Fin 3 → ℝ)) (hlaw : Exact M MT f lim)
    (henc : ∀ p ∈ shapes, Encloses p.1.ext p.1.ints p.2)
    (hdown : ∀ p ∈ shapes,
      SplitsExactly split ((p.1.rotate (-th)).rotate (-Real.pi)) (rotPt (-Real.pi) '' (rotPt (-th) '' p.2)))
    (hid : SameIds (bars.map Bar.law)) (hd : EqualSizes (groupBars bars)) {yn yp yn' yp' : ℝ} {st sty : Fin 3 → ℝ}
    (hbal : (sectionEngine split (lawSolids M MT f concrete ult shapes) bars ms).balanced (-th) false = .ok (yn, yp, st))
    (hbaly : (sectionEngine split (lawSolids M MT f concrete ult shapes) bars ms).balanced (-th) true = .ok (yn', yp', sty))
    (hst : st 1 ≤ -1e-13) (hsty : sty 1 ≤ -1e-13) (cf : ℝ) (hcf : cf ≠ 0) (a b : ℕ) (ha : 2 ≤ a) (hb : 1 ≤ b) :
    ∃ K : Set ℝ, K.Countable ∧ ∀ n (ops : List Op) (pts : List MCPoint),
      Undisturbed (sectionEngine split (lawSolids M MT f concrete ult shapes) bars ms) lu ops .fresh →
      (momentCurvature (sectionEngine split (lawSolids M MT f concrete ult shapes) bars ms) th n cf a b none
        (history (sectionEngine split (lawSolids M MT f concrete ult shapes) bars ms) lu ops .fresh)).2 = .ok pts →
      ∃ cy < 0, ∃ cu < 0, AtPivot yn' yp' sty cy ∧ AtPivot yn yp st cu ∧
        (∀ (ops' : List Op) (r : BendingResult),
          Undisturbed (sectionEngine split (lawSolids M MT f concrete ult shapes) bars ms) lu ops' .fresh →
          (bendingStrength (sectionEngine split (lawSolids M MT f concrete ult shapes) bars ms) th n
            (history (sectionEngine split (lawSolids M MT f concrete ult shapes) bars ms) lu ops' .fresh)).2 = .ok r →
          r.chi = (cu * Real.cos th, cu * Real.sin th)) ∧
        ∃ chis : List ℝ, DefaultCurvatures chis a b cy cu ∧ (∀ c ∈ chis, c ∈ K) ∧
          List.Forall₂ (DiagramPoint (crossSection (lawSolids M MT f concrete ult shapes) bars) lim th n) chis
            ((0 :: pts.map Prod.fst).zip pts) := by
  have hE : (sectionEngine split (lawSolids M MT f concrete ult shapes) bars ms).Lawful fun _ => .ok (groupBars bars) :=
    marinEngine_lawful _ _ _ _ _ _
  have h2 : ∀ (y : Bool) (yn yp : ℝ) (st : Fin 3 → ℝ),
      (sectionEngine split (lawSolids M MT f concrete ult shapes) bars ms).balanced (-th) y = .ok (yn, yp, st) → st 2 = 0 := by
    intro y yn yp st h
    simp only [sectionEngine, marinEngine, balancedFailure] at h
    split at h
    · cases h
    · simp only [Except.ok.injEq, Prod.mk.injEq] at h
      rw [← h.2.2]; rfl
  obtain ⟨K, hK, h⟩ := gives_default hE rfl rfl lu (th := th) (S := crossSection (lawSolids M MT f concrete ult shapes) bars)
    (fun c hc => marin_answers_at split _ bars ms th c hid hd (by
      intro s hs
      obtain ⟨q, hq, rfl⟩ := List.mem_map.1 hs
      refine ⟨(henc q hq).measurable, fun e => ?_⟩
      exact good_curved (henc q hq) hc.ne (hdown q hq) (fun h => absurd h hc.not_gt) e hlaw.pieces
        (fun a b hb => (hlaw.kept a b hb).1) fun a b hb => (hlaw.kept a b hb).2)) hbal hbaly hst hsty
    (h2 _ _ _ _ hbal) (h2 _ _ _ _ hbaly) cf hcf a b ha hb
  refine ⟨K, hK, fun n ops pts hops hrun => ?_⟩
  obtain ⟨cy, hy, cu, hu, p1, p2, h1, chis, hchis, hcK, hpts⟩ := h n ops pts hops hrun
  refine ⟨cy, hy, cu, hu, p1, p2, h1, chis, hchis, hcK, ?_⟩
  have hneg : ∀ c ∈ chis, c ≠ 0 := fun c hc => (hchis.negative c hc).ne
  clear h hrun
  generalize (0 :: pts.map Prod.fst).zip pts = qs at hpts
  clear hchis hcK
  induction hpts with
  | nil => exact .nil
  | @cons c q cs qs hq hqs ih =>
    refine .cons (point_diagram hlaw.apart ?_) (ih fun c hc => hneg c (List.mem_cons_of_mem _ hc))
    have hc := hneg c (by simp)
    have : ∀ e, bentPlane lim th c e = ![e, c * Real.cos th, c * Real.sin th] := bentPlane_curved lim th hc
    refine ⟨hq.curvature, ?_, ?_⟩
    · simp only [this]; exact hq.moment
    · simp only [this]; exact hq.balance

end Section

/-! ### Concrete laws -/

theorem limits_apart {u : ℝ} (hu : 0 ≤ u) :
    ((-u, 100) : ℝ × ℝ).1 + (1e-6 + 1e-5 * |((-u, 100) : ℝ × ℝ).1|) < ((-u, 100) : ℝ × ℝ).2 - (1e-6 + 1e-5 * |((-u, 100) : ℝ × ℝ).2|) := by
  simp only [abs_neg, abs_of_nonneg hu]
  norm_num
  linarith

theorem limits_not_close {u : ℝ} (hu : 0 ≤ u) : ¬ isclose ((-u, 100) : ℝ × ℝ).1 ((-u, 100) : ℝ × ℝ).2 := by
  simp only [isclose, not_le, lt_abs]
  right
  norm_num
  linarith

theorem bilinear_exact {fc ec u : ℝ} {l : Bilinear} (hl : Bilinear.new? fc ec (some u) = .ok l) (hu0 : |ec| ≤ |u|) :
    Exact l.marin l.marinT l.core (-|u|, 100) := by
  have hlu : l.ult false = (-|u|, 100) := by rw [(bilinear_new hl).2]; rfl
  refine ⟨fun e0 e1 he => bilinear_core_pieces hl hu0 e0 e1 he, fun e0 e1 he => ⟨by simp [Bilinear.marin, he],
    by simp [Bilinear.marinT, he]⟩, ?_, ?_, limits_apart (abs_nonneg u)⟩
  · intro e
    simp only [Bilinear.marin, if_true, hlu]
    rw [snap_idem (limits_not_close (abs_nonneg u))]
  · intro e he
    refine ⟨?_, fun y => ?_⟩
    · simp only [Bilinear.marin, if_true, hlu, he]
      split_ifs <;> rfl
    · have := C13_bilinear_uniform hl hu0 e y
      simp only [Bilinear.stress, hlu, he] at this
      exact this

theorem parabola_exact (fc e0 u : ℝ) (h0 : 0 < |e0|) (hu0 : |e0| ≤ |u|) :
    Exact (ParabolaRectangle.new fc e0 u 2).marin (ParabolaRectangle.new fc e0 u 2).marinT (ParabolaRectangle.new fc e0 u 2).core
      (-|u|, 100) := by
  have hlu : (ParabolaRectangle.new fc e0 u 2).ult false = (-|u|, 100) := rfl
  refine ⟨fun x y he => pr_core_pieces fc e0 u x y h0 hu0 he, fun x y he => ⟨by simp [ParabolaRectangle.marin, he],
    by simp [ParabolaRectangle.marinT, he]⟩, ?_, ?_, limits_apart (abs_nonneg u)⟩
  · intro e
    simp only [ParabolaRectangle.marin, if_true, hlu]
    rw [snap_idem (limits_not_close (abs_nonneg u))]
  · intro e he
    refine ⟨?_, fun y => ?_⟩
    · simp only [ParabolaRectangle.marin, if_true, hlu, he]
      split_ifs <;> rfl
    · have := C13_parabola_rectangle_uniform fc e0 u e y h0 hu0
      simp only [ParabolaRectangle.stress, hlu, he] at this
      exact this

theorem polygonal_exact (stress : ℝ → ℝ) {u : ℝ} (hu : 1e-5 ≤ u) :
    Exact (UserDefined.mk (nodes stress u) (-u) 0).marin (UserDefined.mk (nodes stress u) (-u) 0).marinT (polygonal stress u) (-u, 0) := by
  have hpos : 0 < u := lt_of_lt_of_le (by norm_num) hu
  have ha : ((-u, 0) : ℝ × ℝ).1 + (1e-6 + 1e-5 * |((-u, 0) : ℝ × ℝ).1|) < ((-u, 0) : ℝ × ℝ).2 - (1e-6 + 1e-5 * |((-u, 0) : ℝ × ℝ).2|) := by
    simp only [abs_neg, abs_of_pos hpos]
    norm_num at *
    linarith
  have hc : ¬ isclose ((-u, 0) : ℝ × ℝ).1 ((-u, 0) : ℝ × ℝ).2 := by
    simp only [isclose, not_le, lt_abs]
    right
    norm_num at *
    linarith
  refine ⟨fun x y he => polygonal_pieces stress hpos x y he, fun x y he => ⟨by simp [UserDefined.marin, he],
    by simp [UserDefined.marinT, he]⟩, ?_, ?_, ha⟩
  · intro e
    simp only [UserDefined.marin, if_true, UserDefined.ult]
    rw [snap_idem hc]
  · intro e he
    refine ⟨?_, fun y => ?_⟩
    · simp only [UserDefined.marin, if_true]
      exact he
    · have := C13_userdefined_uniform ⟨nodes stress u, -u, 0⟩ (nodes_increasing stress hpos) (by simp [nodes]) e y
      refine ⟨this.1, ?_⟩
      obtain ⟨c, hc, h⟩ := this.2
      refine ⟨c, hc, ?_⟩
      rw [h]
      change interp (snap (-u, 0) e) (nodes stress u) 0 0 = polygonal stress u e
      rw [he]
      rfl

end SC
