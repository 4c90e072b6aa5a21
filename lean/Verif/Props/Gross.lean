import Verif.Model.Gross
import Verif.Spec.Gross
import Verif.Lemmas.RegionTranslate
import Verif.Props.MarinExact

/-! # C52: gross section properties -/

set_option autoImplicit false

namespace SC

open Spec MeasureTheory

noncomputable section

/-- The forces of an elastic body under a plane strain. -/
def bodyForces (b : Body) (e : Fin 3 → ℝ) : Fin 3 → ℝ :=
  ![b.integral fun x => planeStrain e x.1 x.2, b.integral fun x => planeStrain e x.1 x.2 * x.2,
    -b.integral fun x => planeStrain e x.1 x.2 * x.1]

/-- The integrator returns the forces of the body `b` on the given elastic geometry. -/
def IntegratesAs (integ : ElasticIntegrator) (surfs : List ESurf) (bars : List EBar) (b : Body) : Prop :=
  ∃ d, ∀ e, integ surfs bars e none = .ok (.forces (bodyForces b e), d) ∧
    integ surfs bars e (some d) = .ok (.forces (bodyForces b e), d)

/-- `Sy = ∫ z`, `Sz = ∫ y`, `Iyy = ∫ z²`, `Izz = ∫ y²`, `Iyz = ∫ y z`, about the point `c`. -/
def momentsOf (b : Body) (c : ℝ × ℝ) : AreaMoments where
  sy := b.integral fun x => x.2 - c.2
  sz := b.integral fun x => x.1 - c.1
  iyy := b.integral fun x => (x.2 - c.2) ^ 2
  izz := b.integral fun x => (x.1 - c.1) ^ 2
  iyz := b.integral fun x => (x.1 - c.1) * (x.2 - c.2)

/-- The moments computed from two strain planes are the moments of the body; the internal consistency check
never fails. -/
theorem computeAreaMoments_ok (integ : ElasticIntegrator) (s : GSection) (new : Option Elastic)
    (g : List ESurf × List EBar) (hg : fromGeometry new s = .ok g) (b : Body)
    (h : IntegratesAs integ g.1 g.2 b) :
    computeAreaMoments integ s new = .ok (momentsOf b 0) := by
  obtain ⟨d, hd⟩ := h
  have h1 := (hd ![0, 1, 0]).1
  have h2 := (hd ![0, 0, -1]).2
  have hi : (bodyForces b ![0, 1, 0]) 2 = -(b.integral fun x => x.1 * x.2) := by
    simp [bodyForces, planeStrain, mul_comm]
  have hj : (bodyForces b ![0, 0, -1]) 1 = b.integral fun x => x.1 * x.2 := by
    simp [bodyForces, planeStrain]
  have hcl : ∀ a c t : ℝ, a = c → mathIsclose a c 1e-9 t := by
    rintro a _ t rfl
    unfold mathIsclose
    rw [sub_self, abs_zero]
    exact le_max_of_le_left (by positivity)
  have hx : mathIsclose (-(bodyForces b ![0, 1, 0]) 2) ((bodyForces b ![0, 0, -1]) 1) 1e-9
      (0.5 * ((bodyForces b ![0, 1, 0]) 1 + -(bodyForces b ![0, 0, -1]) 2) * 1e-9) := by
    apply hcl
    rw [hi, hj, neg_neg]
  have h0 : computeAreaMoments integ s new = .ok ⟨(bodyForces b ![0, 1, 0]) 0, (bodyForces b ![0, 0, -1]) 0,
      (bodyForces b ![0, 1, 0]) 1, -(bodyForces b ![0, 0, -1]) 2, -(bodyForces b ![0, 1, 0]) 2⟩ := by
    simp only [computeAreaMoments, hg, h1, h2, computeAreaMoments.raiseIfRun, bind, Except.bind]
    rw [if_neg (not_not.2 hx)]
    rfl
  rw [h0]
  simp [momentsOf, bodyForces, planeStrain, mul_comm, sq]

theorem mapM_ok {α β : Type} (f : α → Except PyErr β) (g : α → β) :
    ∀ l : List α, (∀ a ∈ l, f a = .ok (g a)) → l.mapM f = .ok (l.map g)
  | [], _ => rfl
  | a :: l, h => by
    rw [List.mapM_cons, h a List.mem_cons_self, mapM_ok f g l fun b hb => h b (List.mem_cons_of_mem _ hb)]
    rfl

/-- The elastic geometry with a given law. -/
theorem fromGeometry_some (l : Elastic) (s : GSection) :
    fromGeometry (some l) s = .ok (s.surfs.map fun g => ⟨g.poly, l⟩,
      s.bars.zipIdx.map fun b => ⟨b.1.pt, b.1.area, l, 0⟩) := by
  simp only [fromGeometry]
  rw [mapM_ok (elasticSurface (some l)) (fun g => ⟨g.poly, l⟩) _ fun a _ => rfl,
    mapM_ok (elasticBar (some l)) (fun b => ⟨b.1.pt, b.1.area, l, 0⟩) _ fun a _ => rfl]
  rfl

/-- The elastic geometry with the initial moduli. -/
theorem fromGeometry_none (s : GSection) (hs : ∀ g ∈ s.surfs, 0 < initialModulus g.mat)
    (hb : ∀ b ∈ s.bars, 0 < initialModulus b.mat) :
    fromGeometry none s = .ok (s.surfs.map fun g => ⟨g.poly, ⟨initialModulus g.mat, none⟩⟩,
      s.bars.zipIdx.map fun b => ⟨b.1.pt, b.1.area, ⟨initialModulus b.1.mat, none⟩, b.2⟩) := by
  have he : ∀ m : Material, 0 < initialModulus m → elasticOf m = .ok ⟨initialModulus m, none⟩ := by
    intro m hm
    simp [elasticOf, Elastic.mk?, not_le.2 hm]
  simp only [fromGeometry]
  rw [mapM_ok (elasticSurface none) (fun g => ⟨g.poly, ⟨initialModulus g.mat, none⟩⟩) _
      fun a ha => by simp only [elasticSurface, he _ (hs a ha)]; rfl,
    mapM_ok (elasticBar none) (fun b => ⟨b.1.pt, b.1.area, ⟨initialModulus b.1.mat, none⟩, b.2⟩) _
      fun a ha => by
        have : a.1 ∈ s.bars := List.fst_mem_of_mem_zipIdx ha
        simp only [elasticBar, he _ (hb _ this)]; rfl]
  rfl

/-! ## Marin integrator -/

theorem groupBars_one (bars : List Bar) (i : ℕ) (h : ∀ b ∈ bars, b.law.id = i) :
    EqualSizes (groupBars bars) := by
  have key : ∀ (bars : List Bar) (d : List Group), (∀ b ∈ bars, b.law.id = i) →
      (d = [] ∨ ∃ g, d = [g] ∧ g.law.id = i) →
      (bars.foldl insertBar d = [] ∨ ∃ g, bars.foldl insertBar d = [g] ∧ g.law.id = i) := by
    intro bars
    induction bars with
    | nil => intro d _ hd; exact hd
    | cons b bars ih =>
      intro d hb hd
      apply ih _ fun c hc => hb c (List.mem_cons_of_mem _ hc)
      right
      have hbi := hb b List.mem_cons_self
      rcases hd with rfl | ⟨g, rfl, hg⟩
      · exact ⟨_, rfl, hbi⟩
      · simp only [insertBar, hg, hbi, if_true]
        exact ⟨_, rfl, hg⟩
  rcases key bars [] h (Or.inl rfl) with h | ⟨g, h, -⟩
  · intro a ha; rw [groupBars, h] at ha; simp at ha
  · intro a ha b hb
    rw [groupBars, h, List.mem_singleton] at ha hb
    rw [ha, hb]

theorem insertBar_new (b : Bar) : ∀ d : List Group, (∀ g ∈ d, g.law.id ≠ b.law.id) →
    insertBar d b = d ++ [⟨[(b.x, b.y, b.area)], b.law⟩]
  | [], _ => rfl
  | g :: d, h => by
    rw [insertBar, if_neg (h g List.mem_cons_self),
      insertBar_new b d fun g' hg' => h g' (List.mem_cons_of_mem _ hg')]
    rfl

theorem groupBars_nodup (bars : List Bar) (h : (bars.map fun b => b.law.id).Nodup) :
    groupBars bars = bars.map fun b => ⟨[(b.x, b.y, b.area)], b.law⟩ := by
  have key : ∀ (bars : List Bar) (d : List Group), (bars.map fun b => b.law.id).Nodup →
      (∀ g ∈ d, ∀ b ∈ bars, g.law.id ≠ b.law.id) →
      bars.foldl insertBar d = d ++ bars.map fun b => ⟨[(b.x, b.y, b.area)], b.law⟩ := by
    intro bars
    induction bars with
    | nil => intro d _ _; simp
    | cons b bars ih =>
      intro d hn hd
      rw [List.map_cons, List.nodup_cons] at hn
      rw [List.foldl_cons, insertBar_new b d fun g hg => hd g hg b List.mem_cons_self, ih _ hn.2]
      · simp
      · intro g hg c hc
        rcases List.mem_append.1 hg with hg | hg
        · exact hd g hg c (List.mem_cons_of_mem _ hc)
        · rw [List.mem_singleton] at hg
          subst hg
          intro heq
          exact hn.1 (List.mem_map.2 ⟨c, hc, heq.symm⟩)
  simpa [groupBars] using key bars [] h (by simp)

theorem equalSizes_nodup (bars : List Bar) (h : (bars.map fun b => b.law.id).Nodup) :
    EqualSizes (groupBars bars) := by
  rw [groupBars_nodup bars h]
  intro a ha b hb
  obtain ⟨x, -, rfl⟩ := List.mem_map.1 ha
  obtain ⟨y, -, rfl⟩ := List.mem_map.1 hb
  rfl

theorem integral_lever (R : Set (ℝ × ℝ)) (E : ℝ) (e : Fin 3 → ℝ) :
    regionResultants R (fun eps => E * eps) e =
      ![E * ∫ x in R, planeStrain e x.1 x.2, E * ∫ x in R, planeStrain e x.1 x.2 * x.2,
        -(E * ∫ x in R, planeStrain e x.1 x.2 * x.1)] := by
  funext i
  fin_cases i <;>
    simp [regionResultants, lever, mul_assoc, integral_const_mul, integral_neg]

/-- Marin integration of elastic surfaces and bars. -/
theorem marin_integratesAs (split : Polygon → ℝ → ℝ → ShapelyResult) (secs : List (ESurf × Set (ℝ × ℝ)))
    (henc : ∀ s ∈ secs, Encloses s.1.poly.ext s.1.poly.ints s.2) (bars : List EBar)
    (hid : SameIds ((bars.map EBar.bar).map Bar.law)) (hsz : EqualSizes (groupBars (bars.map EBar.bar))) :
    IntegratesAs (marinElastic split) (secs.map Prod.fst) bars
      ⟨secs.map fun s => (s.1.law.E, s.2), bars.map fun b => (b.law.E * b.area, b.pt)⟩ := by
  refine ⟨groupBars (bars.map EBar.bar), fun e => ?_⟩
  have key : marinElastic split (secs.map Prod.fst) bars e (some (groupBars (bars.map EBar.bar))) =
      .ok (.forces (bodyForces
        ⟨secs.map fun s => (s.1.law.E, s.2), bars.map fun b => (b.law.E * b.area, b.pt)⟩ e),
        groupBars (bars.map EBar.bar)) := by
    have h := C50_forces_partial split
      (secs.map fun s => ⟨elasticSurf s.1.law s.1.poly, s.2, fun eps => s.1.law.E * eps⟩)
      (bars.map EBar.bar) (groupBars (bars.map EBar.bar)) hsz e (by
        intro s hs
        obtain ⟨t, ht, rfl⟩ := List.mem_map.1 hs
        exact (elastic_good split t.1.law t.1.poly t.2 (henc t ht) e).1)
    unfold marinElastic
    rw [List.map_map] at h ⊢
    rw [List.map_map] at h
    have h' : (Surf.mk · · ·) = Surf.mk := rfl
    refine Eq.trans ?_ (h.trans ?_)
    · rfl
    congr 3
    have hp : resultants (fibres Law.stress (groupBars (bars.map EBar.bar))) e =
        resultants ((bars.map EBar.bar).map (Bar.fibre Law.stress)) e := by
      funext i
      exact ((C18_grouping Law.stress (bars.map EBar.bar) hid).map _).sum_eq
    rw [hp]
    clear hp h h' hsz hid henc
    simp only [Function.comp_def, integral_lever]
    have hpt : ∀ bars : List EBar, resultants ((bars.map EBar.bar).map (Bar.fibre Law.stress)) e =
        bodyForces ⟨[], bars.map fun b => (b.law.E * b.area, b.pt)⟩ e := by
      intro bars
      induction bars with
      | nil => funext i; fin_cases i <;> simp [resultants, bodyForces, Body.integral]
      | cons b bars ih =>
        funext i
        have := congrFun ih i
        fin_cases i <;>
          simp [resultants, bodyForces, Body.integral, Bar.fibre, EBar.bar, Elastic.law, Elastic.stress, lever]
            at this ⊢ <;> rw [this] <;> ring
    rw [hpt]
    induction secs with
    | nil => simp
    | cons s secs ih =>
      rw [List.map_cons, List.sum_cons, add_assoc, ih]
      funext i
      fin_cases i <;> simp [bodyForces, Body.integral] <;> ring
  refine ⟨?_, key⟩
  rw [← key]
  exact C20_first_call _ _ _ _ _


/-! ## The whole computation -/

/-- The section as a body: every surface region with the weight `w` of its material, every bar concentrated at
its position. -/
def sectionBody (w : Material → ℝ) (parts : List (GSurf × Set (ℝ × ℝ))) (bars : List GBar) : Body :=
  ⟨parts.map fun p => (w p.1.mat, p.2), bars.map fun b => (w b.mat * b.area, b.pt)⟩

/-- A translated part. -/
def movedPart (dx dy : ℝ) (p : GSurf × Set (ℝ × ℝ)) : GSurf × Set (ℝ × ℝ) :=
  (⟨p.1.poly.map (translatePt dx dy), p.1.mat⟩, translatePt dx dy '' p.2)

/-- A translated bar. -/
def movedBar (dx dy : ℝ) (b : GBar) : GBar := ⟨translatePt dx dy b.pt, b.area, b.mat⟩

theorem integral_moved (w : Material → ℝ) (parts : List (GSurf × Set (ℝ × ℝ))) (bars : List GBar)
    (dx dy : ℝ) (g : ℝ × ℝ → ℝ) :
    (sectionBody w (parts.map (movedPart dx dy)) (bars.map (movedBar dx dy))).integral g =
      (sectionBody w parts bars).integral fun x => g (translatePt dx dy x) := by
  simp only [sectionBody, Body.integral, List.map_map, Function.comp_def, movedPart, movedBar,
    integral_translate]

theorem momentsOf_moved (w : Material → ℝ) (parts : List (GSurf × Set (ℝ × ℝ))) (bars : List GBar)
    (cy cz : ℝ) :
    momentsOf (sectionBody w (parts.map (movedPart (-cy) (-cz))) (bars.map (movedBar (-cy) (-cz)))) 0 =
      momentsOf (sectionBody w parts bars) (cy, cz) := by
  simp only [momentsOf, integral_moved, translatePt, Prod.fst_zero, Prod.snd_zero, sub_zero,
    ← sub_eq_add_neg]

/-- Moments with unit modulus. -/
theorem marin_moments_unit (split : Polygon → ℝ → ℝ → ShapelyResult) (parts : List (GSurf × Set (ℝ × ℝ)))
    (bars : List GBar) (henc : ∀ p ∈ parts, Encloses p.1.poly.ext p.1.poly.ints p.2) :
    computeAreaMoments (marinElastic split) ⟨parts.map Prod.fst, bars⟩ (some ⟨1, none⟩) =
      .ok (momentsOf (sectionBody (fun _ => 1) parts bars) 0) := by
  refine computeAreaMoments_ok _ _ _ _ (fromGeometry_some _ _) _ ?_
  have h := marin_integratesAs split
    (parts.map fun p => ((⟨p.1.poly, ⟨1, none⟩⟩ : ESurf), p.2))
    (by
      intro s hs
      obtain ⟨p, hp, rfl⟩ := List.mem_map.1 hs
      exact henc p hp)
    (bars.zipIdx.map fun b => ⟨b.1.pt, b.1.area, ⟨1, none⟩, 0⟩)
    (by
      intro a ha b hb _
      simp only [List.map_map, List.mem_map, Function.comp_def] at ha hb
      obtain ⟨x, -, rfl⟩ := ha
      obtain ⟨y, -, rfl⟩ := hb
      rfl)
    (by
      apply groupBars_one _ 0
      intro b hb
      simp only [List.map_map, List.mem_map, Function.comp_def] at hb
      obtain ⟨x, -, rfl⟩ := hb
      rfl)
  have hbar : (bars.zipIdx.map fun b => ((⟨b.1.pt, b.1.area, ⟨1, none⟩, 0⟩ : EBar))).map
      (fun b => (b.law.E * b.area, b.pt)) = bars.map fun b => (1 * b.area, b.pt) := by
    rw [List.map_map]
    conv_rhs => rw [← List.zipIdx_map_fst 0 bars, List.map_map]
    rfl
  rw [hbar] at h
  simpa only [List.map_map, Function.comp_def, sectionBody] using h

/-- Moments with the initial moduli. -/
theorem marin_moments_mod (split : Polygon → ℝ → ℝ → ShapelyResult) (parts : List (GSurf × Set (ℝ × ℝ)))
    (bars : List GBar) (henc : ∀ p ∈ parts, Encloses p.1.poly.ext p.1.poly.ints p.2)
    (hs : ∀ p ∈ parts, 0 < initialModulus p.1.mat) (hb : ∀ b ∈ bars, 0 < initialModulus b.mat) :
    computeAreaMoments (marinElastic split) ⟨parts.map Prod.fst, bars⟩ none =
      .ok (momentsOf (sectionBody initialModulus parts bars) 0) := by
  refine computeAreaMoments_ok _ _ _ _ (fromGeometry_none _ (by
    intro g hg
    obtain ⟨p, hp, rfl⟩ := List.mem_map.1 hg
    exact hs p hp) hb) _ ?_
  have hids : (((bars.zipIdx.map fun b =>
      ((⟨b.1.pt, b.1.area, ⟨initialModulus b.1.mat, none⟩, b.2⟩ : EBar))).map EBar.bar).map
        fun b => b.law.id).Nodup := by
    rw [List.map_map, List.map_map]
    change (bars.zipIdx.map Prod.snd).Nodup
    rw [List.zipIdx_map_snd]
    exact List.nodup_range'
  have h := marin_integratesAs split
    (parts.map fun p => ((⟨p.1.poly, ⟨initialModulus p.1.mat, none⟩⟩ : ESurf), p.2))
    (by
      intro s hs
      obtain ⟨p, hp, rfl⟩ := List.mem_map.1 hs
      exact henc p hp)
    (bars.zipIdx.map fun b => ⟨b.1.pt, b.1.area, ⟨initialModulus b.1.mat, none⟩, b.2⟩)
    (by
      intro a ha b hb hab
      rw [List.mem_map] at ha hb
      obtain ⟨x, hx, rfl⟩ := ha
      obtain ⟨y, hy, rfl⟩ := hb
      rw [List.inj_on_of_nodup_map hids hx hy hab])
    (equalSizes_nodup _ hids)
  have hbar : (bars.zipIdx.map fun b =>
      ((⟨b.1.pt, b.1.area, ⟨initialModulus b.1.mat, none⟩, b.2⟩ : EBar))).map
      (fun b => (b.law.E * b.area, b.pt)) = bars.map fun b => (initialModulus b.mat * b.area, b.pt) := by
    rw [List.map_map]
    conv_rhs => rw [← List.zipIdx_map_fst 0 bars, List.map_map]
    rfl
  rw [hbar] at h
  simpa only [List.map_map, Function.comp_def, sectionBody] using h

theorem foldl_sum {α : Type} (f : α → ℝ) (l : List α) (a : ℝ) :
    l.foldl (fun a x => a + f x) a = a + (l.map f).sum := by
  induction l generalizing a with
  | nil => simp
  | cons x l ih => rw [List.foldl_cons, ih, List.map_cons, List.sum_cons, add_assoc]

/-- The length shapely reports is that of the outline. -/
theorem ringLength_eq : ∀ r : List (ℝ × ℝ), ringLength r = perimeter r
  | [] => rfl
  | [_] => rfl
  | p :: q :: l => by
    rw [ringLength, ringLength_eq (q :: l)]
    simp [perimeter, edges]

/-- **C52.** Gross properties of a section in one piece, with the default (Marin) integrator: for any number of
surfaces with holes, any bars and materials with positive initial modulus, the calculation succeeds, and
* the area is that of the surfaces, the axial rigidity is `Σ E A` over surfaces and bars, the mass `1e-9 Σ rho A`;
* first and second moments are the area integrals plus the bar sums, with `E = 1` or the initial moduli;
* the centroid is that of the `E`-weighted body, and the centroidal moments are the integrals about it. -/
theorem C52_marin (split : Polygon → ℝ → ℝ → ShapelyResult) (eig : ℝ → ℝ → ℝ → Eig)
    (union : List Polygon → ShapelyResult) (parts : List (GSurf × Set (ℝ × ℝ))) (bars : List GBar)
    (henc : ∀ p ∈ parts, Encloses p.1.poly.ext p.1.poly.ints p.2)
    (hs : ∀ p ∈ parts, 0 < initialModulus p.1.mat) (hb : ∀ b ∈ bars, 0 < initialModulus b.mat)
    (hea : (sectionBody initialModulus parts bars).integral (fun _ => 1) ≠ 0)
    (q : Polygon) (hu : union (parts.map fun p => p.1.poly) = .polygon q) :
    ∃ gp, grossProperties (marinElastic split) eig union ⟨parts.map Prod.fst, bars⟩ = .ok gp ∧
      gp.area = (parts.map fun p => ∫ _ in p.2, (1 : ℝ)).sum ∧
      gp.areaReinf = (bars.map GBar.area).sum ∧
      gp.ea = (sectionBody initialModulus parts bars).integral (fun _ => 1) ∧
      gp.mass = (sectionBody (fun m => m.density * 1e-9) parts bars).integral (fun _ => 1) ∧
      gp.perimeter = perimeter q.ext ∧
      gp.m = momentsOf (sectionBody (fun _ => 1) parts bars) 0 ∧
      gp.em = momentsOf (sectionBody initialModulus parts bars) 0 ∧
      gp.cy = (sectionBody initialModulus parts bars).integral Prod.fst / gp.ea ∧
      gp.cz = (sectionBody initialModulus parts bars).integral Prod.snd / gp.ea ∧
      gp.mc = momentsOf (sectionBody (fun _ => 1) parts bars) (gp.cy, gp.cz) ∧
      gp.emc = momentsOf (sectionBody initialModulus parts bars) (gp.cy, gp.cz) ∧
      (gp.i11, gp.i22, gp.theta) = findPrincipal eig gp.mc.iyy gp.mc.izz gp.mc.iyz ∧
      (gp.e_i11, gp.e_i22, gp.e_theta) = findPrincipal eig gp.emc.iyy gp.emc.izz gp.emc.iyz := by
  have harea : ∀ p ∈ parts, p.1.poly.area = ∫ _ in p.2, (1 : ℝ) := by
    intro p hp
    rw [polygon_area_eq (henc p hp), areaMoment]
    simp
  have hw : ∀ w : Material → ℝ, (parts.map fun p => p.1.poly.area * w p.1.mat).sum +
      (bars.map fun b => b.area * w b.mat).sum = (sectionBody w parts bars).integral (fun _ => 1) := by
    intro w
    simp only [Body.integral, sectionBody, List.map_map, Function.comp_def, mul_one]
    congr 2
    · apply List.map_congr_left
      intro p hp
      rw [harea p hp, mul_comm]
    · apply List.map_congr_left
      intro b _
      ring
  have hE := hw initialModulus
  have hM := hw fun m => m.density * 1e-9
  have m1 := marin_moments_unit split parts bars henc
  have m2 := marin_moments_mod split parts bars henc hs hb
  set ea := (sectionBody initialModulus parts bars).integral (fun _ => 1) with hea'
  set em := momentsOf (sectionBody initialModulus parts bars) 0 with hem
  have henc' : ∀ p ∈ parts.map (movedPart (-(em.sz / ea)) (-(em.sy / ea))),
      Encloses p.1.poly.ext p.1.poly.ints p.2 := by
    intro p hp
    obtain ⟨p', hp', rfl⟩ := List.mem_map.1 hp
    exact encloses_translate _ _ (henc p' hp')
  have m3 := marin_moments_unit split (parts.map (movedPart (-(em.sz / ea)) (-(em.sy / ea))))
    (bars.map (movedBar (-(em.sz / ea)) (-(em.sy / ea)))) henc'
  have m4 := marin_moments_mod split (parts.map (movedPart (-(em.sz / ea)) (-(em.sy / ea))))
    (bars.map (movedBar (-(em.sz / ea)) (-(em.sy / ea)))) henc'
    (by
      intro p hp
      obtain ⟨p', hp', rfl⟩ := List.mem_map.1 hp
      exact hs p' hp')
    (by
      intro b hbm
      obtain ⟨b', hb', rfl⟩ := List.mem_map.1 hbm
      exact hb b' hb')
  rw [momentsOf_moved] at m3 m4
  have htr : (GSection.mk (parts.map Prod.fst) bars).translate (-(em.sz / ea)) (-(em.sy / ea)) =
      ⟨(parts.map (movedPart (-(em.sz / ea)) (-(em.sy / ea)))).map Prod.fst,
        bars.map (movedBar (-(em.sz / ea)) (-(em.sy / ea)))⟩ := by
    simp only [GSection.translate, List.map_map, Function.comp_def, movedPart]
    rfl
  have hu' : union (List.map GSurf.poly (List.map Prod.fst parts)) = .polygon q := by
    rw [List.map_map]; exact hu
  have hmk : Elastic.mk? 1 none = .ok ⟨1, none⟩ := by simp [Elastic.mk?]
  have hdiv : ∀ a, pyDiv a ea = .ok (a / ea) := fun a => pyDiv_eq_ok.2 ⟨hea, rfl⟩
  have hfold : (bars.foldl (fun a b => a + b.area * initialModulus b.mat)
      ((parts.map Prod.fst).foldl (fun a g => a + g.poly.area * initialModulus g.mat) 0)) = ea := by
    rw [foldl_sum (fun b : GBar => b.area * initialModulus b.mat),
      foldl_sum (fun g : GSurf => g.poly.area * initialModulus g.mat), zero_add, List.map_map]
    exact hE
  set pr := findPrincipal eig (momentsOf (sectionBody (fun _ => 1) parts bars) (em.sz / ea, em.sy / ea)).iyy
    (momentsOf (sectionBody (fun _ => 1) parts bars) (em.sz / ea, em.sy / ea)).izz
    (momentsOf (sectionBody (fun _ => 1) parts bars) (em.sz / ea, em.sy / ea)).iyz with hpr
  set epr := findPrincipal eig
    (momentsOf (sectionBody initialModulus parts bars) (em.sz / ea, em.sy / ea)).iyy
    (momentsOf (sectionBody initialModulus parts bars) (em.sz / ea, em.sy / ea)).izz
    (momentsOf (sectionBody initialModulus parts bars) (em.sz / ea, em.sy / ea)).iyz with hepr
  refine ⟨⟨(parts.map Prod.fst).foldl (fun a g => a + g.poly.area) 0, bars.foldl (fun a b => a + b.area) 0, ea,
    bars.foldl (fun a b => a + b.area * b.mat.density * 1e-9)
      ((parts.map Prod.fst).foldl (fun a g => a + g.poly.area * g.mat.density * 1e-9) 0),
    ringLength q.ext, momentsOf (sectionBody (fun _ => 1) parts bars) 0, em, em.sz / ea, em.sy / ea,
    momentsOf (sectionBody (fun _ => 1) parts bars) (em.sz / ea, em.sy / ea),
    momentsOf (sectionBody initialModulus parts bars) (em.sz / ea, em.sy / ea),
    pr.1, pr.2.1, pr.2.2, epr.1, epr.2.1, epr.2.2⟩, ?_, ?_⟩
  · simp only [grossProperties, hu', hmk, bind, Except.bind, m1, m2, hfold, hdiv, htr, m3, m4, pure,
      Except.pure, hpr, hepr]
  · refine ⟨?_, ?_, rfl, ?_, ringLength_eq q.ext, rfl, rfl, ?_, ?_, rfl, rfl, rfl, rfl⟩
    · rw [foldl_sum (fun g : GSurf => g.poly.area), zero_add, List.map_map]
      exact congrArg List.sum (List.map_congr_left harea)
    · rw [foldl_sum (fun b : GBar => b.area), zero_add]
    · rw [foldl_sum (fun b : GBar => b.area * b.mat.density * 1e-9),
        foldl_sum (fun g : GSurf => g.poly.area * g.mat.density * 1e-9), zero_add, List.map_map, ← hM]
      simp only [Function.comp_def, mul_assoc]
    · simp [hem, momentsOf]
    · simp [hem, momentsOf]


/-! ## Centroid, parallel axes, principal axes -/

/-- The regions of a body are bounded. -/
def BoundedBody (b : Body) : Prop := ∀ a ∈ b.areas, Bornology.IsBounded a.2

theorem Body.integral_add' (b : Body) (hb : BoundedBody b) (f g : ℝ × ℝ → ℝ) (hf : Continuous f)
    (hg : Continuous g) : b.integral (fun x => f x + g x) = b.integral f + b.integral g := by
  have h1 : (b.areas.map fun a => a.1 * ∫ x in a.2, (f x + g x)).sum =
      (b.areas.map fun a => a.1 * ∫ x in a.2, f x).sum + (b.areas.map fun a => a.1 * ∫ x in a.2, g x).sum := by
    rw [← List.sum_map_add]
    congr 1
    apply List.map_congr_left
    intro a ha
    rw [integral_add (continuous_integrableOn hf (hb a ha)) (continuous_integrableOn hg (hb a ha)), mul_add]
  have h2 : (b.points.map fun p => p.1 * (f p.2 + g p.2)).sum =
      (b.points.map fun p => p.1 * f p.2).sum + (b.points.map fun p => p.1 * g p.2).sum := by
    rw [← List.sum_map_add]
    congr 1
    apply List.map_congr_left
    intro a _
    ring
  simp only [Body.integral, h1, h2]
  ring

theorem Body.integral_smul' (b : Body) (c : ℝ) (f : ℝ × ℝ → ℝ) :
    b.integral (fun x => c * f x) = c * b.integral f := by
  simp only [Body.integral, integral_const_mul, mul_add, ← List.sum_map_mul_left]
  congr 2
  · apply List.map_congr_left
    intro a _
    ring
  · apply List.map_congr_left
    intro a _
    ring

theorem boundedBody_section (w : Material → ℝ) (parts : List (GSurf × Set (ℝ × ℝ))) (bars : List GBar)
    (henc : ∀ p ∈ parts, Encloses p.1.poly.ext p.1.poly.ints p.2) :
    BoundedBody (sectionBody w parts bars) := by
  intro a ha
  obtain ⟨p, hp, rfl⟩ := List.mem_map.1 ha
  exact (henc p hp).bounded

/-- **C52**, centroid: about the reported centroid the `E`-weighted first moments vanish, and the parallel
axis relations hold between the two sets of moments. -/
theorem C52_centroid (b : Body) (hb : BoundedBody b) (c : ℝ × ℝ) (ea : ℝ) (hea : ea ≠ 0)
    (h1 : b.integral (fun _ => 1) = ea) (hy : c.1 = b.integral Prod.fst / ea)
    (hz : c.2 = b.integral Prod.snd / ea) :
    (momentsOf b c).sy = 0 ∧ (momentsOf b c).sz = 0 ∧
    (momentsOf b 0).iyy = (momentsOf b c).iyy + ea * c.2 ^ 2 ∧
    (momentsOf b 0).izz = (momentsOf b c).izz + ea * c.1 ^ 2 ∧
    (momentsOf b 0).iyz = (momentsOf b c).iyz + ea * (c.1 * c.2) := by
  have hY : b.integral Prod.fst = ea * c.1 := by rw [hy]; field_simp
  have hZ : b.integral Prod.snd = ea * c.2 := by rw [hz]; field_simp
  have sy : b.integral (fun x => x.2 - c.2) = 0 := by
    have : b.integral (fun x => x.2 - c.2) = b.integral (fun x => x.2 + (-c.2) * 1) := by
      congr 1; funext x; ring
    rw [this, Body.integral_add' b hb (fun x => x.2) (fun _ => -c.2 * 1) (by fun_prop) (by fun_prop),
      Body.integral_smul' b (-c.2) (fun _ => 1), h1]
    change b.integral Prod.snd + _ = 0
    rw [hZ]; ring
  have sz : b.integral (fun x => x.1 - c.1) = 0 := by
    have : b.integral (fun x => x.1 - c.1) = b.integral (fun x => x.1 + (-c.1) * 1) := by
      congr 1; funext x; ring
    rw [this, Body.integral_add' b hb (fun x => x.1) (fun _ => -c.1 * 1) (by fun_prop) (by fun_prop),
      Body.integral_smul' b (-c.1) (fun _ => 1), h1]
    change b.integral Prod.fst + _ = 0
    rw [hY]; ring
  have key : ∀ (f g : ℝ × ℝ → ℝ) (p q r : ℝ), Continuous f → Continuous g →
      (∀ x, g x = f x + (p * (x.1 - c.1) + (q * (x.2 - c.2) + r * 1))) →
      b.integral g = b.integral f + r * ea := by
    intro f g p q r hf hg hx
    rw [show g = fun x => f x + (p * (x.1 - c.1) + (q * (x.2 - c.2) + r * 1)) from funext hx,
      Body.integral_add' b hb f _ hf (by fun_prop),
      Body.integral_add' b hb (fun x => p * (x.1 - c.1)) _ (by fun_prop) (by fun_prop),
      Body.integral_add' b hb (fun x => q * (x.2 - c.2)) _ (by fun_prop) (by fun_prop),
      Body.integral_smul' b p, Body.integral_smul' b q, Body.integral_smul' b r (fun _ => 1), sy, sz, h1]
    ring
  refine ⟨sy, sz, ?_, ?_, ?_⟩
  · simp only [momentsOf]
    rw [key (fun x => (x.2 - c.2) ^ 2) _ 0 (2 * c.2) (c.2 ^ 2) (by fun_prop) (by fun_prop)
      (fun x => by simp only [Prod.snd_zero]; ring)]
    ring
  · simp only [momentsOf]
    rw [key (fun x => (x.1 - c.1) ^ 2) _ (2 * c.1) 0 (c.1 ^ 2) (by fun_prop) (by fun_prop)
      (fun x => by simp only [Prod.fst_zero]; ring)]
    ring
  · simp only [momentsOf]
    rw [key (fun x => (x.1 - c.1) * (x.2 - c.2)) _ c.2 c.1 (c.1 * c.2) (by fun_prop) (by fun_prop)
      (fun x => by simp only [Prod.fst_zero, Prod.snd_zero]; ring)]
    ring

/-- Second moment about an inclined axis. -/
theorem aboutAxis_eq (b : Body) (hb : BoundedBody b) (c : ℝ × ℝ) (phi : ℝ) :
    b.aboutAxis c phi = (momentsOf b c).iyy * Real.cos phi ^ 2
      - 2 * (momentsOf b c).iyz * (Real.sin phi * Real.cos phi) + (momentsOf b c).izz * Real.sin phi ^ 2 := by
  unfold Body.aboutAxis
  have : (fun x : ℝ × ℝ => (-(x.1 - c.1) * Real.sin phi + (x.2 - c.2) * Real.cos phi) ^ 2) =
      fun x => Real.cos phi ^ 2 * (x.2 - c.2) ^ 2 +
        (-2 * (Real.sin phi * Real.cos phi) * ((x.1 - c.1) * (x.2 - c.2)) +
          Real.sin phi ^ 2 * (x.1 - c.1) ^ 2) := by
    funext x; ring
  rw [this, Body.integral_add' b hb (fun x => Real.cos phi ^ 2 * (x.2 - c.2) ^ 2) _ (by fun_prop)
      (by fun_prop),
    Body.integral_add' b hb (fun x => -2 * (Real.sin phi * Real.cos phi) * ((x.1 - c.1) * (x.2 - c.2))) _
      (by fun_prop) (by fun_prop),
    Body.integral_smul', Body.integral_smul', Body.integral_smul']
  simp only [momentsOf]
  ring

/-- What `np.linalg.eig` promises for `[[a, b], [b, c]]`: unit eigenvectors, and all eigenvalues counted with
multiplicity (their sum is the trace). -/
structure IsEig (a b c : ℝ) (r : Eig) : Prop where
  unit0 : r.v0.1 ^ 2 + r.v0.2 ^ 2 = 1
  unit1 : r.v1.1 ^ 2 + r.v1.2 ^ 2 = 1
  eig0y : a * r.v0.1 + b * r.v0.2 = r.w0 * r.v0.1
  eig0z : b * r.v0.1 + c * r.v0.2 = r.w0 * r.v0.2
  eig1y : a * r.v1.1 + b * r.v1.2 = r.w1 * r.v1.1
  eig1z : b * r.v1.1 + c * r.v1.2 = r.w1 * r.v1.2
  trace : r.w0 + r.w1 = a + c

/-- **C52** (the sign of the angle is lost, see `C52_theta_violated`), principal axes: `i22` and `i11` are the
extreme second moments over all axes through the centroid, and the axis of `i11` makes the angle `theta` or
`-theta` with the `y` axis. -/
theorem C52_principal_partial (b : Body) (hb : BoundedBody b) (c : ℝ × ℝ) (eig : ℝ → ℝ → ℝ → Eig)
    (he : IsEig (momentsOf b c).iyy (momentsOf b c).iyz (momentsOf b c).izz
      (eig (momentsOf b c).iyy (momentsOf b c).iyz (momentsOf b c).izz)) (i11 i22 theta : ℝ)
    (h : (i11, i22, theta) = findPrincipal eig (momentsOf b c).iyy (momentsOf b c).izz (momentsOf b c).iyz) :
    (∀ phi, i22 ≤ b.aboutAxis c phi ∧ b.aboutAxis c phi ≤ i11) ∧
    (b.aboutAxis c theta = i11 ∨ b.aboutAxis c (-theta) = i11) ∧
    i11 + i22 = (momentsOf b c).iyy + (momentsOf b c).izz ∧ 0 ≤ theta ∧ theta ≤ Real.pi := by
  simp only [aboutAxis_eq b hb c]
  set A := (momentsOf b c).iyy
  set B := (momentsOf b c).iyz
  set C := (momentsOf b c).izz
  set r := eig A B C with hr
  obtain ⟨u0, u1, e0y, e0z, e1y, e1z, tr⟩ := he
  -- characteristic polynomial
  have char : ∀ (w : ℝ) (v : ℝ × ℝ), v.1 ^ 2 + v.2 ^ 2 = 1 → A * v.1 + B * v.2 = w * v.1 →
      B * v.1 + C * v.2 = w * v.2 → (A - w) * (C - w) = B ^ 2 := by
    intro w v hu hy hz
    have e1 : (A - w) * v.1 = -B * v.2 := by linarith
    have e2 : (C - w) * v.2 = -B * v.1 := by linarith
    have e3 : ((A - w) * (C - w) - B ^ 2) * v.1 ^ 2 = 0 := by
      linear_combination (C - w) * v.1 * e1 - B * v.1 * e2
    have e4 : ((A - w) * (C - w) - B ^ 2) * v.2 ^ 2 = 0 := by
      linear_combination (A - w) * v.2 * e2 - B * v.2 * e1
    have : ((A - w) * (C - w) - B ^ 2) * (v.1 ^ 2 + v.2 ^ 2) = 0 := by linear_combination e3 + e4
    rw [hu, mul_one] at this
    linarith
  have extremes : ∀ (hi lo : ℝ) (v : ℝ × ℝ), lo ≤ hi → hi + lo = A + C →
      v.1 ^ 2 + v.2 ^ 2 = 1 → A * v.1 + B * v.2 = hi * v.1 → B * v.1 + C * v.2 = hi * v.2 →
      (∀ phi, lo ≤ A * Real.cos phi ^ 2 - 2 * B * (Real.sin phi * Real.cos phi) + C * Real.sin phi ^ 2 ∧
        A * Real.cos phi ^ 2 - 2 * B * (Real.sin phi * Real.cos phi) + C * Real.sin phi ^ 2 ≤ hi) ∧
      (A * Real.cos (Real.arccos v.1) ^ 2 - 2 * B * (Real.sin (Real.arccos v.1) *
          Real.cos (Real.arccos v.1)) + C * Real.sin (Real.arccos v.1) ^ 2 = hi ∨
        A * Real.cos (-Real.arccos v.1) ^ 2 - 2 * B * (Real.sin (-Real.arccos v.1) *
          Real.cos (-Real.arccos v.1)) + C * Real.sin (-Real.arccos v.1) ^ 2 = hi) := by
    intro hi lo v hle htr hu hy hz
    have hc := char hi v hu hy hz
    have hlo : (A - lo) * (C - lo) = B ^ 2 := by
      have : lo = A + C - hi := by linarith
      rw [this]; linarith
    have pos : 0 ≤ A - lo ∧ 0 ≤ C - lo := by
      have hs : 0 ≤ (A - lo) + (C - lo) := by linarith
      constructor <;> nlinarith [sq_nonneg B, sq_nonneg (A - lo), sq_nonneg (C - lo)]
    have neg : 0 ≤ hi - A ∧ 0 ≤ hi - C := by
      have hs : 0 ≤ (hi - A) + (hi - C) := by linarith
      constructor <;> nlinarith [sq_nonneg B, sq_nonneg (hi - A), sq_nonneg (hi - C)]
    refine ⟨fun phi => ?_, ?_⟩
    · have hp := Real.sin_sq_add_cos_sq phi
      have q1 : 0 ≤ (A - lo) * Real.cos phi ^ 2 - 2 * B * (Real.sin phi * Real.cos phi) +
          (C - lo) * Real.sin phi ^ 2 := quad_nonneg pos.1 pos.2 hlo.ge _ _
      have q2 : 0 ≤ (hi - A) * Real.cos phi ^ 2 - 2 * (-B) * (Real.sin phi * Real.cos phi) +
          (hi - C) * Real.sin phi ^ 2 := quad_nonneg neg.1 neg.2 (le_of_eq (by linear_combination -hc)) _ _
      have e1 : lo * (Real.sin phi ^ 2 + Real.cos phi ^ 2) = lo := by rw [hp, mul_one]
      have e2 : hi * (Real.sin phi ^ 2 + Real.cos phi ^ 2) = hi := by rw [hp, mul_one]
      constructor
      · linarith
      · linarith
    · have h1 : -1 ≤ v.1 := by nlinarith [sq_nonneg v.2]
      have h2 : v.1 ≤ 1 := by nlinarith [sq_nonneg v.2]
      have hval : A * v.1 ^ 2 + 2 * B * (v.1 * v.2) + C * v.2 ^ 2 = hi := by
        linear_combination v.1 * hy + v.2 * hz + hi * hu
      rw [Real.cos_neg, Real.sin_neg, Real.cos_arccos h1 h2, Real.sin_arccos,
        show 1 - v.1 ^ 2 = v.2 ^ 2 by linarith, Real.sqrt_sq_eq_abs, sq_abs]
      rcases le_total 0 v.2 with h | h
      · right
        rw [abs_of_nonneg h]
        rw [← hval]; ring
      · left
        rw [abs_of_nonpos h]
        rw [← hval]; ring
  simp only [findPrincipal] at h
  rw [← hr] at h
  split_ifs at h with hgt
  · simp only [Prod.mk.injEq] at h
    obtain ⟨rfl, rfl, rfl⟩ := h
    obtain ⟨x1, x2⟩ := extremes _ _ r.v1 hgt.le (by linarith) u1 e1y e1z
    exact ⟨x1, x2, by linarith, Real.arccos_nonneg _, Real.arccos_le_pi _⟩
  · simp only [Prod.mk.injEq] at h
    obtain ⟨rfl, rfl, rfl⟩ := h
    obtain ⟨x1, x2⟩ := extremes _ _ r.v0 (not_lt.1 hgt) (by linarith) u0 e0y e0z
    exact ⟨x1, x2, by linarith, Real.arccos_nonneg _, Real.arccos_le_pi _⟩
where
  quad_nonneg {p q B : ℝ} (hp : 0 ≤ p) (hq : 0 ≤ q) (h : B ^ 2 ≤ p * q) (s t : ℝ) :
      0 ≤ p * s ^ 2 - 2 * B * (t * s) + q * t ^ 2 := by
    rcases hp.eq_or_lt with rfl | hp
    · have : B = 0 := by nlinarith [sq_nonneg B]
      rw [this]; nlinarith [mul_nonneg hq (sq_nonneg t)]
    · have : 0 ≤ p * (p * s ^ 2 - 2 * B * (t * s) + q * t ^ 2) := by
        nlinarith [sq_nonneg (p * s - B * t), mul_nonneg (sub_nonneg.2 h) (sq_nonneg t)]
      exact nonneg_of_mul_nonneg_right this hp

end

end SC
