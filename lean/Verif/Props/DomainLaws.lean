import Verif.Props.AnyLawCurvature
import Verif.Props.OrdinaryDomain3D
import Verif.Props.PolyDesign

/-! # C88: interaction domains of sections with concrete of any law

The strain profiles depend on the limit strains and the geometry only, so those of C67 are used, for a concrete with the same limit
strains; the forces are those of the law the Marin integrator works with. -/

set_option autoImplicit false

namespace SC

open Spec MeasureTheory

/-- Concrete parts with the same shapes and limit strains. -/
noncomputable def shadows (e0 u : ℝ) (shapes : List (Polygon × Set (ℝ × ℝ))) : List ConcretePart := shapes.map fun s => ⟨s.1, s.2, 0, e0, u⟩

/-- The limit strains of a concrete law: `-u`, or `-e0` for the yield strains. -/
def Limits (ult : Bool → ℝ × ℝ) (e0 u : ℝ) : Prop := ult false = (-u, 100) ∧ ult true = (-e0, 100)

/-- As `RCDirection`, for any ratio `r` of the pivot of the compressive strains. -/
structure RCSide (th r : ℝ) (shapes : List (Polygon × Set (ℝ × ℝ))) (bars : List (ℝ × ℝ)) (lo hi : ℝ) : Prop where
  inside : ∀ b ∈ bars, ∃ s ∈ shapes, b ∈ convexHull ℝ {v | v ∈ s.1.ext}
  low : IsLeast {y | ∃ s ∈ shapes, ∃ v ∈ s.1.ext, height th v = y} lo
  high : IsGreatest {y | ∃ s ∈ shapes, ∃ v ∈ s.1.ext, height th v = y} hi
  size : 1e-3 ≤ hi - lo ∧ hi - lo ≤ 1e9
  position : lo ≤ 1e16
  depth : ∃ b ∈ bars, hi - lo ≤ 1000 * (hi - height th b)
  cover : ∀ b ∈ bars, lo + 1e-6 * (hi - lo) ≤ height th b
  pivot : ∀ b ∈ bars, (∀ b' ∈ bars, height th b ≤ height th b') → height th b ≠ lo + r * (hi - lo)

theorem RCSide.geometry {th r lo hi : ℝ} {shapes : List (Polygon × Set (ℝ × ℝ))} {bars : List (ℝ × ℝ)}
    (h : RCSide th r shapes bars lo hi) : RCGeometry th shapes bars (hi - lo) := by
  refine ⟨h.inside, ?_, h.size, ?_⟩
  · intro s hs v hv t ht w hw
    have := h.high.2 ⟨s, hs, v, hv, rfl⟩
    have := h.low.2 ⟨t, ht, w, hw, rfl⟩
    linarith
  · obtain ⟨b, hb, hle⟩ := h.depth
    obtain ⟨s, hs, v, hv, e⟩ := h.high.1
    exact ⟨b, hb, s, hs, v, hv, by rw [e]; exact hle⟩

section Section

variable {split : Polygon → ℝ → ℝ → ShapelyResult} {M MT : ℝ → ℝ → MarinOut × ℝ} {f : ℝ → ℝ} {lim : ℝ × ℝ}
  {ult : Bool → ℝ × ℝ} {shapes : List (Polygon × Set (ℝ × ℝ))} {bars : List Bar} {th ms e0 u : ℝ}

theorem shadows_balanced (hult : Limits ult e0 u) (h0 : 0 ≤ e0) (hu : 0 ≤ u) :
    (sectionEngine split (lawSolids M MT f true ult shapes) bars ms).balanced =
      (sectionEngine split ((shadows e0 u shapes).map ConcretePart.solid) bars ms).balanced := by
  have hu' : ult = (ParabolaRectangle.new 0 e0 u 2).ult := by
    funext y
    cases y
    · rw [hult.1]; simp [ParabolaRectangle.ult, ParabolaRectangle.new, abs_of_nonneg hu]
    · rw [hult.2]; simp [ParabolaRectangle.ult, ParabolaRectangle.new, abs_of_nonneg h0]
  have h1 : ∀ a, (lawSolids M MT f true ult shapes).map (Solid.part a) =
      ((shadows e0 u shapes).map ConcretePart.solid).map (Solid.part a) := by
    intro a
    subst hu'
    simp only [lawSolids, shadows, List.map_map, Function.comp_def]
    rfl
  have h2 : (lawSolids M MT f true ult shapes).any Solid.concrete =
      ((shadows e0 u shapes).map ConcretePart.solid).any Solid.concrete := by
    simp only [lawSolids, shadows, List.map_map, Function.comp_def, List.any_map]
    rfl
  funext a y
  simp only [sectionEngine, marinEngine, h1, h2]

/-- The section of the plates with the law `f`. -/
theorem law_section (hult : Limits ult e0 u) :
    crossSection (lawSolids M MT f true ult shapes) bars = plateSection shapes bars f u := by
  simp only [crossSection, plateSection, lawSolids, List.map_map, Function.comp_def, hult.1]
  rfl

/-- The integrator returns the exact forces of the plane on the section as it stands. -/
theorem law_integ (hlaw : Exact M MT f lim) (henc : ∀ p ∈ shapes, Encloses p.1.ext p.1.ints p.2)
    (hid : SameIds (bars.map Bar.law)) (hd : EqualSizes (groupBars bars)) {v : Fin 3 → ℝ} (m : ℝ) (concrete : Bool)
    (huni : v 1 = 0 → v 2 = 0 → snap lim (v 0) = v 0)
    (hsplit : v 1 ≠ 0 ∨ v 2 ≠ 0 → ∀ p ∈ shapes, SplitsExactly split (p.1.rotate (neutralAngle v)) (rotPt (neutralAngle v) '' p.2)) :
    (sectionEngine split (lawSolids M MT f concrete ult shapes) bars ms).integ 0 v .stress (some (groupBars bars)) m =
      .ok (.forces ((crossSection (lawSolids M MT f concrete ult shapes) bars).forces v), groupBars bars) := by
  have hgood : ∀ p ∈ shapes, SurfSpec.Good split .stress v ⟨Surf.ofMarin p.1 M MT, p.2, f⟩ := by
    intro p hp
    by_cases hc : v 1 = 0 ∧ v 2 = 0
    · have hv : v = ![v 0, 0, 0] := by
        funext i
        fin_cases i
        · rfl
        · exact hc.1
        · exact hc.2
      have := good_uniform (split := split) (MT := MT) (henc p hp) (hlaw.uniform _ (huni hc.1 hc.2)).2 (hlaw.uniform _ (huni hc.1 hc.2)).1 0
      rw [hv]
      have e : SurfSpec.turn 0 ⟨Surf.ofMarin p.1 M MT, p.2, f⟩ = ⟨Surf.ofMarin p.1 M MT, p.2, f⟩ := by
        simp only [SurfSpec.turn, Surf.ofMarin, polygon_rotate_zero, show rotPt 0 = id from funext rotPt_zero, Set.image_id]
      rw [← e]
      exact this
    · have hg : v 1 ≠ 0 ∨ v 2 ≠ 0 := by tauto
      have hp' := gradient_pos hg
      obtain ⟨rs, hrs, hm⟩ := hlaw.pieces (v 0) (gradient v) hp'.ne'
      exact (good_of_pieces split v hg p.1 p.2 (henc p hp) (hsplit hg p hp) M MT f _
        (fun _ _ => trivial) (fun a b hb => (hlaw.kept a b hb).1) fun a b hb => (hlaw.kept a b hb).2).1 ⟨rs, hrs, piecesMatch_interior hm⟩
  have h := C50_forces_partial split (shapes.map fun p => ⟨Surf.ofMarin p.1 M MT, p.2, f⟩) (bars.map (Bar.rotate 0))
    (groupBars bars) hd v (by
      intro s hs'
      obtain ⟨p, hp, rfl⟩ := List.mem_map.1 hs'
      exact hgood p hp)
  have hsurf : ((lawSolids M MT f concrete ult shapes).map fun s => s.spec.surf).map
      (fun g => ({ g with polygon := g.polygon.rotate 0 } : Surf)) =
      (shapes.map fun p => (⟨Surf.ofMarin p.1 M MT, p.2, f⟩ : SurfSpec)).map SurfSpec.surf := by
    simp only [lawSolids, List.map_map, Function.comp_def, polygon_rotate_zero]
  have hbars : resultants ((crossSection (lawSolids M MT f concrete ult shapes) bars).rods.map Rod.fibre) v =
      resultants (fibres Law.stress (groupBars bars)) v := by
    rw [resultants_perm (C18_grouping Law.stress bars hid)]
    simp only [crossSection, List.map_map, Function.comp_def]
  simp only [sectionEngine, marinEngine, hsurf]
  rw [h]
  simp only [CrossSection.forces, hbars]
  simp only [crossSection, lawSolids, List.map_map, Function.comp_def]

/-- Admissibility and limits depend on the shapes, the bars and the limit strains only. -/
theorem shadows_admissible (hu : 0 ≤ u) (v : Fin 3 → ℝ) :
    ((concreteSection (shadows e0 u shapes) bars).Admissible v ↔ (plateSection shapes bars f u).Admissible v) ∧
    ((concreteSection (shadows e0 u shapes) bars).AtLimit v ↔ (plateSection shapes bars f u).AtLimit v) := by
  have hc : (concreteSection (shadows e0 u shapes) bars).corners = (plateSection shapes bars f u).corners := by
    simp only [CrossSection.corners, concreteSection, plateSection, shadows, List.map_map, Function.comp_def, List.flatMap_map, part_ult,
      abs_of_nonneg hu]
  constructor
  · simp only [CrossSection.Admissible, concreteSection, plateSection, shadows, List.map_map, Function.comp_def, List.forall_mem_map, part_ult,
      abs_of_nonneg hu]
  · unfold CrossSection.AtLimit
    rw [hc]

end Section

/-- The limit strains: concrete crushes at `-u` with its peak at `-e0`, the bars of one steel yield at `ey` and break at `eu`. -/
structure DomainStrains (bars : List Bar) (e0 u ey eu : ℝ) : Prop where
  steel : ∃ L : LawObj, (∀ b ∈ bars, b.law = L) ∧ L.law.ult false = (-eu, eu) ∧ (L.law.ult true).2 = ey
  crushing : 1e-3 ≤ u ∧ u ≤ 5e-3
  peak : 1e-4 ≤ e0 ∧ e0 + 2e-6 ≤ u
  rupture : u ≤ eu ∧ eu ≤ 0.09
  yield : 1e-4 ≤ ey ∧ ey ≤ eu

theorem cornerHeights_shadows (th e0 u : ℝ) (shapes : List (Polygon × Set (ℝ × ℝ))) :
    cornerHeights th (shadows e0 u shapes) = {y | ∃ s ∈ shapes, ∃ v ∈ s.1.ext, height th v = y} := by
  ext y
  simp only [cornerHeights, shadows, List.mem_map, Set.mem_ofPred_eq]
  constructor
  · rintro ⟨_, ⟨s, hs, rfl⟩, v, hv, e⟩
    exact ⟨s, hs, v, hv, e⟩
  · rintro ⟨s, hs, v, hv, e⟩
    exact ⟨_, ⟨s, hs, rfl⟩, v, hv, e⟩

theorem shadows_polygons (e0 u : ℝ) (shapes : List (Polygon × Set (ℝ × ℝ))) :
    (shadows e0 u shapes).map ConcretePart.polygon = shapes.map Prod.fst := by
  simp only [shadows, List.map_map, Function.comp_def]

theorem forall₂_right {α β : Type} {R : α → β → Prop} {l : List α} {k : List β} (h : List.Forall₂ R l k) {b : β} (hb : b ∈ k) :
    ∃ a ∈ l, R a b := by
  induction h with
  | nil => cases hb
  | cons h1 _ ih =>
    rcases List.mem_cons.1 hb with rfl | hb
    · exact ⟨_, by simp, h1⟩
    · obtain ⟨a, ha, h⟩ := ih hb
      exact ⟨a, by simp [ha], h⟩

section Domains

variable {split : Polygon → ℝ → ℝ → ShapelyResult} {M MT : ℝ → ℝ → MarinOut × ℝ} {f : ℝ → ℝ} {lim : ℝ × ℝ}
  {ult : Bool → ℝ × ℝ} {shapes : List (Polygon × Set (ℝ × ℝ))} {bars : List Bar} {th ms e0 u ey eu lo hi : ℝ}

/-- The profiles of one direction: they exist, none exceeds a limit strain, those of fields 1 to 5 are at a limit strain, the first
is uniform tension and the last uniform compression at the peak strain; the uniform ones are these and uniform crushing. -/
theorem RCSide.profiles (h : RCSide th (e0 / u) shapes (bars.map fun b => (b.x, b.y)) lo hi) (hS : DomainStrains bars e0 u ey eu)
    (hult : Limits ult e0 u) (henc : ∀ p ∈ shapes, Encloses p.1.ext p.1.ints p.2)
    (hull : ∀ p ∈ shapes, p.2 ⊆ convexHull ℝ {v | v ∈ p.1.ext})
    (hcut : CutsExactly split th shapes) {num : Fin 6 → ℤ} {ty : Fin 6 → Spacing} (ha : ProfileArgs num ty) :
    ∃ planes labels, ultimateProfiles ((sectionEngine split (lawSolids M MT f true ult shapes) bars ms).balanced (-th))
      (sectionMinY (shapes.map Prod.fst) (-th)) true th num ty = .ok (planes, labels) ∧
      (∀ v ∈ planes, (plateSection shapes bars f u).Admissible v) ∧
      (∀ q ∈ planes.zip labels, q.2 ≤ 5 → (plateSection shapes bars f u).AtLimit q.1) ∧
      (ty 0 = .linear → 1 ≤ num 0 → planes.head? = some ![eu, 0, 0]) ∧ planes.getLast? = some ![-e0, 0, 0] ∧
      ∀ v ∈ planes, (v 1 = 0 → v 2 = 0 → v 0 = eu ∨ v 0 = -u ∨ v 0 = -e0) ∧ v 1 * Real.sin th = v 2 * Real.cos th := by
  obtain ⟨L, hb, hu, hy⟩ := hS.steel
  have hu1 := hS.crushing
  have hp1 := hS.peak
  have hu0 : 0 ≤ u := le_trans (by norm_num) hu1.1
  have he0 : 0 ≤ e0 := le_trans (by norm_num) hp1.1
  have hle : e0 ≤ u := by have := hp1.2; norm_num at *; linarith
  have hok : ∀ p ∈ shadows e0 u shapes, p.Ok split th := by
    intro p hp
    obtain ⟨q, hq, rfl⟩ := List.mem_map.1 hp
    refine ⟨henc q hq, hull q hq, hcut.twice hq, ?_, ?_⟩
    · simp only [abs_of_nonneg he0]; exact lt_of_lt_of_le (by norm_num) hp1.1
    · simp only [abs_of_nonneg he0, abs_of_nonneg hu0]; have := hp1.2; norm_num at *; linarith
  have hO : OrdinaryRC th (shadows e0 u shapes) bars u eu (hi - lo) := h.geometry.solids hb hu hu1 hS.rupture.1
    (le_trans (by norm_num) (hu1.1.trans hS.rupture.1)) hS.rupture.2 _
    fun s _ => ⟨rfl, abs_of_nonneg hu0⟩
  have hY : YieldsRC (shadows e0 u shapes) bars u eu e0 ey := by
    refine ⟨?_, ?_, hp1, hS.yield⟩
    · intro p hp
      obtain ⟨q, hq, rfl⟩ := List.mem_map.1 hp
      exact abs_of_nonneg he0
    · intro b hb'
      rw [hb b hb', hy]
  have hne : ∀ p ∈ shadows e0 u shapes, p.polygon.ext ≠ [] := fun p hp => concrete_ne hok _ (List.mem_map_of_mem hp)
  have hlo := h.low
  have hhi := h.high
  rw [← cornerHeights_shadows th e0 u] at hlo hhi
  obtain ⟨yp, -, -, h1, h2, hord⟩ := hO.domain (ms := ms) hY hok hlo hhi h.position
    (fun b hb' => h.cover _ (List.mem_map_of_mem hb'))
    (fun b hb' hmin => h.pivot _ (List.mem_map_of_mem hb') (by
        intro b' hb''
        obtain ⟨r, hr, rfl⟩ := List.mem_map.1 hb''
        exact hmin r hr))
  obtain ⟨planes, labels, hrun, k1, k2, k3, k4⟩ := hO.ultimate_profiles hok hord (by rw [sectionMinY_eq hne hlo h.position]; exact h2) ha
  have hrun' := hrun
  rw [shadows_polygons, ← shadows_balanced (M := M) (MT := MT) (f := f) hult he0 hu0] at hrun'
  refine ⟨planes, labels, hrun', fun v hv => (shadows_admissible (e0 := e0) hu0 v).1.1 (k1 v hv),
    fun q hq h5 => (shadows_admissible (e0 := e0) hu0 q.1).2.1 (k2 q hq h5), k3, k4, fun v hv => ⟨?_, profile_parallel hrun hv⟩⟩
  obtain ⟨s, g1, e1, e2⟩ := hord.ultimate
  obtain ⟨yn', yp', s', g2, e3, e4⟩ := hord.yielding
  obtain ⟨o1, o2, o3, o4⟩ := hord.order
  exact (profiles_above _ _ true th num ty planes labels hrun _ yp yn' yp' _ _ _ _ s s' g1 g2 hord.below
    e1 e2 e3 e4 o1 o2 o3 o4 hord.lowest _ rfl hord.pivot hord.resolved v hv).2

/-- The points of a domain are the forces of its planes. -/
theorem law_points (hlaw : Exact M MT f lim) (hsnap : ∀ e, e = eu ∨ e = -u ∨ e = -e0 → snap lim e = e)
    (hult : Limits ult e0 u) (henc : ∀ p ∈ shapes, Encloses p.1.ext p.1.ints p.2)
    (hid : SameIds (bars.map Bar.law)) (hd : EqualSizes (groupBars bars))
    (lu : Matrix (Fin 3) (Fin 3) ℝ → (Fin 3 → ℝ) → (Fin 3 → ℝ)) {planes : List (Fin 3 → ℝ)}
    (hpl : ∀ v ∈ planes, (v 1 = 0 → v 2 = 0 → v 0 = eu ∨ v 0 = -u ∨ v 0 = -e0) ∧
      ∃ th, CutsExactly split th shapes ∧ v 1 * Real.sin th = v 2 * Real.cos th)
    {E : Engine} (hE : E = sectionEngine split (lawSolids M MT f true ult shapes) bars ms) (m : ℝ)
    (ops : List Op) (hops : Undisturbed E lu ops .fresh) :
    (integrateAll E m planes (history E lu ops .fresh)).2 =
      .ok (planes.map fun v => .forces ((plateSection shapes bars f u).forces v)) := by
  subst hE
  have hE : (sectionEngine split (lawSolids M MT f true ult shapes) bars ms).Lawful fun _ => .ok (groupBars bars) :=
    marinEngine_lawful _ _ _ _ _ _
  have hcan := canonical_history lu hE rfl ops _ (Or.inl rfl) hops
  refine integrateAll_exact hE (D := groupBars bars) rfl _ planes (fun v hv => ?_) _ (canonical_data rfl hcan)
  have h := law_integ (split := split) (ult := ult) (ms := ms) hlaw henc hid hd (v := v) m true (fun h1 h2 => hsnap _ ((hpl v hv).1 h1 h2))
    (fun hc p hp => by
      obtain ⟨th, hcut, hpar⟩ := (hpl v hv).2
      exact hcut p hp _ (neutral_direction hpar hc))
  rwa [law_section hult] at h

/-- The N-M domain, for a law the Marin integrator integrates exactly. -/
theorem law_nm (hlaw : Exact M MT f lim) (hsnap : ∀ e, e = eu ∨ e = -u ∨ e = -e0 → snap lim e = e)
    (hult : Limits ult e0 u) (hS : DomainStrains bars e0 u ey eu) (henc : ∀ p ∈ shapes, Encloses p.1.ext p.1.ints p.2)
    (hull : ∀ p ∈ shapes, p.2 ⊆ convexHull ℝ {v | v ∈ p.1.ext}) (hcut : CutsExactly split th shapes)
    (hdir : RCSide th (e0 / u) shapes (bars.map fun b => (b.x, b.y)) lo hi) (complete : Bool) {lo' hi' : ℝ}
    (hdir' : complete = true → RCSide (th + Real.pi) (e0 / u) shapes (bars.map fun b => (b.x, b.y)) lo' hi')
    {num : Fin 6 → ℤ} {ty : Fin 6 → Spacing} (ha : ProfileArgs num ty)
    (lu : Matrix (Fin 3) (Fin 3) ℝ → (Fin 3 → ℝ) → (Fin 3 → ℝ))
    {E : Engine} (hE : E = sectionEngine split (lawSolids M MT f true ult shapes) bars ms)
    {S : CrossSection} (hSe : S = plateSection shapes bars f u) (ops : List Op) (hops : Undisturbed E lu ops .fresh) :
    ∃ planes labels,
      nmProfiles E.balanced (sectionMinY (shapes.map Prod.fst)) true th num ty complete = .ok (planes, labels) ∧
      (nmDomain E ((nmProfiles E.balanced (sectionMinY (shapes.map Prod.fst)) true th num ty complete).map Prod.fst)
        (history E lu ops .fresh)).2 = .ok (planes.map fun v => .forces (S.forces v)) ∧
      planes.length = (∑ i, num i).toNat + (if complete then (∑ i, num i).toNat - 2 else 0) ∧
      (∀ v ∈ planes, S.Admissible v) ∧ (∀ q ∈ planes.zip labels, q.2 ≤ 5 → S.AtLimit q.1) ∧
      (ty 0 = .linear → 1 ≤ num 0 → planes.head? = some ![eu, 0, 0]) ∧
      (complete = false → planes.getLast? = some ![-e0, 0, 0]) := by
  obtain ⟨L, hb, -, -⟩ := hS.steel
  have hpts := fun planes hpl => law_points (split := split) (planes := planes) hlaw hsnap hult henc (single_ids hb) (single_sizes hb) lu hpl hE
    E.meshSize ops hops
  rw [← hSe] at hpts
  obtain ⟨q, k, hrun, k1, k2, k3, k4, k5⟩ := hdir.profiles (M := M) (MT := MT) (f := f) (ms := ms) hS hult henc hull hcut ha
  rw [← hE] at hrun
  rw [← hSe] at k1 k2
  cases complete with
  | false =>
    have hprof : nmProfiles E.balanced (sectionMinY (shapes.map Prod.fst)) true th num ty false = .ok (q, k) := by
      simp only [nmProfiles, hrun, Bool.false_eq_true, if_false]
    refine ⟨q, k, hprof, ?_, (C38_domain_count _ _ _ _ _ _ _ _ _ hprof).2, k1, k2, k3, fun _ => k4⟩
    rw [hprof]
    exact hpts q fun v hv => ⟨(k5 v hv).1, th, hcut, (k5 v hv).2⟩
  | true =>
    obtain ⟨q', k', hrun', k1', k2', k3', k4', k5'⟩ := (hdir' rfl).profiles (M := M) (MT := MT) (f := f) (ms := ms) hS hult henc hull
      hcut.half_turn ha
    rw [← hE] at hrun'
    rw [← hSe] at k1' k2'
    have hprof : nmProfiles E.balanced (sectionMinY (shapes.map Prod.fst)) true th num ty true =
        .ok (q ++ dropEndsRev q', k ++ dropEndsRev k') := by
      simp only [nmProfiles, hrun, hrun', if_true]
    have hlen := (C38_count _ _ _ _ _ _ _ _ hrun).2.2.2.1
    have hlen' := (C38_count _ _ _ _ _ _ _ _ hrun').2.2.2.1
    refine ⟨_, _, hprof, ?_, (C38_domain_count _ _ _ _ _ _ _ _ _ hprof).2, ?_, ?_, ?_, by simp⟩
    · rw [hprof]
      refine hpts _ fun v hv => ?_
      rcases List.mem_append.1 hv with hv | hv
      · exact ⟨(k5 v hv).1, th, hcut, (k5 v hv).2⟩
      · have := k5' v (mem_dropEndsRev hv)
        exact ⟨this.1, _, hcut.half_turn, this.2⟩
    · intro v hv
      rcases List.mem_append.1 hv with hv | hv
      · exact k1 v hv
      · exact k1' v (mem_dropEndsRev hv)
    · intro r hr
      rw [List.zip_append hlen.symm] at hr
      rcases List.mem_append.1 hr with hr | hr
      · exact k2 r hr
      · exact k2' r (dropEndsRev_zip hlen'.symm hr)
    · intro h1 h2
      rw [List.head?_append, k3 h1 h2]
      rfl

/-- The N-My-Mz domain, for a law the Marin integrator integrates exactly. -/
theorem law_nmm (hlaw : Exact M MT f lim) (hsnap : ∀ e, e = eu ∨ e = -u ∨ e = -e0 → snap lim e = e)
    (hult : Limits ult e0 u) (hS : DomainStrains bars e0 u ey eu) (henc : ∀ p ∈ shapes, Encloses p.1.ext p.1.ints p.2)
    (hull : ∀ p ∈ shapes, p.2 ⊆ convexHull ℝ {v | v ∈ p.1.ext}) (numTheta : ℕ) (hth : 1 ≤ numTheta)
    (hcut : ∀ th ∈ linspace 0 (Real.pi * 2) numTheta true, CutsExactly split th shapes)
    (hdir : ∀ th ∈ linspace 0 (Real.pi * 2) numTheta true, ∃ lo hi, RCSide th (e0 / u) shapes (bars.map fun b => (b.x, b.y)) lo hi)
    {num : Fin 6 → ℤ} {ty : Fin 6 → Spacing} (ha : ProfileArgs num ty)
    (lu : Matrix (Fin 3) (Fin 3) ℝ → (Fin 3 → ℝ) → (Fin 3 → ℝ))
    {E : Engine} (hE : E = sectionEngine split (lawSolids M MT f true ult shapes) bars ms)
    {S : CrossSection} (hSe : S = plateSection shapes bars f u) (ops : List Op) (hops : Undisturbed E lu ops .fresh) :
    ∃ (chunks : List (List (Fin 3 → ℝ))) (labels : List ℕ),
      nmmProfiles E.balanced (sectionMinY (shapes.map Prod.fst)) true numTheta num ty = .ok (chunks.flatten, labels) ∧
      (nmmDomain E ((nmmProfiles E.balanced (sectionMinY (shapes.map Prod.fst)) true numTheta num ty).map Prod.fst)
        (history E lu ops .fresh)).2 = .ok (chunks.flatten.map fun v => .forces (S.forces v)) ∧
      List.Forall₂ (fun th q =>
        nmProfiles E.balanced (sectionMinY (shapes.map Prod.fst)) true th num ty false = .ok (q, labels) ∧
        (∀ v ∈ q, S.Admissible v) ∧ ∀ r ∈ q.zip labels, r.2 ≤ 5 → S.AtLimit r.1) (linspace 0 (Real.pi * 2) numTheta true) chunks := by
  obtain ⟨L, hb, -, -⟩ := hS.steel
  have hpts := fun planes hpl => law_points (split := split) (planes := planes) hlaw hsnap hult henc (single_ids hb) (single_sizes hb) lu hpl hE
    defaultMesh ops hops
  have hdata := fun th hth => (Classical.choose_spec (Classical.choose_spec (hdir th hth))).profiles (M := M) (MT := MT) (f := f) (ms := ms)
    hS hult henc hull (hcut th hth) ha
  simp only [← hSe, ← hE] at hpts hdata
  have hne : linspace 0 (Real.pi * 2) numTheta true ≠ [] := by
    intro h0
    have := congrArg List.length h0
    simp [linspace] at this
    omega
  obtain ⟨chunks, hrun, hf⟩ := nmmLoop_returns
    (bal := E.balanced) (minY := sectionMinY (shapes.map Prod.fst)) (rc := true) (num := num) (ty := ty)
    (P := fun q k => ((∀ v ∈ q, S.Admissible v) ∧ ∀ r ∈ q.zip k, r.2 ≤ 5 → S.AtLimit r.1) ∧ ∀ v ∈ q,
      (v 1 = 0 → v 2 = 0 → v 0 = eu ∨ v 0 = -u ∨ v 0 = -e0) ∧ ∃ th, CutsExactly split th shapes ∧ v 1 * Real.sin th = v 2 * Real.cos th)
    (ths := linspace 0 (Real.pi * 2) numTheta true)
    (k0 := (List.finRange 6).flatMap fun i => List.replicate (num i).toNat (i.val + 1)) (by
      intro th hth
      obtain ⟨q, k, h1, h2, h3, -, -, h6⟩ := hdata th hth
      obtain ⟨-, -, -, -, -, rfl⟩ := ultimateProfiles_ok h1
      exact ⟨q, h1, ⟨h2, h3⟩, fun v hv => ⟨(h6 v hv).1, th, hcut th hth, (h6 v hv).2⟩⟩) [] none (Or.inr hne)
  have hprof : nmmProfiles E.balanced (sectionMinY (shapes.map Prod.fst)) true numTheta num ty =
      .ok (chunks.flatten, (List.finRange 6).flatMap fun i => List.replicate (num i).toNat (i.val + 1)) := by
    simp only [nmmProfiles, hrun, List.nil_append]
  refine ⟨chunks, _, hprof, ?_, hf.imp fun th q hq => ⟨?_, hq.2.1⟩⟩
  · rw [hprof]
    refine hpts _ fun v hv => ?_
    obtain ⟨q, hq, hvq⟩ := List.mem_flatten.1 hv
    obtain ⟨th, -, h⟩ := forall₂_right hf hq
    exact h.2.2 v hvq
  · simp only [nmProfiles, hq.1, Bool.false_eq_true, if_false]

end Domains

end SC
