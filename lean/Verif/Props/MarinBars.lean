import Verif.Lemmas.Rotation
import Verif.Props.Fiber

/-! # C20: Marin integration of point reinforcement -/

set_option autoImplicit false

namespace SC

open Spec

/-- All groups have the same number of bars. -/
def EqualSizes (d : List Group) : Prop := ∀ a ∈ d, ∀ b ∈ d, a.pts.length = b.pts.length

theorem marinGroups_eq (e : Fin 3 → ℝ) (ig : IntegrateArg) (resp : Law → ℝ → ℝ)
    (hr : ∀ l : LawObj, l.integrand ig = .ok (resp l.law)) (d : List Group) (hs : EqualSizes d) :
    marinGroups (e 0) (Real.sqrt (e 2 ^ 2 + e 1 ^ 2)) ig (d.map (rotGroup (-atan2 (e 2) (e 1))))
      = .ok (.points (((fibres resp d).map fun f =>
          (f.y, f.z, f.A * f.resp (planeStrain e f.y f.z))).map fun p =>
        ((rotPt (-atan2 (e 2) (e 1)) (p.1, p.2.1)).1, (rotPt (-atan2 (e 2) (e 1)) (p.1, p.2.1)).2,
          p.2.2))) := by
  set a := -atan2 (e 2) (e 1) with ha
  have h1 : (d.map (rotGroup a)).mapM
      (marinGroup (e 0) (Real.sqrt (e 2 ^ 2 + e 1 ^ 2)) ig) =
      .ok (d.map fun g => g.pts.map fun p => ((rotPt a (p.1, p.2.1)).1, (rotPt a (p.1, p.2.1)).2,
        p.2.2 * resp g.law.law (planeStrain e p.1 p.2.1))) := by
    rw [except_mapM_ok (g := fun g : Group => g.pts.map fun p =>
      (p.1, p.2.1, resp g.law.law (e 0 + Real.sqrt (e 2 ^ 2 + e 1 ^ 2) * p.2.1) * p.2.2))
      (fun g => by simp only [marinGroup, hr])]
    simp only [List.map_map]
    congr 1
    apply List.map_congr_left
    intro g _
    simp only [Function.comp_apply, rotGroup, List.map_map]
    apply List.map_congr_left
    intro p _
    simp only [Function.comp_apply, Prod.mk.injEq, true_and]
    rw [mul_comm, ha, rot_strain]
    congr 2
    simp only [planeStrain]
    ring
  unfold marinGroups
  rw [h1]
  simp only
  rw [if_neg]
  · congr 2
    rw [← List.flatMap_def, fibres, List.map_flatMap, List.map_flatMap]
    congr 1
    funext g
    simp only [List.map_map, Function.comp_def]
  · push Not
    intro x hx y hy
    simp only [List.mem_map] at hx hy
    obtain ⟨g, hg, rfl⟩ := hx
    obtain ⟨g', hg', rfl⟩ := hy
    simpa [rotGroup] using hs g hg g' hg'

/-- **C20** (equal group sizes; see `C20_ragged_violated`).  Point reinforcement only: for any bars
and any biaxial strain plane the Marin integrator's rotate - integrate - rotate back returns the
direct sums over the bars, and hands the bar data back unrotated. -/
theorem C20_forces_partial (split : Polygon → ℝ → ℝ → ShapelyResult) (bars : List Bar)
    (d : List Group) (hs : EqualSizes d) (e : Fin 3 → ℝ) :
    marinIntegrate split [] bars e .stress (some d) =
      .ok (.forces (resultants (fibres Law.stress d) e), d) := by
  simp only [marinIntegrate, marinPrepare, List.map_nil, processSurfaces,
    marinGroups_eq e .stress Law.stress (fun _ => rfl) d hs, List.nil_append, marinForces_points,
    fiberStress_eq, rotGroups_neg]

/-- **C20**, stiffness. -/
theorem C20_stiffness_partial (split : Polygon → ℝ → ℝ → ShapelyResult) (bars : List Bar)
    (d : List Group) (hs : EqualSizes d) (e : Fin 3 → ℝ) :
    marinIntegrate split [] bars e .modulus (some d) =
      .ok (.stiffness (stiffness (fibres Law.tangent d) e), d) := by
  simp only [marinIntegrate, marinPrepare, List.map_nil, processSurfaces,
    marinGroups_eq e .modulus Law.tangent (fun _ => rfl) d hs, List.nil_append,
    marinStiffness_points, fiberModulus_eq, rotGroups_neg]

/-- The first call (no cached data) returns the bars grouped by law, and the same result as a call
with that data. -/
theorem C20_first_call (split : Polygon → ℝ → ℝ → ShapelyResult) (surfs : List Surf)
    (bars : List Bar) (e : Fin 3 → ℝ) (ig : IntegrateArg) :
    marinIntegrate split surfs bars e ig none =
      marinIntegrate split surfs bars e ig (some (groupBars bars)) := by
  simp only [marinIntegrate, marinPrepare, groupBars_rotate]

/-- Whatever the section, a successful call hands back exactly the bar data it was given. -/
theorem C20_data_unrotated (split : Polygon → ℝ → ℝ → ShapelyResult) (surfs : List Surf)
    (bars : List Bar) (e : Fin 3 → ℝ) (ig : IntegrateArg) (d d' : List Group) (r : Response)
    (h : marinIntegrate split surfs bars e ig (some d) = .ok (r, d')) : d' = d := by
  simp only [marinIntegrate, marinPrepare] at h
  cases h1 : processSurfaces split ig (Real.sqrt (e 2 ^ 2 + e 1 ^ 2)) (e 0)
      (surfs.map fun g => { g with polygon := g.polygon.rotate (-atan2 (e 2) (e 1)) }) with
  | error x => simp [h1] at h
  | ok x =>
    cases h2 : marinGroups x.2 (Real.sqrt (e 2 ^ 2 + e 1 ^ 2)) ig
        (d.map (rotGroup (-atan2 (e 2) (e 1)))) with
    | error y => simp [h1, h2] at h
    | ok y =>
      simp only [h1, h2] at h
      cases ig <;> simp only [Except.ok.injEq, Prod.mk.injEq, reduceCtorEq] at h
      · rw [← h.2]; exact rotGroups_neg _ d
      · rw [← h.2]; exact rotGroups_neg _ d

/-- Marin and fiber integrators agree on point reinforcement. -/
theorem C20_agree_partial (split : Polygon → ℝ → ℝ → ShapelyResult) (surfs : List MeshSurf)
    (bars : List Bar) (d : List Group) (hd : d ≠ []) (hs : EqualSizes d) (e : Fin 3 → ℝ) (ms : ℝ)
    (ig : IntegrateArg) (hig : ig ≠ .other) :
    marinIntegrate split [] bars e ig (some d) = fiberIntegrate surfs bars e ig (some d) ms := by
  cases ig with
  | stress => rw [C20_forces_partial _ _ _ hs, C18_forces _ _ _ hd]
  | modulus => rw [C20_stiffness_partial _ _ _ hs, C18_stiffness _ _ _ hd]
  | other => exact absurd rfl hig

/-- **C20 violated.** With two steels in different numbers of bars (one bar of the first, two of the
second) every Marin integration raises `ValueError` while the fiber integrator returns forces:
`np.array` is called on arrays of different lengths (numpy >= 1.24). -/
theorem C20_ragged_violated (split : Polygon → ℝ → ℝ → ShapelyResult) (surfs : List MeshSurf)
    (e : Fin 3 → ℝ) (ms : ℝ) (l₀ l₁ : Law) :
    let bars : List Bar := [⟨0, 0, 100, ⟨0, l₀⟩⟩, ⟨50, 0, 100, ⟨1, l₁⟩⟩, ⟨0, 50, 100, ⟨1, l₁⟩⟩]
    marinIntegrate split [] bars e .stress none = .error .valueError ∧
    ∃ F d, fiberIntegrate surfs bars e .stress (some (groupBars bars)) ms = .ok (.forces F, d) := by
  intro bars
  have hg : groupBars bars =
      [⟨[(0, 0, 100)], ⟨0, l₀⟩⟩, ⟨[(50, 0, 100), (0, 50, 100)], ⟨1, l₁⟩⟩] := by
    simp [bars, groupBars, insertBar]
  refine ⟨?_, _, _, C18_forces _ _ _ (by rw [hg]; simp) _ _⟩
  rw [C20_first_call, hg]
  simp only [marinIntegrate, marinPrepare, List.map_nil, processSurfaces]
  have : ∀ e0 e1 a, marinGroups e0 e1 .stress (List.map (rotGroup a)
      [⟨[(0, 0, 100)], ⟨0, l₀⟩⟩, ⟨[(50, 0, 100), (0, 50, 100)], ⟨1, l₁⟩⟩]) = .error .valueError := by
    intro e0 e1 a
    unfold marinGroups
    rw [except_mapM_ok (f := marinGroup e0 e1 .stress) (g := fun g : Group => g.pts.map fun p =>
      (p.1, p.2.1, g.law.law.stress (e0 + e1 * p.2.1) * p.2.2)) (fun g => rfl)]
    simp [rotGroup]
  rw [this]

/-- Any other `integrate` argument raises `ValueError` for a section with bars. -/
theorem C20_unknown (split : Polygon → ℝ → ℝ → ShapelyResult) (bars : List Bar) (d : List Group)
    (hd : d ≠ []) (e : Fin 3 → ℝ) :
    marinIntegrate split [] bars e .other (some d) = .error .valueError := by
  obtain ⟨g, gs, rfl⟩ := List.exists_cons_of_ne_nil hd
  rfl

/-- The hypotheses of the partial theorems hold for the reinforcement of one steel. -/
example (law : LawObj) (pts : List (ℝ × ℝ × ℝ)) : EqualSizes [⟨pts, law⟩] := by
  intro a ha b hb
  simp at ha hb
  rw [ha, hb]

end SC
