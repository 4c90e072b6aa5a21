import Verif.Props.Fiber
import Verif.Lemmas.Triangle
import Verif.Model.MarinIntegration

/-! # C49: accuracy of the fiber discretisation on a triangular mesh -/

set_option autoImplicit false

namespace SC

open Spec

theorem edgeTerm_explicit (p q : ℝ × ℝ) :
    edgeTerm 0 0 p q = det2 p q / 2 ∧
    edgeTerm 1 0 p q = det2 p q * (p.1 + q.1) / 6 ∧
    edgeTerm 0 1 p q = det2 p q * (p.2 + q.2) / 6 ∧
    edgeTerm 2 0 p q = det2 p q * (p.1 ^ 2 + p.1 * q.1 + q.1 ^ 2) / 12 ∧
    edgeTerm 0 2 p q = det2 p q * (p.2 ^ 2 + p.2 * q.2 + q.2 ^ 2) / 12 ∧
    edgeTerm 1 1 p q = det2 p q * (2 * p.1 * p.2 + p.1 * q.2 + q.1 * p.2 + 2 * q.1 * q.2) / 24 := by
  refine ⟨?_, ?_, ?_, ?_, ?_, ?_⟩ <;>
    simp [edgeTerm, lineInt_eq, Finset.sum_range_succ, marinCoeff, Nat.choose] <;> ring

theorem orientation_mul (a b c : ℝ × ℝ) (h : cross a b c ≠ 0) {x y : ℝ}
    (hx : orientation a b c * x = cross a b c * y) : x = |cross a b c| * y := by
  rcases lt_or_gt_of_ne h with hc | hc
  · simp only [orientation, sign_neg hc] at hx
    rw [abs_of_neg hc]
    simp at hx
    linarith
  · simp only [orientation, sign_pos hc] at hx
    rw [abs_of_pos hc]
    simpa using hx

/-- The fibre the integrator makes of a mesh triangle: its area and first moments are exact, its
second moments are short by the triangle's own (central) second moments. -/
theorem C49_triangle (a b c : ℝ × ℝ) (h : cross a b c ≠ 0) (yc zc A : ℝ)
    (hf : triFibre (a, b, c) = (yc, zc, A)) :
    0 < A ∧
    areaMoment 0 0 (triangle a b c) = A ∧
    areaMoment 1 0 (triangle a b c) = A * yc ∧
    areaMoment 0 1 (triangle a b c) = A * zc ∧
    areaMoment 0 2 (triangle a b c) = A * zc ^ 2 +
      A / 36 * ((a.2 - b.2) ^ 2 + (b.2 - c.2) ^ 2 + (c.2 - a.2) ^ 2) ∧
    areaMoment 2 0 (triangle a b c) = A * yc ^ 2 +
      A / 36 * ((a.1 - b.1) ^ 2 + (b.1 - c.1) ^ 2 + (c.1 - a.1) ^ 2) ∧
    areaMoment 1 1 (triangle a b c) = A * yc * zc +
      A / 36 * ((a.1 - b.1) * (a.2 - b.2) + (b.1 - c.1) * (b.2 - c.2) + (c.1 - a.1) * (c.2 - a.2)) := by
  have hA : A = |cross a b c| / 2 := by
    have := congrArg (fun t => t.2.2) hf
    simp only [triFibre] at this
    rw [← this]
    have hx : a.1 * b.2 - a.2 * b.1 + (b.1 * c.2 - b.2 * c.1) + (c.1 * a.2 - c.2 * a.1)
        = cross a b c := by simp only [cross]; ring
    rw [hx]
    norm_num
    ring
  have hy : yc = (a.1 + b.1 + c.1) / 3 := by
    have := congrArg (fun t => t.1) hf
    simp only [triFibre] at this
    exact this.symm
  have hz : zc = (a.2 + b.2 + c.2) / 3 := by
    have := congrArg (fun t => t.2.1) hf
    simp only [triFibre] at this
    exact this.symm
  refine ⟨by rw [hA]; have := abs_pos.2 h; linarith, ?_, ?_, ?_, ?_, ?_, ?_⟩
  · have := orientation_mul a b c h (x := areaMoment 0 0 (triangle a b c)) (y := 1 / 2) (by
      rw [triangle_edgeTerm, (edgeTerm_explicit a b).1, (edgeTerm_explicit b c).1,
        (edgeTerm_explicit c a).1]
      simp only [cross, det2]; ring)
    rw [this, hA]; ring
  · have := orientation_mul a b c h (x := areaMoment 1 0 (triangle a b c))
      (y := (a.1 + b.1 + c.1) / 6) (by
      rw [triangle_edgeTerm, (edgeTerm_explicit a b).2.1, (edgeTerm_explicit b c).2.1,
        (edgeTerm_explicit c a).2.1]
      simp only [cross, det2]; ring)
    rw [this, hA, hy]; ring
  · have := orientation_mul a b c h (x := areaMoment 0 1 (triangle a b c))
      (y := (a.2 + b.2 + c.2) / 6) (by
      rw [triangle_edgeTerm, (edgeTerm_explicit a b).2.2.1, (edgeTerm_explicit b c).2.2.1,
        (edgeTerm_explicit c a).2.2.1]
      simp only [cross, det2]; ring)
    rw [this, hA, hz]; ring
  · have := orientation_mul a b c h (x := areaMoment 0 2 (triangle a b c))
      (y := (a.2 ^ 2 + b.2 ^ 2 + c.2 ^ 2 + (a.2 + b.2 + c.2) ^ 2) / 24) (by
      rw [triangle_edgeTerm, (edgeTerm_explicit a b).2.2.2.2.1, (edgeTerm_explicit b c).2.2.2.2.1,
        (edgeTerm_explicit c a).2.2.2.2.1]
      simp only [cross, det2]; ring)
    rw [this, hA, hz]; ring
  · have := orientation_mul a b c h (x := areaMoment 2 0 (triangle a b c))
      (y := (a.1 ^ 2 + b.1 ^ 2 + c.1 ^ 2 + (a.1 + b.1 + c.1) ^ 2) / 24) (by
      rw [triangle_edgeTerm, (edgeTerm_explicit a b).2.2.2.1, (edgeTerm_explicit b c).2.2.2.1,
        (edgeTerm_explicit c a).2.2.2.1]
      simp only [cross, det2]; ring)
    rw [this, hA, hy]; ring
  · have := orientation_mul a b c h (x := areaMoment 1 1 (triangle a b c))
      (y := (a.1 * a.2 + b.1 * b.2 + c.1 * c.2 +
        (a.1 + b.1 + c.1) * (a.2 + b.2 + c.2)) / 24) (by
      rw [triangle_edgeTerm, (edgeTerm_explicit a b).2.2.2.2.2, (edgeTerm_explicit b c).2.2.2.2.2,
        (edgeTerm_explicit c a).2.2.2.2.2]
      simp only [cross, det2]; ring)
    rw [this, hA, hy, hz]; ring

/-- Moment of a mesh: the sum over its triangles. -/
noncomputable def meshMoment (m n : ℕ) (mesh : List ((ℝ × ℝ) × (ℝ × ℝ) × (ℝ × ℝ))) : ℝ :=
  (mesh.map fun t => areaMoment m n (triangle t.1 t.2.1 t.2.2)).sum

/-- **C49.** Elastic surface meshed with any non-degenerate triangles: the fiber integrator's
axial force is exact for every strain plane, i.e. `N = E (e0 A + ey S_z - ez S_y)` with the exact
area moments of the mesh; and its bending stiffnesses never exceed the exact ones `E I`. -/
theorem C49_elastic (l : Elastic) (hE : 0 ≤ l.E) (id : ℕ)
    (mesh : List ((ℝ × ℝ) × (ℝ × ℝ) × (ℝ × ℝ)))
    (hm : ∀ t ∈ mesh, cross t.1 t.2.1 t.2.2 ≠ 0) (surfs : List MeshSurf) (bars : List Bar)
    (e : Fin 3 → ℝ) (ms : ℝ) :
    ∃ F K d, fiberIntegrate surfs bars e .stress (some [⟨mesh.map triFibre, ⟨id, l.law⟩⟩]) ms
        = .ok (.forces F, d) ∧
      fiberIntegrate surfs bars e .modulus (some [⟨mesh.map triFibre, ⟨id, l.law⟩⟩]) ms
        = .ok (.stiffness K, d) ∧
      F 0 = l.E * (e 0 * meshMoment 0 0 mesh + e 1 * meshMoment 0 1 mesh
        - e 2 * meshMoment 1 0 mesh) ∧
      K 0 0 = l.E * meshMoment 0 0 mesh ∧ K 0 1 = l.E * meshMoment 0 1 mesh ∧
      K 0 2 = -(l.E * meshMoment 1 0 mesh) ∧
      K 1 1 ≤ l.E * meshMoment 0 2 mesh ∧ K 2 2 ≤ l.E * meshMoment 2 0 mesh := by
  refine ⟨_, _, _, C18_forces _ _ _ (by simp) _ _, C18_stiffness _ _ _ (by simp) _ _, ?_⟩
  simp only [fibres, List.flatMap_cons, List.flatMap_nil, List.append_nil, resultants, stiffness,
    meshMoment, List.map_map, Function.comp_def]
  induction mesh with
  | nil => simp
  | cons t mesh ih =>
    obtain ⟨i1, i2, i3, i4, i5, i6⟩ := ih (fun t ht => hm t (by simp [ht]))
    obtain ⟨hA, h00, h10, h01, h02, h20, -⟩ := C49_triangle t.1 t.2.1 t.2.2 (hm t (by simp))
      (triFibre t).1 (triFibre t).2.1 (triFibre t).2.2 rfl
    simp only [List.map_cons, List.sum_cons]
    rw [i1, i2, i3, i4, h00, h10, h01, h02, h20]
    simp only [lever, planeStrain, Elastic.law, Elastic.stress, Elastic.tangent] at *
    simp at *
    refine ⟨by ring, by ring, by ring, by ring, ?_, ?_⟩
    · have : 0 ≤ l.E * ((triFibre t).2.2 / 36 * ((t.1.2 - t.2.1.2) ^ 2 + (t.2.1.2 - t.2.2.2) ^ 2
        + (t.2.2.2 - t.1.2) ^ 2)) := by positivity
      nlinarith
    · have : 0 ≤ l.E * ((triFibre t).2.2 / 36 * ((t.1.1 - t.2.1.1) ^ 2 + (t.2.1.1 - t.2.2.1) ^ 2
        + (t.2.2.1 - t.1.1) ^ 2)) := by positivity
      nlinarith

/-- An invalid mesh size raises `ValueError` when a mesh is needed (no cached data); cached data
makes the mesh size irrelevant. -/
theorem C49_mesh_size (surfs : List MeshSurf) (bars : List Bar) (e : Fin 3 → ℝ)
    (ig : IntegrateArg) (ms : ℝ) :
    (ms ≤ 0 ∨ 1 < ms → fiberIntegrate surfs bars e ig none ms = .error .valueError) ∧
    (∀ d ms', fiberIntegrate surfs bars e ig (some d) ms = fiberIntegrate surfs bars e ig (some d) ms') := by
  refine ⟨fun h => ?_, fun d ms' => rfl⟩
  simp [fiberIntegrate, triangulate, h]

/-- The data returned by a first call reproduces the result of that call. -/
theorem C49_cache_transparent (surfs : List MeshSurf) (bars : List Bar) (e : Fin 3 → ℝ)
    (ig : IntegrateArg) (ms : ℝ) (r : Response) (d : List Group)
    (h : fiberIntegrate surfs bars e ig none ms = .ok (r, d)) :
    fiberIntegrate surfs bars e ig (some d) ms = .ok (r, d) := by
  unfold fiberIntegrate at h ⊢
  cases ht : triangulate surfs bars ms with
  | error e => simp [ht] at h
  | ok d' =>
    simp only [ht] at h
    have hd : d = d' := by
      split at h
      · cases h
      · cases ig <;> simp at h <;> exact h.2.symm
    subst hd
    simpa using h

/-- Example: the unit square split in two triangles. -/
example : ∀ t ∈ [(((0:ℝ), (0:ℝ)), ((1:ℝ), (0:ℝ)), ((1:ℝ), (1:ℝ))), ((0, 0), (1, 1), (0, 1))],
    cross t.1 t.2.1 t.2.2 ≠ 0 := by
  intro t ht
  simp only [List.mem_cons, List.not_mem_nil, or_false] at ht
  rcases ht with rfl | rfl <;> norm_num [cross]

end SC
