import Verif.Model.Fiber
import Verif.Model.Profile

/-! # FiberIntegrator.prepare_triangulation: the input of the mesher -/

set_option autoImplicit false

namespace SC

noncomputable section

/-- The dictionary passed to `triangle.triangulate` (section_integrators/_fiber_integrator.py:57-61); the key `holes` is absent
if there is no hole. -/
structure TriInput where
  vertices : List (ℝ × ℝ)
  segments : List (ℕ × ℕ)
  holes : Option (List (ℝ × ℝ))

/-- section_integrators/_fiber_integrator.py:35-37 and 46-48: `node_i = arange(n) + start`, `node_j = roll(node_i, -1)`. -/
def ringSegments (start n : ℕ) : List (ℕ × ℕ) :=
  let nodeI := (List.range n).map (· + start)
  let nodeJ := nodeI.rotate 1
  nodeI.zip nodeJ

/-- section_integrators/_fiber_integrator.py:41-55, one hole: its vertices without the last one, its segments, its centroid
(the centroid of the polygon made of that ring alone). -/
def addHole (acc : List (ℝ × ℝ) × List (ℕ × ℕ) × List (ℝ × ℝ)) (r : List (ℝ × ℝ)) :
    List (ℝ × ℝ) × List (ℕ × ℕ) × List (ℝ × ℝ) :=
  (acc.1 ++ r.dropLast, acc.2.1 ++ ringSegments acc.1.length r.dropLast.length,
    acc.2.2 ++ [Polygon.centroid ⟨r, []⟩])

/-- section_integrators/_fiber_integrator.py:21-62 `prepare_triangulation` (the running number of vertices `n_vertices` is the
length of `vertices`). -/
def prepareTriangulation (p : Polygon) : TriInput :=
  let acc := p.ints.foldl addHole (p.ext.dropLast, ringSegments 0 p.ext.dropLast.length, [])
  ⟨acc.1, acc.2.1, if acc.2.2.length > 0 then some acc.2.2 else none⟩

end

end SC
