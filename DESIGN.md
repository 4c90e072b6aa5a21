# Formal model of structuralcodes (v0.6.4) in Lean 4 — design

## 1. What is modelled and how

The library is pure numerical Python around four stateful islands (the global
design code, the integrator registry, the per-section cache of integration data,
and class counters). The model is *shallow*: every modelled Python function is a
Lean function with the same branches, in the same order.

* **Numbers.** Python `float`/numpy `float64` values are modelled as `ℝ`
  (Mathlib). Rounding, overflow, NaN and infinities are NOT modelled; where the
  code's behaviour depends on one of them the comment at the definition says so.
  Tolerances in the code (`np.isclose`, `1e-2`, `1e-12`, ...) are modelled exactly.
  `int`/counts are `ℕ` or `ℤ`.
* **Exceptions.** `Except PyErr α`, one constructor per Python exception class.
  A division by zero that Python would raise on is an explicit `.error`
  branch or an explicit hypothesis of the theorem, never Lean's `x / 0 = 0`.
* **Arrays.** numpy arrays are functions `ι → ℝ` on an arbitrary index type (so a
  theorem about them holds for arrays of every shape) or lists; boolean-mask
  assignment `a[mask] = f(a[mask])` is `maskSet`, a pointwise `if`. Where a function
  mutates its argument the model returns the mutated argument too.
* **Loops.** `for` loops over lists are `foldl`, `mapM` or structural recursion.
  `while` loops are `pyWhile cond body` (`Model/Loop.lean`), the
  result after the number of passes Python would make, or `none` if the loop would
  run for ever; there is no bound on the passes, and termination is a theorem (C25,
  C26, C60), not an assumption.
* **Strings** are ASCII `List Char` (or `String` for the names in the profile
  tables); `lower`, `upper`, `strip` are modelled for ASCII.
* **Mutable objects** become state-passing functions; exceptions keep the state
  reached so far (`State × Except PyErr α`).
* **External libraries** (shapely, triangle, scipy, numpy.linalg) are either
  modelled by the mathematical operation they implement (affine maps, `np.interp`,
  `np.linspace`, `polygon.bounds`, `polygon.centroid`, areas) or are parameters of
  the model, with a hypothesis saying what is expected of them (see §3).
* **Warnings** and generated names (`Geometry_12`) are not modelled, except where a
  property is about names (C55).

Layout under `lean/Verif/`:

* `Model/*.lean`  definitions only; each carries a `file:lines` citation to /repo;
* `Spec/*.lean`   small independent specifications used to state properties;
* `Lemmas/*.lean` helper lemmas;
* `Props/*.lean`  the property theorems, each with `example`s showing that a
  concrete non-trivial case meets the hypotheses.

Where the code violates a property, the negation is proved with a concrete
witness (theorem name ends in `_violated`), and the strongest true part is proved
under a name ending in `_partial`.

## 2. Plan per property

| id | modelled | proof method |
|----|----------|--------------|
| C01 | `marin_integration` verbatim as nested sums | Dirichlet integral over the simplex + binomial expansion |
| C02, C03 | same | corollaries of edge form (antisymmetry, telescoping) |
| C04 | vertex list of RectangularGeometry | evaluation of the nested sums + ring |
| C05-C07 | scalar and array code of each law, incl. the in-place snapping | case analysis, pointwise lift to lists |
| C08-C11 | laws | real inequalities (rpow/Bernoulli, convexity), `HasDerivAt` |
| C12 | `get_secant` for an arbitrary law | algebra |
| C13 | `__marin__` / `__marin_tangent__` of each law | case analysis + ring |
| C14-C16 | InitialStrain, Parallel (interval merging), initial-stress Newton loop | loop invariants, induction on lists |
| C17 | UserDefined with np.interp and np.searchsorted | induction on sorted lists |
| C18-C21 | fiber + Marin integrators on lists of fibres/polygons | sums, rotations, `HasDerivAt` |
| C22 | balanced failure double loop | loop invariant |
| C23-C25 | bracketing and bisection loops over an arbitrary response | loop invariants, counterexamples |
| C26 | Newton loop over arbitrary response/solve | loop invariant |
| C27-C28 | calculator as a state machine, calls may raise at any point | invariant over all call sequences |
| C29-C31 | registries as state machines | induction over operation lists |
| C32-C37 | geometry algebra | lists, affine maps |
| C38-C39 | strain-profile and curvature grids (np.linspace/geomspace) | lists + convex combinations |
| C40-C46 | code formula modules function by function | real analysis |
| C47-C48 | material classes | case analysis |
| C49 | `fiberIntegrate` with a mesher as parameter | sums over triangles, convexity (own inertia of a triangle ≥ 0) |
| C50 | Marin integrator strip loop with `__marin__` pieces of every polynomial law, holes | induction over rings and strips; integrals over regions (Green on triangles) |
| C51 | `find_equilibrium_fixed_pivot` and limits of all parts | order on the ordinates, convexity of plane strains |
| C52 | `_calculate_gross_section_properties`, `from_geometry`, both integrators | region integrals, translation of moments, eigenvalues of 2x2 matrices |
| C53 | calculator methods end to end | composition of rotation lemmas with C18/C20 |
| C54, C59 | factories and basic materials | case analysis |
| C55 | names and labels of geometries | lists |
| C56 | Rectangular/CircularGeometry | trigonometric sums, limits |
| C57 | `triangulate`, `prepare_triangulation`, `fiberIntegrate` on stress | Lipschitz bound per triangle, sums over the mesh; Hahn-Banach for the hole points |
| C58 | grid of ultimate profiles | order along `linspace` segments |
| C60 | cached properties of profiles as a state machine, bisection for the plastic axis | invariant over all read sequences; loop invariant of the bisection |
| C61 | the 14 profile tables (generated from the source) and their lookups | invariant over all call sequences; kernel evaluation of the tables (whole finite domain, not a sample) |
| C62 | `_create_I_section`, `_create_parallel_U_section` as regions | measure theory, symmetric regions |
| C63 | `calculate_elastic_cracked_properties` | C23 + C50 + C52 + C64 composed |
| C64 | `split`, `split_two_lines`, `create_line_point_angle` | region integrals, half planes, convex hulls |
| C65 | `_discretize_law`, inherited `__marin__`, argument binding of `Parallel.__marin__` | the search grid is eliminated by list lemmas; chords, convexity, mean value theorem; C50 for the section |
| C66 | `calculate_bending_strength`, `find_equilibrium_fixed_pivot`, `calculate_limit_axial_load`, `get_balanced_failure_strain` with the Marin engine on concrete polygons and bars | composition of C50 (exact resultants), C20/C21 (histories, search), C22 (pivot), C51 (admissibility); a Lipschitz bound on the axial force gives termination |
| C67 | `calculate_nm/nmm/mm_interaction_domain` with the Marin engine on concrete polygons and bars | induction over the list of profiles; C38 bounds the strains of the profiles so that C50 applies to each; C66 for each angle of the My-Mz domain. For designed sections (`C67_design*`) the hypothesis `Ordinary` is derived from the constructors and the geometry: the yield failure by C22 (`OrdinaryRC.yielding`), existence of the profiles field by field |
| C68 | `calculate_strain_profile` with the fibre integrator, any history | C26 contract + Lipschitz bounds of resultants and stiffness of the fibres; uniqueness by monotonicity |
| C69 | `_create_taper_I_section`, `_create_taper_U_section`, `_create_L_section`: outlines as polylines, `linemerge`, mirrors, `translate` to the centroid, `orient`; `offset_curve` twice as a parameter | chains of polylines, moments additive along edges, reflections and translations; corner contract `Rounds` |
| C70 | `calculate_moment_curvature` with the Marin integrator on sections of parabola-rectangle concrete and bars (C66's chain plus the loop of fixed-curvature searches, given or default curvatures) | all strains met are dyadic multiples of 0.001, so all but countably many loads are never met exactly; induction over the loop; C23, C39, C50 |
| C71 | the calculator with the fibre integrator: `calculate_bending_strength`, `calculate_moment_curvature`, limit axial loads on meshed surfaces of any law and bars (`FibrePart`, `fibreSectionEngine`) | the fibre integrator answers exactly with the forces of the section of its fibres (C18), so the searches of C66/C70 apply to that section; C57 bounds the distance to the section itself; Lipschitz bound for the return |
| C72 | two calculators (`bendingStrength`, `checkAxialLoad`), one on a section and one on the section after a rigid motion (`Motion`: mirror, turn, shift); separate specification `Spec/Motion.lean` | change of variables for the regions, heights of the parts shift by a constant, so `balancedFailure` and the bisection of the pivot search run through corresponding states; hence the same curvature and corresponding forces. Witness for the limit loads: two steels, section upside down Domains (Props/DomainTransport): the six fields depend on the governing heights through ratios only, so the profiles of corresponding sections correspond one by one; both domains return the exact forces (C67). |
| C73 | the material constructors (`newConcrete`, `newSteel`), `limits`, `bendingStrength` on sections of normal strength concrete and one perfectly plastic steel | the governing pair of the balanced search is the lowest bar and the highest concrete corner (a bar inside the concrete cannot crush first; a concrete corner never governs in tension because its limit 100 would need a curvature that breaks the bar), so the side conditions of C66 follow from the geometry; the end planes of the search are compared with the uniform planes by the Lipschitz bound of the axial force. Finding (`C73_violated`): a load that a midpoint carries exactly makes that midpoint an end of the bracket with residual 0, after which no sign change is seen and the search runs to the squash load (`bisection_drops`) |
| C74 | `bendingStrength`, `nmDomain`, `momentCurvature` on the sections of C73; the specification (Spec/Maximum) defines the moment about an inclined axis, sections that do not soften, and ultimate planes | two planes cross in a line: with monotone stresses the difference of the stresses times the distance from that line has one sign, so the plane with more curvature has the larger moment about it (`moment_tilt`); a plane with less curvature than an ultimate one cannot be stressed higher everywhere, because the pivot is at its limit; the returned planes are ultimate by C66, those of fields 1-5 by C38 |
| C75 | `bendingStrength`, `limits` (Marin integrator) on sections whose surfaces are all elastic - perfectly plastic with a common limit strain; the specification (Spec/Plastic) defines the squash load and the moment of a rigid-plastic section about a line | the stress is the clamped linear law, at most `fy` in size, so the moment about any line is at most the plastic moment; outside the band of half-width eps_y/curvature around the neutral axis it equals `fy`, inside it loses at most fy*eps_y/(4 curvature) per area; the curvature of the result is at least u/(hi-lo) because an extreme fibre is at u and the neutral axis crosses the section; the search is that of C66 with the two outermost fibres as pivots; Wply by C60 |
| C76 | `bendingStrength` on the sections of C73 with `ElasticPlastic` laws with hardening, as `newSteel` builds by default; the snapping of strains to the limits (`snap`) is what matters | the law is Lipschitz on either side of two jumps, at `±(u - w)`; the bisection converges if no jump lies between the iterates or if the force at the jump is farther from the load than the jump (`bisection_jumps`), and runs out of iterations if the force is nowhere within 1e-2 of the load (`bisection_stuck`); about the compression pivot the axial force is monotone in the curvature, so the jump of the lowest bar leaves a gap of loads carried by no trial plane |
| C77 | the sections of C73 with one rectangle and one layer of bars | the parabola-rectangle law is integrated in closed form over the three zones of the section (`block_force`, `block_moment`: 17/21 and 99/238); a limit state bent downwards has the upper face at -0.0035 or the bars at the ultimate strain; the force is monotone under either pivot, so a load in the range excludes the second and forces the bars to yield (`rect_state`); then the force is linear in the depth of the neutral axis; the strength returned is such a state by `C73_design_partial` |
| C78 | the sections of C70/C73; rectangular beams of C77 | the points of a diagram are a chain of searches, each started at the strain before (`mcLoop_chain`, `chain_mcLoop`); the search for the last point starts with the upper face crushed: the crushed zone is cut off the integral and the force is that of the ultimate state whatever the strain (`displaced_forces`), so the start is returned and the moment is short by an explicit amount (`C78_end_violated`, `C78_repeats_violated`); on a concrete beam the whole chain is followed through Lipschitz and sign bounds of the force (`C78_beam_violated`); with few bars every trial strain of the bracketing search is crushed or ruptured and it raises (`C78_rupture_violated`); points in equilibrium and within the limits do have the moment of the strength, by C74 (`C78_end_partial`, `C70_design_partial`) |
| C79 | the sections of C73, twice: `bars` and `bars ++ more` | moments are compared about the layer, where the added bars have none; between two planes the stress difference changes sign at one height at most (`moment_tilt`), and the extra force in the layer has the sign of its strain, so a height can always be chosen about which both contributions have the right sign (`strength_added`); tension in the layer from the axial force by monotonicity (`layer_tension`). |
| C80 | the sections of C73 with the fibre engine of C71 (triangles as a function of the maximum area, assumed to triangulate the region with the requested size and angles) and with the Marin engine | the fibre search ends in a plane of the section that is admissible and at a limit, hence ultimate, with forces within the mesh error of C57; the curvature of an admissible plane is bounded by the limit strains over the depth of a bar, so the mesh error is a constant times the square root of the triangle size; the maximality of ultimate planes (C74) applied in both directions compares the two results (`C80_agree`); limits, refusal and return from C71 with the hypotheses discharged as in C73 (`C80_strength_partial`, `C80_design_partial`). |
| C81 | the sections of C73 with the Marin engine, two axial loads and two call histories | a result is an ultimate plane (C74); of two ultimate planes either the strains cross at a height of the section, and monotone laws make the moment about the crossing no larger, or they are ordered all over the section (beyond the pivot the stresses are ordered because the laws do not soften), and the moments about the lowest and the highest point are ordered (Props/LoadSlope); with C73 this bounds the change of the moment by the change of the load (Props/LoadDesign) |
| C82 | two sections of C73 that differ in the strength of the concrete, one layer of bars, Marin engine | both results are ultimate planes: the top is crushed or the layer has its ultimate strain, so the two strain lines are ordered between the layer and the top; if the stronger section is the less compressed one, the ratio of the two stresses grows with the height (the gain of the parabola-rectangle diagram from multiplying a strain falls with the strain, blockShape_ratio), hence the stress distributions cross once and the moment about the crossing is no smaller, while the layer carries no less tension; otherwise the stresses are ordered and the moment about the layer is no smaller (Props/Stronger, StrongerDesign, StrongerExample) |
| C83 | SectionProperties.isclose with np.allclose on the list of the fields (Model/Results) | the list of quantities that must agree is written out separately (Spec/Closeness, AllNear) and shown equivalent to the answer; witnesses for the failures (Props/Results) |
| C84 | sections of concrete whose law has no Marin expressions (parabola-rectangle with n other than 2), bars of one steel, Marin engine | the engine works exactly with the polygonal law of the discretisation (C65); the results of C73/C74 are proved for any law that is bounded, Lipschitz, zero in tension and (for the largest moment) monotone (Props/OrdinarySolids), applied to the polygon (Props/PolyConcrete, PolyStrength), and the polygon lies above the convex diagram by at most n·fc/e0·u/40, which bounds the difference of axial force and moment by area integrals (plate_compare; Props/PolyDesign, PolyExample) |
| C85 | sections of concrete with BilinearCompression, bars of one steel, Marin engine, material constructors | the Marin pieces of the law are those of the diagram (bilinear_core_pieces), which is bounded, Lipschitz and monotone, so the general theorems of Props/OrdinarySolids apply; the diagram of the specification agrees with the law down to the ultimate strain (Props/BilinearStrength, BilinearDesign) |
| C86 | sections of concrete with Sargin's or Popovics' law, bars of one steel, Marin engine, material constructors of EC2 2004 | the discretised law is the polygon through eleven points of the diagram (Props/Discretize), Lipschitz but not monotone; the general existence and tolerance theorems of Props/OrdinarySolids need no monotonicity (Props/SofteningStrength); distance between polygon and diagram from sargin_lip and the chord error (Props/SarginStrength, PopovicsStrength); default values bounded by powers (Props/SarginDesign), by the table of the Model Code or by the formulas of EC2 2023 (Props/SarginCodes); the claim that every load the section carries is accepted is false (C86_limit_violated) |
| C87 | `calculate_moment_curvature` with the Marin integrator on sections of one concrete of any law and bars; curvature zero (where the integrator snaps the uniform strain to a limit) and axial force zero included | the integrator is exact for the discretised law (Exact); the search brackets the force, so an exactly met force lies between the start and a strain on the other side, which excludes states in which everything has failed (Props/CurvatureZero broken_side, not_met_broken); induction over the loop (Props/AnyLawCurvature, DiagramLaws) |
| C88 | `calculate_nm_interaction_domain`, `calculate_nmm_interaction_domain` with the Marin integrator on sections of one concrete of any law (Exact) and bars of one steel | the strain profiles depend on limit strains and geometry only: the profiles of C67 for a shadow section with the same limit strains; the forces by exactness of the integrator for the law on each plane (Props/DomainLaws), transferred to the design diagram (Props/DomainLawsDesign, DomainLawsHigh, SarginCodes) |
| C89 | initial strain/stress of reinforcement (core/base.py:95-153, _initial_strain.py) through `newSteel`, and `calculate_bending_strength`, `calculate_limit_axial_load` with the Marin integrator on sections with such tendons | the wrapped law equals the shifted (or, unbonded, constant) design diagram on its shifted limits, Lipschitz and monotone there (Props/Prestress); the strength theorems of C73, C74, C84, C85, C86 hold for steel with unsymmetric limit strains (Props/Prestress, PrestressLaws); example with 300 MPa bonded and unbonded (Props/PrestressExample) |
| C90 | `marin_integration`, `calculate_gross_section_properties`, `calculate_limit_axial_load`, `calculate_bending_strength` with the Marin integrator on a section and its scaled copy | Spec/Scale: scaled points, planes, forces, sections; change of variables (Haar measure) for all integrals, signs of rings kept (Props/Scaling, ScalingConcrete); each answer's plane, scaled, is admissible for the other section, so C74 bounds either moment by the other (C90_strength); C73 for the existence of the answers; C52 for the gross properties (Props/ScalingGross); constructors and example (Props/ScalingDesign) Domains (Props/DomainTransport, DomainTransport3D): as C72, exactly scaled points. |
| C91 | the domains with `FiberIntegrator` | both engines share `get_balanced_failure_strain`, so the profiles are the same list (C67); the loop over the profiles returns the forces of the fibres (C18) and C57 bounds the error of each plane, all of which are admissible; their curvature is at most the limit strains over a bar depth (Props/FiberDomain, FiberDomainExample) |
| C92 | comparing strengths of the fibre integrator | C80 gives for each result a failure plane of the section in equilibrium up to the mesh error; the failure planes compare as in C79, C81 and C82, and the two errors add (Props/FiberCompare, FiberCompareDesign, FiberCompareExample) |
| C93 | motion and scaling with the fibre integrator | C80's failure planes of both sections; admissible and ultimate planes correspond under the motion or scaling, forces transform (C72, C90), and C74's comparison of two planes is applied in the second section in both directions ; domain: C91 for both sections and C72's corresponding profiles (Props/FiberMotion, FiberMotionDesign, FiberMotionDomain, FiberMotionExample, FiberMotionDomainExample, FiberScaleDesign, FiberScaleExample) |

Every property of `properties.jsonl` has theorems; `MANIFEST.json` names them with status and what is missing.
No property is `not_applicable`.

## 3. Trusted base

* Lean 4.33.0 kernel; axioms `propext`, `Classical.choice`, `Quot.sound` only.
  No `native_decide`, no `bv_decide`, no own axioms. `decide +kernel` is used for the profile tables and strings:
  the kernel evaluates the decision procedure, compiled code is not involved.
* Mathlib as installed (definitions of ℝ, rpow, exp, measures, integrals and their lemmas).
* The faithfulness of the transcription Python → Lean, checked by reading only.
* ℝ in place of float64 (see §1).
* Properties of external libraries appear as *hypotheses* on parameters, never as axioms. For each one a concrete
  instance that satisfies it is exhibited in the development, so that the theorems are not vacuous:

| parameter | hypothesis | instance shown |
|-----------|------------|----------------|
| shapely clipping of a strip (`split_two_lines`) | `SplitsExactly` (C50), `ClipsAt` (C64) | rectangle clipper |
| shapely `split`/`intersects` | `SplitsWell` (C60), `CutsWell` (C63, C64) | rectangle cutter / vertex-convex cutter |
| `triangle.triangulate` | `MeshOf` (C49, C52), `Triangulates` and `Quality` (C57: no angle below 30°, no triangle above the requested area) | unit square cut into right isosceles triangles for every mesh size (`unitMesh`) |
| shapely `buffer` (fillets) | `IsDisc` (C62) | true disc, regular polygon |
| shapely `offset_curve` (there and back) | `Rounds` (C69: runs inside the corner triangle from one end to the other) | sharp corner, every monotone line, filleted arcs of any number of chords (`rounds_arc`) |
| shapely `linemerge`, `polygonize` | joins lines at common ends; a closed line gives its polygon (modelled) | - |
| shapely `unary_union` | only that it returns a polygon or not (C52) | constant function |
| `triangle` mesher | triangles cover the region once (C49, C52) | two triangles of a rectangle |
| `np.linalg.eig` (2x2 symmetric) | `IsEig` (C52, C60) | constructed |
| `scipy.linalg.lu_factor/lu_solve` | solves the system or raises (C26) | constructed |
| `scipy.interpolate.griddata` | `IsGriddata` (convex combination of nodes, C43, C44) | `exists_griddata` |

## 4. What is modelled, per file

Everything in the following list is modelled function by function unless an exception is named.

* `codes/__init__.py` — global code and factories' use of it (C29). Not: `set_national_annex` (stores a string nobody reads).
* `codes/ec2_2004/*` — materials, creep and shrinkage, shear, crack control (7.3), reinforcement.
* `codes/ec2_2023/*` — section 5 materials, annex B, section 9 SLS.
* `codes/mc2010/*` — materials, creep and shrinkage, shear, punching, torsion, bond, interfaces. Not: `_check_fcm`,
  `_check_age_at_loading`, `_check_env_temp` (only warn, and are never called).
* `core/base.py` — `ConstitutiveLaw` (preprocess, secant, ultimate strain, `_discretize_law`, inherited Marin methods), `Material` (initial strain/stress).
* `geometry/*` — points, surfaces, compounds, translation, rotation, mirror, subtraction, splitting, reinforcement
  lines and circles, rectangles and circles, profile base class and all fourteen tables; regions of I and parallel-flange U
  sections, outlines of tapered and angle sections. Not: SVG representations, rounding to shapely's grid.
* `materials/*` — all three codes' concretes and reinforcements, basic materials, all constitutive laws, the factories.
* `sections/_generic.py` — all calculator methods; `sections/_rc_utils.py` — cracked properties;
  `sections/section_integrators/*` — both integrators, the factory, `marin_integration`.
* Not modelled at all: `__repr__`/`_repr_svg_`/`__str__`, deprecation warnings, dataclass field order.

## 5. Findings

Places where the code does not do what its documentation or its other half promises. Those with a theorem name are proved on
the model; the others were read off while transcribing and are visible in the cited model definition.

**Laws and materials.** Scalar and array tangent of BilinearCompression differ at 0 and at `eps_c`; scalar and array stress of
ParabolaRectangle and ElasticPlastic differ next to a limit (C05/C06 `_violated`). Evaluating a law on an array overwrites the
caller's array near the limit strains (C07). Sargin exceeds its strength for some accepted arguments (C08). ElasticPlastic
without ultimate strain reports `±2 eps_sy`, its Marin pieces end there while `get_stress` goes on. With
`strain_compatibility=False` the Marin pieces ignore the constant stress (C14). Parallel: an unbounded component is lost outside
the range of the others (C16); a Parallel law containing Sargin or Popovics raises TypeError in the Marin integrator, because
`Parallel` passes the strain positionally and the inherited `__marin__(**kwargs)` takes keywords only (C65 `_violated`). The two
integrators use different laws for Sargin, Popovics and parabola-rectangle with `n != 2` (C65). `create_constitutive_law` looks the name up in lower case but dispatches on the original case
(C30). `existing=True` is swallowed by `**kwargs` in all concretes (C47). `gamma_c = 0` silently means 1.5, `gamma_s = 0`
means 1.15, a negative `gamma_c` is accepted (EC2 2004, MC2010). MC2010 `eps_c1`/`eps_cu1` are negative by default but stored
as absolute values when given; `eps_c1` and `k_sargin` ignore a given `fcm`. ConcreteEC2_2023 documents
'bilinearcompression' but has none. A steel with `epsud < epsyd` is accepted and its law is zero at yield; `epsud = epsyd` is a
ZeroDivisionError; the `epsuk` setter leaves the law stale (C48).

**Integrators.** Bar groups of different sizes make the Marin integrator raise; a uniform strain is snapped for later geometries
(C20); a strip returned as GeometryCollection is dropped (C50); an explicit `mesh_size` is not passed on everywhere (C27). The
point that empties a hole in the fibre mesh is the centroid of the hole, which lies in the material for a U-shaped hole: the mesher
then keeps the hole and removes material (C57 `_violated`).

**Calculator.** An exactly balanced midpoint makes the bisections leave the root (C23, C24); a failed bracket search is not
reported (C23); the pivot search never checks its bracket; exceptions between the two rotations leave the cached integration data
rotated (C27); a brittle bar near the pivot is strained beyond its limit (C51); `calculate_strain_profile` runs one iteration more
than `max_iter` and then raises even if it converged (C26); balanced failure without any pair is an UnboundLocalError (C22). The default moment-curvature diagram ends at the ultimate curvature but
not at the ultimate state: the last search starts from the strain of the point before with the upper face beyond -0.0035, where the
crushed section is in equilibrium too, and returns it, with a moment short of the strength (C78 `_violated`, 17 % on a 300 × 500
beam); for sections governed by the rupture of the bars the diagram raises ValueError although the strength exists (C78).

**Geometry.** Nearly vertical splitting lines use `bbox[2]` in place of `bbox[3]` and may end inside the section (C36, C64).
`split_two_lines` with a list is an UnboundLocalError. `__sub__` and `from_geometry` lose the `concrete` flag, motions lose names
and group labels of surfaces (C37, C55). `add_reinforcement_line(n=1, s=0)` gives NaN coordinates, the circle a
ZeroDivisionError (C32, C33).

**Gross and cracked properties.** A section in several pieces raises AttributeError; zero initial tangent raises ValueError;
`theta = arccos` loses its sign; the moments with E = 1 include the bars while `area` does not (C52). Plain concrete without bars:
ValueError; remaining surfaces not one polygon: AttributeError; tension of non-concrete surfaces counts in equilibrium but is cut
away (C63); the fibre mesh is always 0.01.

**Profiles.** `theta` raises AttributeError on a fresh profile (C60); an exception during the search for Wply/Wplz leaves a
cached 0 (and a rotated polygon), so a retry returns 0; `IPE(80.9)` is IPE80 (C61); the tolerance 1e-10 of the plastic axis is
absolute on the area.

**Code formulas.** EC2 2023: `alpha_c_th`, `alpha_s_th` are `10 * 10e-6`, ten times too large; class Y1560 documented but
rejected; `sigma_s` accepts `k < 1`; `eps_cu1` rises beyond fcm = 108; `fctm` drops at 50. EC2 2004: cement class " R " is accepted
for shrinkage and rejected for creep; the rounding of cot theta accepts [0.995, 2.505); `CRdc = 0` is replaced by the default;
`v < 0` beyond 250 MPa; `As_min(sigma_s = 0)` is a ZeroDivisionError although documented; `As_min_p` may be negative;
`sr_max_theta` accepts any angle. MC2010: `fctm` drops at 50; `eps_cu2 < eps_c2` at C90; lower case cement classes are accepted
for strength and a KeyError for creep and shrinkage; `beta_cc` ignores the cement class above 60 MPa; `v_rd` levels 1, 2 ignore the
caller's `gamma_s`, level 3 divides `f_ywk` by it twice; `v_rdc_approx3` uses the signed shear force; `v_rd_max_approx3` is
negative for strains in (0.007, 0.016); `t_rd_max` with an unknown level is an UnboundLocalError; `s_3` for pull-out ignores
confinement.

## 6. Wrong programs

`seeded/LOG.jsonl` has one line per edited model definition: what was changed, which claim becomes false, which theorems failed,
and which theorem was tightened when none did.
