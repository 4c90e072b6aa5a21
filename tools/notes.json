{
 "C05": [
  "partial",
  "Proved for Elastic, Sargin, BilinearCompression, Popovics, UserDefined. ParabolaRectangle and ElasticPlastic differ between scalar and array inputs on measure-zero sets: violation witnesses and exact conditions proved."
 ],
 "C06": [
  "partial",
  "All laws; BilinearCompression tangent flag differs: witness in _violated."
 ],
 "C07": [
  "partial",
  "Caller arrays are mutated by the snapping preprocess (_violated witness); repeat-call stability proved."
 ],
 "C08": [
  "partial",
  "Sargin violates the bound for some admissible constructor arguments (witness); proved under the stated condition."
 ],
 "C09": [
  "partial",
  "Violated for Sargin's law when k = 1 (division by zero at the peak) and when the peak strain is within numpy's tolerance of the ultimate strain (the stress at the peak is then not the strength); C09_sargin_partial and C09_popovics_partial exclude exactly these cases by hypotheses on the constructor parameters."
 ],
 "C11": [
  "partial",
  "Boundedness fails without an ultimate strain (witness)."
 ],
 "C14": [
  "partial",
  "Marin coefficients proved where strains are compatible; the incompatible-strain Marin path and the unshifted strain ranges violate the property (witnesses)."
 ],
 "C17": [
  "partial",
  "The mirrored law is odd iff the first abscissa is 0; witness for the violation."
 ],
 "C16": [
  "partial",
  "Sum/ultimate/constructor proved in general. Marin pieces proved where all component ranges cover the strains; an unbounded component is lost outside the other ranges, and uniform/array edge cases violate the property (witnesses)."
 ],
 "C20": [
  "partial",
  "Proved for sections of bars (point geometries) with any groups, any strain plane and call history; a section with bar groups of different sizes raises in the Marin integrator, and next to a snapping surface law a uniform strain is altered for the bars (_violated witnesses)."
 ],
 "C50": [
  "partial",
  "Proved for bar groups of equal sizes and strains clear of numpy's tolerance at the ultimate strains, with the clipper's exactness as hypothesis (met by a concrete rectangle clipper). A strip that shapely returns as GeometryCollection is dropped (_violated witness)."
 ],
 "C23": [
  "partial",
  "The returned plane balances n within the tolerance unless the bisection hits an exact equilibrium midpoint (then the returned midpoint is off: _violated witness for every linear section) or no bracket was found (second _violated witness). Monotone Lipschitz responses covered. C23_almost_all_partial: for every response N the requested loads for which a midpoint is exactly balanced are countable, so every other load is balanced or falls in the no-bracket case."
 ],
 "C24": [
  "partial",
  "The pivot fibre keeps its limit strain for every response; equilibrium within 1e-2 proved when the residuals bracket and no dyadic plane is exactly balanced; violated otherwise (witness: linear prism, error > 400). C24_almost_all_partial: the same for all but countably many loads."
 ],
 "C51": [
  "partial",
  "Proved when no part is weaker than the governing parts; violated for a brittle bar near the pivot (witness)."
 ],
 "C26": [
  "proved",
  "Termination, contract, Newton update, linear/elastic sections (whole method on the fiber integrator). lu_factor/lu_solve is a parameter with its specification as hypothesis."
 ],
 "C27": [
  "partial",
  "Proved for all histories in which no rotating call raised after its axial-load check, with default mesh_size (any mesh_size for Marin). Violated by exceptions between the rotations and by mesh_size not passed on (witnesses)."
 ],
 "C28": [
  "proved",
  "For every engine, state and history."
 ],
 "C53": [
  "proved",
  "For integrators that return the fibre resultants: fiber integrator on any section; Marin integrator on bar sections with equal groups."
 ],
 "C47": [
  "partial",
  "Values, law and acceptance proved for the three concretes; the clause \"existing=True is rejected\" is false (C47_existing_violated) and a value read from an MC2010 concrete cannot be passed back unchanged (C47_roundtrip_violated). Warnings are not modelled."
 ],
 "C48": [
  "partial",
  "Design points proved for every accepted steel whose design yield strain is below the ultimate one by more than the tolerance; outside that range the claim is false (C48_brittle_violated), and the epsuk setter leaves the law stale (C48_setter_violated)."
 ],
 "C52": [
  "partial",
  "C52_marin (default integrator) and C52_fiber give every reported quantity; C52_centroid, C52_principal_partial: parallel axes and extreme moments. Violations: sections in several pieces raise AttributeError, zero initial stiffness (e.g. steel prestressed beyond yield) raises ValueError, theta loses its sign. shapely union, eig and the mesher are parameters."
 ],
 "C60": [
  "partial",
  "Every read of every property in any order is the region's value, except that theta raises AttributeError until Icsi or Ieta was read (C60_theta_violated) and is determined only up to sign. shapely split/intersects (SplitsWell) and eig are parameters; exceptions inside the search (which would leave a wrong cache) do not occur for such shapes."
 ],
 "C61": [
  "partial",
  "Full for all names and histories (C61_history), all listed dimensions (C61_dimensions). Violated for numbers: IPE(80.9) silently becomes IPE80 (C61_number_violated)."
 ],
 "C62": [
  "partial",
  "I sections: box, parts, symmetry, centroid, area, second moments, and with C60 the reported area and moduli; U sections with parallel flanges. Buffer discs are a parameter with IsDisc (proved for true discs and for regular polygons); rounding to the shapely grid is not modelled; tapered and angle sections: C69."
 ],
 "C63": [
  "partial",
  "Marin integrator, positive moduli, some reinforcement, no trial height exactly at the axis. Violated for plain concrete (ValueError), for remaining surfaces that do not form one polygon (AttributeError), and, for surfaces that are not concrete, tension below the axis is counted in equilibrium but removed from the geometry (C63_centroid). The fibre integrator is modelled, not proved."
 ],
 "C64": [
  "partial",
  "Angles not within 1e-8 of vertical, shapely's split/intersects/intersection assumed right (CutsWell, ClipsAt). Vertical lines given by point and angle may end inside the section: violated (C64_vertical_violated)."
 ],
 "C57": [
  "partial",
  "Holds for laws with bounded slope on the strains of the section (slopes given for parabola-rectangle, bilinear, Sargin, elastic-plastic) and a mesher that delivers what it is asked for. The hole points are inside the holes for convex holes only: C57_hole_point_violated is a U-shaped hole whose point lies in the material."
 ],
 "C66": [
  "partial",
  "Admissibility needs the governing strains to respect the limits of all materials (otherwise C51's violation applies); equilibrium is shown for all but countably many axial loads between the two end planes (the search compares with ==, see C21); limit loads need the uniform limit strains not to lie within snapping distance of a limit of another law. Termination (C66_returns) is for bars with Lipschitz laws. Parts: parabola-rectangle with n = 2."
 ],
 "C67": [
  "partial",
  "C67_nm/nmm/mm_partial: ordinary sections (hypothesis Ordinary: yield strains within ultimate ones, governing ordinate on top of the concrete, geometric spacing resolved; C38_violated shows the profiles may otherwise exceed limits) of parabola-rectangle concrete with n = 2, exact polygon clipper. C67_design*_partial: the hypotheses follow from the material constructors and the geometry (covered bars, lowest bar not exactly at 4/7 of the depth). Missing: the fiber integrator, other laws. My-Mz: conditions of C66/C73; the code reports the requested n, not the force of the plane."
 ],
 "C10": [
  "partial",
  "Tangent = derivative proved for every law away from its kinks; false for InitialStrain without strain compatibility (tangent 1e-6 of the wrapped one, derivative 0: _violated)."
 ],
 "C13": [
  "partial",
  "Marin pieces equal the law for all laws with bounded strain ranges; an elastic-plastic law without ultimate strain is cut at twice the yield strain (_violated)."
 ],
 "C29": [
  "partial",
  "Stable under every history that names no code; creating one material with an explicit code replaces the global one (_violated for every valid code)."
 ],
 "C30": [
  "partial",
  "Complete for lower-case names; mixed-case spellings pass the lookup and then fail (_violated)."
 ],
 "C32": [
  "partial",
  "Positions proved for n >= 2 or spacing given; n = 1 without spacing and coincident end points place bars at nan (_violated)."
 ],
 "C33": [
  "partial",
  "All combinations of n, s and arcs; the whole circle with a dividing spacing doubles one bar, n = 1 raises, and tiny radii count as whole circles (_violated)."
 ],
 "C34": [
  "partial",
  "Complete for geometries with surfaces; bars do not count in the extents (_violated: bars only)."
 ],
 "C35": [
  "partial",
  "Complete for proper axes; a degenerate mirror axis is accepted (_violated)."
 ],
 "C36": [
  "partial",
  "Complete except within 1e-8 of vertical, where the segment can end inside a box higher than wide (_violated)."
 ],
 "C37": [
  "partial",
  "Flag complete for compounds built from lists and moved; MultiPolygon compounds lack the attribute and subtraction drops a user-set flag (_violated)."
 ],
 "C38": [
  "partial",
  "Counts, labels and rejection for all sections; strain bounds for sections whose yield strains are ordered within the ultimate ones, false otherwise (C38_violated); field numbers of the N-My-Mz domain are those of the last angle only (_violated)."
 ],
 "C39": [
  "partial",
  "Grid proved for all admissible numbers; runs past the ultimate curvature when that is below yield, and misses yield/ultimate for num_pre_yield = 1 or num_post_yield = 0 (_violated)."
 ],
 "C40": [
  "partial",
  "Every function of section 3 (concrete and steel) modelled; violated: eps_c2 > eps_cu2 at C90, fctm falls at 50 MPa, jumps at 50, negative gamma_eps accepted."
 ],
 "C41": [
  "partial",
  "Creep and shrinkage complete, scalar and array; the two functions accept different cement spellings (_violated)."
 ],
 "C42": [
  "partial",
  "Shear complete; violated: an explicit CRdc = 0 is replaced, cot(theta) limits apply after rounding, v negative beyond 250 MPa."
 ],
 "C43": [
  "partial",
  "Crack control complete; violated: documented ValueErrors missing (kc_flanges, sr_max_theta), sigma_s = 0 divides by zero, As_min_p can be negative."
 ],
 "C44": [
  "partial",
  "Sections 5, 9 and annex B complete; violated: fctm falls at 50, eps_cu1 rises beyond fcm = 108, k < 1 accepted, Y1560 missing from the tables, thermal coefficients ten times too large."
 ],
 "C45": [
  "partial",
  "Materials, creep and shrinkage complete; violated: fctm falls at 50, eps_c2 > eps_cu2 at C90, cement spellings differ between functions."
 ],
 "C46": [
  "partial",
  "Shear, punching, torsion, interfaces complete; violated: level 3 crushing resistance negative between 0.7 and 1.6 per cent, sign of the shear force matters, gamma_s ignored or applied twice, UnboundLocalError for unknown torsion levels."
 ],
 "C54": [
  "partial",
  "Complete for the three implemented codes; with mc2020 the factories return None (_violated)."
 ],
 "C55": [
  "partial",
  "Bars keep name and label; surfaces lose both by every motion (_violated)."
 ],
 "C65": [
  "partial",
  "Law and section level proved (strains clear of the ultimate strain, curvature); violated: the two integrators use different laws, and a Parallel law containing such a law raises TypeError; for a law written by a user with the usual ultimate strain 100 in tension, a tension branch shorter than 1/9999 is lost (C65_tension_violated; longer ones: C65_tension)."
 ],
 "C68": [
  "proved",
  "Fibre integrator, any constitutive laws that are Lipschitz with the given slope bound; the Marin integrator is not covered here (C50 gives its forces)."
 ],
 "C69": [
  "proved",
  "offset_curve is a parameter with the contract Rounds (proved for sharp corners, every monotone line inside the corner and arcs of any number of chords); grid rounding is the identity."
 ],
 "C70": [
  "partial",
  "Marin integrator, given curvatures (zero included: C70_zero_partial) and default ones. Partial: a search that meets n exactly on its way (countably many n) or that is driven away by a failing material ends out of balance (violations: C23_fixed_curvature_violated, C23_no_bracket_violated)."
 ],
 "C71": [
  "partial",
  "C71_limits and C71_returns are complete. Strength: admissibility needs the governing strains to respect the limits of all materials (C51's violation otherwise), equilibrium for all but countably many loads; after earlier calculations the result is only that of the requested mesh if mesh_size is the default (C27's violation). Diagram: as C70, default mesh size; the mesh error bound applies in planes within the limit strains."
 ],
 "C72": [
  "partial",
  "The strength part (C72_strength, C72_reinforced_concrete, C72_symmetric) is complete for sections integrated exactly. Partial because the limit axial loads are invariant under shift and mirroring only: turning a section with two steels changes them (C72_limits_violated), so acceptance of n by both sections is a hypothesis. C72_domain_partial: the N-M domain for normal strength parabola-rectangle concrete and bars of one perfectly plastic steel (any motion, complete or half domain); example: the beam turned by any angle. C72_nmm_partial: the N-My-Mz domain of such a section shifted without rotation (bending about every computed angle); example: the beam shifted by (1000, 2000)."
 ],
 "C73": [
  "partial",
  "From the arguments of the constructors and the geometry alone. Missing: loads within 1e-13 times axial rigidity times depth of a limit load (about 1e-3 N for a beam), and the tolerance of 1e-2 for a countable set of loads; that the tolerance fails there is C73_violated: in every such section a load well inside the limits is answered, without error, by a state that carries the squash load (the bisection drops a midpoint in exact equilibrium)."
 ],
 "C74": [
  "partial",
  "C74_strength itself is complete for the sections of C73. Partial: the version at a given load (C74_load_partial, C74_design_partial) for the loads of C73; the diagram for axial forces outside the countable set of C70; the domain (C74_domain_partial, C74_design_domain_partial) for sections for which C67 is proved, one direction of bending (complete_domain = False)."
 ],
 "C75": [
  "partial",
  "C75_strength, C75_limits, C75_largest and C75_profile are complete for the sections described (surfaces only, Marin integrator, common limit strain). Partial: in C75_loads_partial the result exists for every load below the squash load, but that its axial force is within 1e-2 of the load is proved outside a countable set of loads (where the bisection meets a force exactly) or when the balanced plane already carries the load."
 ],
 "C76": [
  "partial",
  "C76_violated: for every ordinary section with one hardening steel whose lowest bar carries a jump of more than 2e-2 there is a load between the limit loads for which the calculation raises (the example shows it for every class of concrete and steel with B500). C76_strength_partial, C76_gaps and C76_design_partial: what holds otherwise, with a bound on the total length of the loads without a result. Missing: loads within 1e-13 times axial rigidity times depth of a limit load."
 ],
 "C77": [
  "partial",
  "Closed form with error bounds from the arguments of the constructors. Missing: the countable set of loads inherited from C73, and sections for which the axial rigidity times the depth times 1e-12 exceeds the smallest compression force of the range (far beyond sizes in mm and N)."
 ],
 "C78": [
  "partial",
  "The property is false of the code: C78_end_violated and C78_repeats_violated quantify over all rectangular beams of C77; C78_beam_violated and C78_rupture_violated are complete runs of two beams. What does hold (points in equilibrium and within the limit strains, all sections of C73) is C78_end_partial."
 ],
 "C79": [
  "partial",
  "C79_strength (two results, any axial forces) is complete for the sections of C73 with tension in the lowest layer. Partial: C79_design_partial adds that both results exist and have the given load, for the loads of C73 (all but countably many, and a margin of 1e-13 of the rigidity)."
 ],
 "C80": [
  "partial",
  "Margin at the limit loads and countable set of loads as in C73; histories of calls before the strength only for the default mesh size.  The constant is a worst case bound: it proves convergence, not a sharp error for a given mesh."
 ],
 "C81": [
  "partial",
  "C81_load (any two results, moments about the lowest and highest point ordered by the axial forces actually reached) is complete for the sections of C73. Partial: C81_design_partial adds that both results exist and have the given loads, for the loads of C73 (all but countably many, and a margin of 1e-13 of the rigidity)."
 ],
 "C82": [
  "partial",
  "C82_strength (two results, any axial forces) is complete for the sections of C73 with one layer of bars in tension in both results. Partial: C82_design_partial adds that both results exist, have the given load and tension in the bars, for the loads of C73 (all but countably many, and a margin of 1e-13 of the rigidity). With compression reinforcement the claim would be false, so it is limited to one layer."
 ],
 "C83": [
  "partial",
  "Meaning, reflexivity and monotonicity proved; symmetry only up to the factor 1/(1 - rtol) in the tolerances. Violated: symmetry with equal tolerances, independence of the units (absolute tolerance 1e-8), and other objects, for which the answer is NotImplemented, which counts as true. Values are reals (no nan)."
 ],
 "C84": [
  "partial",
  "From constructor arguments (C84_design_partial) or any law parameters (C84_strength_partial). Missing: loads within 1e-13 of the rigidity of a limit load, and equilibrium for a countable set of loads, as in C73. The error is a worst case bound, a tenth of the largest stress step of the diagram."
 ],
 "C85": [
  "partial",
  "From constructor arguments (C85_design_partial) or any law parameters (C85_strength_partial). Missing: loads within 1e-13 of the rigidity of a limit load, and equilibrium for a countable set of loads, as in C73. EC2 2023 concrete has no such law."
 ],
 "C86": [
  "partial",
  "C86_sargin_partial / C86_popovics_partial for any parameters; from constructor arguments for all three codes with default values (C86_codes_design_partial: EC2 2004 to C90, Model Code to C120, EC2 2023 to C100; the values are restated from the standards' tables in Spec/Design). C86_accepts_codes: accepted exactly for consistent arguments; C86_refused_mc2010. C86_limit_violated: calculate_limit_axial_load takes the force at the ultimate strain, where the concrete has softened, so a load the section carries at the peak strain is refused. Missing: that the returned state has the largest moment (false for softening laws), loads within 1e-13 of the rigidity of a limit load, and equilibrium for a countable set of loads."
 ],
 "C87": [
  "partial",
  "Every axial force and curvature, zero included. Partial: the two remaining cases of DiagramPoint.balance: a search driven away by a failing material, and a search that meets the force exactly on its way, shown not to happen in a broken state when bars and concrete are Tied, and for default curvatures only for countably many forces."
 ],
 "C88": [
  "partial",
  "Bilinear law exactly, pieces laws up to the stated error, from the constructors: C88_bilinear_design_partial up to 90 MPa, C88_sargin_codes_design_partial C12 to C80 in all three codes, C88_high_strength_design_partial (parabola-rectangle above C50 up to 89 MPa). The last sentence is false: C88_limit_violated gives a beam with Sargin's law whose domain ends a meganewton beyond the limit axial load, where the strength is refused. Partial: bars of one steel with rupture strain from the crushing strain to 0.09, the lowest bar not exactly at the pivot of the compressive strains, Marin integrator."
 ],
 "C89": [
  "partial",
  "Tendons: C89_accepts, C89_tendon in full. Sections from the constructors: C89_design_partial (parabola-rectangle up to C50, with the maximality of the moment), C89_high_design_partial (above C50 to C89), C89_bilinear_design_partial, C89_sargin_design_partial (the last two as C85 and C86: the Sargin answer is compared with its design diagram up to the stated error, and has no maximality because the law softens). Partial: all bars of one steel; the load is met for all loads but a countable set, answers are shown inside the range by 1e-13 of the rigidity; tendons keep at least 0.0001 of elongation and at most 0.09, and reach the crushing strain; Marin integrator."
 ],
 "C90": [
  "partial",
  "C90_marin, C90_gross, C90_limits in full; C90_strength in full (any two answers: moments scaled up to the farthest distance times the difference of the axial forces of the answers). C90_load_partial and C90_design_partial (material constructors, unchanged materials): both calculations answer with that accuracy for all loads between the limits but a countable set and the margin next to the limits inherited from C73. Ordinary reinforced concrete (parabola-rectangle law up to C50, steel of one limit strain), the depth of both sections between 1e-3 and 1e9. `shapely` is assumed to cut both the section and the scaled section correctly. Principal axes of the gross properties are not covered (eigenvalue routine external). Example: the C30 beam at twice the size has eight times the strength. C90_domain_partial, C90_nmm_partial: the points of the N-M and N-My-Mz domains scale exactly (no tolerance), for any scaling of lengths and stresses, for normal strength parabola-rectangle concrete and bars of one perfectly plastic steel; example: 68 points of the beam of twice the size."
 ],
 "C91": [
  "partial",
  "C91_points in full (any laws, any profiles: one point per profile, error of C57). C91_design_partial, C91_nmm_partial: normal strength parabola-rectangle concrete and bars of one perfectly plastic steel, existence of the domain included; a call history before the domain only for the default mesh size (the mesh is kept between calls). calculate_nmm always uses the default mesh size, which is what is proved. Example: 68 points of the beam, for every mesh of squares. C91_mm_partial: the My-Mz domain under the hypotheses of C80_strength_partial, default mesh size; example: pure bending of the beam in two directions."
 ],
 "C92": [
  "partial",
  "C92_meshes, C92_load, C92_bars, C92_concrete and C92_tension hold for every two results of the fibre integrator for an ordinary section (MeshedBeam), without an assumption on the meshes beyond the requested area and angle. C92_design_partial adds that the sections of the three codes with normal strength concrete are such sections and that results exist; the latter is limited, as in C73, to loads between the limit loads less a margin and outside a countable set, where calculate_bending_strength really may raise."
 ],
 "C93": [
  "partial",
  "C93_moved and C93_scaled hold for every two results of the fibre integrator for an ordinary section (MeshedBeam) and the moved or scaled one. C93_design_partial adds, for motions, that both results exist for the loads of C73 (all but countably many, less a margin at the limit loads). C93_domain_partial: the N-M domain (existence included) under the hypotheses of C91_design_partial. Examples: the beam shifted by (1000, 2000), for every mesh of squares, strengths and 68 points of the domain. C93_scaled_design_partial: the same for the section with all lengths scaled, under the scaled load. Example: the beam and the beam of twice the size, for every mesh of squares. Turned sections need a bar below a corner also in the new upright position, because the limit loads are found there."
 ]
}