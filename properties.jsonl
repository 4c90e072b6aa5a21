{"id": "C01", "title": "marin_integration is the exact area moment", "statement": "For every closed vertex list and all degrees m, n, marin_integration(y, z, m, n) equals the signed integral of y^m z^n over the polygon (the sum over edges of the oriented integral over the triangle spanned with the origin; equivalently the Green boundary integral).", "quantifier": "all vertex lists of any length, all real coordinates, all natural degrees m and n", "why_tests_cant": "The vertex count, the coordinates and both degrees are unbounded; tests sample a few shapes and degrees.", "anchors": ["structuralcodes/core/_marin_integration.py:marin_integration", "structuralcodes/core/_marin_integration.py:_coeff"]}
{"id": "C02", "title": "marin_integration only depends on the oriented polygon", "statement": "Reversing the vertex order negates marin_integration and starting the closed vertex list at another vertex leaves it unchanged.", "quantifier": "all closed vertex lists and all m, n", "why_tests_cant": "needs every polygon and every starting vertex", "anchors": ["structuralcodes/core/_marin_integration.py:marin_integration"]}
{"id": "C03", "title": "marin_integration is additive under cutting", "statement": "If a closed polygon is cut along a chord into two closed polygons, the two results sum to the result of the whole, for every moment order.", "quantifier": "all polygons, all chords, all m, n", "why_tests_cant": "every cut of every polygon; the section integrators rely on it when they split the section at strain limits", "anchors": ["structuralcodes/core/_marin_integration.py:marin_integration", "structuralcodes/sections/section_integrators/_marin_integrator.py:MarinIntegrator._process_surface_geometries"]}
{"id": "C04", "title": "Exact area, first and second moments of rectangles", "statement": "For a RectangularGeometry of any size and origin, marin_integration of its vertex list returns exactly the area b*h, the first moments A*x0, A*y0, and the second moments b*h^3/12 + A*y0^2, h*b^3/12 + A*x0^2, A*x0*y0.", "quantifier": "all positive widths and heights and all origins", "why_tests_cant": "infinitely many rectangles", "anchors": ["structuralcodes/geometry/_rectangular.py:RectangularGeometry", "structuralcodes/core/_marin_integration.py:marin_integration"]}
{"id": "C05", "title": "Scalar and array get_stress agree", "statement": "For each constitutive law, get_stress on an array returns, entry by entry, what get_stress returns on that entry as a scalar.", "quantifier": "all laws, all valid parameters, all arrays of any length", "why_tests_cant": "two separately written code paths must agree on every strain, including every branch boundary", "anchors": ["structuralcodes/materials/constitutive_laws/_elasticplastic.py:ElasticPlastic.get_stress", "structuralcodes/materials/constitutive_laws/_parabolarectangle.py:ParabolaRectangle.get_stress", "structuralcodes/materials/constitutive_laws/_bilinearcompression.py:BilinearCompression.get_stress", "structuralcodes/materials/constitutive_laws/_sargin.py:Sargin.get_stress", "structuralcodes/core/base.py:ConstitutiveLaw.preprocess_strains_with_limits"]}
{"id": "C06", "title": "Scalar and array get_tangent agree", "statement": "For each constitutive law, get_tangent on an array returns, entry by entry, what get_tangent returns on that entry as a scalar.", "quantifier": "all laws, all valid parameters, all arrays of any length", "why_tests_cant": "two separately written code paths must agree at every strain, and disagreements hide at single boundary points", "anchors": ["structuralcodes/materials/constitutive_laws/_bilinearcompression.py:BilinearCompression.get_tangent", "structuralcodes/materials/constitutive_laws/_parabolarectangle.py:ParabolaRectangle.get_tangent", "structuralcodes/materials/constitutive_laws/_elasticplastic.py:ElasticPlastic.get_tangent"]}
{"id": "C07", "title": "Evaluating a law does not modify the caller's strains", "statement": "Calling get_stress with a numpy array of strains leaves the caller's array unchanged.", "quantifier": "all laws, all arrays", "why_tests_cant": "a write happens only for strains within a tolerance band of the ultimate strain; a test has to hit the band and look at its own input", "anchors": ["structuralcodes/core/base.py:ConstitutiveLaw.preprocess_strains_with_limits"]}
{"id": "C08", "title": "Concrete laws are compression-only and never exceed their strength", "statement": "For ParabolaRectangle, BilinearCompression, Sargin and Popovics with any admissible parameters the returned stress is 0 for positive strains, 0 for strains clearly below the ultimate strain, and otherwise between the compressive strength -|fc| and 0.", "quantifier": "all admissible parameters, all strains", "why_tests_cant": "a bound over a continuum of parameters and strains", "anchors": ["structuralcodes/materials/constitutive_laws/_parabolarectangle.py:ParabolaRectangle.get_stress", "structuralcodes/materials/constitutive_laws/_bilinearcompression.py:BilinearCompression.get_stress", "structuralcodes/materials/constitutive_laws/_sargin.py:Sargin.get_stress", "structuralcodes/materials/constitutive_laws/_popovics.py:Popovics.get_stress"]}
{"id": "C09", "title": "Concrete laws reach exactly their strength at the peak strain", "statement": "At the peak strain each concrete law returns exactly -|fc|, whatever signs the parameters were given with, and at zero strain it returns 0.", "quantifier": "all admissible parameters", "why_tests_cant": "a continuum of parameters", "anchors": ["structuralcodes/materials/constitutive_laws/_parabolarectangle.py:ParabolaRectangle", "structuralcodes/materials/constitutive_laws/_bilinearcompression.py:BilinearCompression", "structuralcodes/materials/constitutive_laws/_sargin.py:Sargin", "structuralcodes/materials/constitutive_laws/_popovics.py:Popovics"]}
{"id": "C10", "title": "get_tangent is the derivative of get_stress", "statement": "In the interior of every branch of every law (away from the tolerance band at the ultimate strain), get_tangent is the derivative of get_stress.", "quantifier": "all laws, all admissible parameters, all interior strains", "why_tests_cant": "derivative at every point of a continuum; finite differences only approximate a few points", "anchors": ["structuralcodes/materials/constitutive_laws/_sargin.py:Sargin.get_tangent", "structuralcodes/materials/constitutive_laws/_popovics.py:Popovics.get_tangent", "structuralcodes/materials/constitutive_laws/_parabolarectangle.py:ParabolaRectangle.get_tangent", "structuralcodes/materials/constitutive_laws/_elasticplastic.py:ElasticPlastic.get_tangent", "structuralcodes/materials/constitutive_laws/_userdefined.py:UserDefined.get_tangent"]}
{"id": "C11", "title": "ElasticPlastic is an odd, monotone, bounded bilinear law", "statement": "ElasticPlastic.get_stress is odd in the strain, non-decreasing up to the ultimate strain for a non-negative hardening modulus, continuous at yield, within [-fy - Eh*(eps_su - eps_sy), fy + ...], and 0 clearly beyond the ultimate strain.", "quantifier": "all E > 0, fy >= 0, Eh, eps_su and all strains", "why_tests_cant": "universally quantified order statement", "anchors": ["structuralcodes/materials/constitutive_laws/_elasticplastic.py:ElasticPlastic.get_stress"]}
{"id": "C12", "title": "Secant modulus reproduces the stress", "statement": "For every law get_secant(eps) * eps = get_stress(eps) at every non-zero strain, get_secant(0) = get_tangent(0), and the array version agrees with the scalar version entry by entry.", "quantifier": "all laws, all strains and arrays", "why_tests_cant": "holds for every law including user supplied ones", "anchors": ["structuralcodes/core/base.py:ConstitutiveLaw.get_secant"]}
{"id": "C13", "title": "Marin polynomial pieces reproduce the stress", "statement": "For each law providing __marin__, any strain profile eps = e0 + e1*y, and any y whose strain lies in a returned strain range (outside the tolerance band), the returned polynomial at y equals get_stress at that strain; ranges tile the law's non-zero support.", "quantifier": "all laws, all profiles, all points", "why_tests_cant": "the integrator depends on it at every fibre of every profile", "anchors": ["structuralcodes/materials/constitutive_laws/_parabolarectangle.py:ParabolaRectangle.__marin__", "structuralcodes/materials/constitutive_laws/_elasticplastic.py:ElasticPlastic.__marin__", "structuralcodes/materials/constitutive_laws/_bilinearcompression.py:BilinearCompression.__marin__", "structuralcodes/materials/constitutive_laws/_userdefined.py:UserDefined.__marin__", "structuralcodes/materials/constitutive_laws/_elastic.py:Elastic.__marin__"]}
{"id": "C14", "title": "InitialStrain shifts the wrapped law", "statement": "With strain compatibility InitialStrain returns the wrapped stress/tangent/limits/Marin data at eps + initial_strain; without strain compatibility its stress is the constant initial stress on every evaluation path, including the Marin one.", "quantifier": "all wrapped laws, initial strains, strains", "why_tests_cant": "must hold for every wrapped law, also user supplied ones", "anchors": ["structuralcodes/materials/constitutive_laws/_initial_strain.py:InitialStrain"]}
{"id": "C15", "title": "A material created with an initial stress carries that stress", "statement": "If constructing a material with initial_stress succeeds, then the law's stress at the computed initial strain is within 1e-12 of the request and the wrapped law at zero strain returns it; supplying both initial_strain and initial_stress always raises ValueError; the Newton loop always stops within 100 steps.", "quantifier": "all laws, all requested stresses", "why_tests_cant": "an iteration with data-dependent exits over an arbitrary law", "anchors": ["structuralcodes/core/base.py:Material._initial_strain_from_stress", "structuralcodes/core/base.py:Material._apply_initial_strain"]}
{"id": "C16", "title": "Parallel laws add up", "statement": "Parallel.get_stress/get_tangent is the weighted sum of the components, and at every strain strictly inside a combined Marin range the combined polynomial is the weighted sum of the component polynomials valid there.", "quantifier": "all lists of laws and weights of any length, all strains", "why_tests_cant": "interval merging over unboundedly many components and breakpoints", "anchors": ["structuralcodes/materials/constitutive_laws/_parallel.py:Parallel._split_marin", "structuralcodes/materials/constitutive_laws/_parallel.py:Parallel.get_stress"]}
{"id": "C17", "title": "UserDefined interpolates its data", "statement": "UserDefined.get_stress returns the given stress at each given strain, is linear in between, stays within the data range, is zero outside, and when only non-negative strains are supplied it is an odd function; flag 1/2/3 extends with constant/tangent/secant slope.", "quantifier": "all strictly increasing data lists of any length, all strains", "why_tests_cant": "unbounded data length", "anchors": ["structuralcodes/materials/constitutive_laws/_userdefined.py:UserDefined"]}
{"id": "C18", "title": "Fiber integration is equilibrium of the fibres", "statement": "Fiber stress resultants are (sum F, sum F z, -sum F y), independent of the order and grouping of fibres, additive over sub-sections; the stiffness matrix is symmetric, and positive semidefinite when all tangents are non-negative.", "quantifier": "all fibre lists, all strain planes, all laws", "why_tests_cant": "unbounded fibre count", "anchors": ["structuralcodes/sections/section_integrators/_fiber_integrator.py:FiberIntegrator.integrate_stress", "structuralcodes/sections/section_integrators/_fiber_integrator.py:FiberIntegrator.integrate_modulus"]}
{"id": "C19", "title": "Section stiffness is the Jacobian of the stress resultants", "statement": "At any strain plane where every fibre's law has get_tangent as its derivative, the stiffness matrix returned for integrate='modulus' is the Jacobian of the (N, My, Mz) returned for integrate='stress'.", "quantifier": "all fibre sections, all strain planes", "why_tests_cant": "derivative statement over all planes", "anchors": ["structuralcodes/sections/section_integrators/_fiber_integrator.py:FiberIntegrator"]}
{"id": "C20", "title": "Marin and fiber integrators agree on point reinforcement", "statement": "For any set of bars and any biaxial strain plane, the Marin integrator's rotate-integrate-rotate-back computation returns the same N, My, Mz and stiffness as the direct sum used by the fiber integrator, and hands back the bar data unrotated.", "quantifier": "all bar lists, all strain planes (also zero curvature)", "why_tests_cant": "every angle and every bar list", "anchors": ["structuralcodes/sections/section_integrators/_marin_integrator.py:MarinIntegrator"]}
{"id": "C21", "title": "Marin integration of an elastic section is exact for any polygon", "statement": "For a linear elastic surface the Marin integrator returns N, My, Mz equal to the exact moments E*(e0*A + ...) of the polygon for every biaxial strain plane; the stiffness matrix is E times the matrix of area moments.", "quantifier": "all polygons, all strain planes", "why_tests_cant": "all polygons and angles", "anchors": ["structuralcodes/sections/section_integrators/_marin_integrator.py:MarinIntegrator.integrate_stress", "structuralcodes/sections/section_integrators/_marin_integrator.py:MarinIntegrator.integrate_modulus"]}
{"id": "C22", "title": "Balanced failure is admissible and tight", "statement": "get_balanced_failure_strain returns a plane that exactly reaches a positive limit at y_p and a negative limit at y_n of some materials and exceeds no material's ultimate strain anywhere in the section.", "quantifier": "all lists of geometries with any positions and limits", "why_tests_cant": "min over all pairs of an unbounded list", "anchors": ["structuralcodes/sections/_generic.py:GenericSectionCalculator.get_balanced_failure_strain"]}
{"id": "C23", "title": "find_equilibrium_fixed_curvature returns an equilibrium", "statement": "If find_equilibrium_fixed_curvature returns, the internal axial force of the returned plane balances n within 1e-2, whatever the section response.", "quantifier": "all section responses, n, curvatures, starting strains", "why_tests_cant": "the iterates depend on an arbitrary nonlinear response; failure needs a midpoint hit exactly or 20 restarts", "anchors": ["structuralcodes/sections/_generic.py:GenericSectionCalculator.find_equilibrium_fixed_curvature", "structuralcodes/sections/_generic.py:GenericSectionCalculator._prefind_range_curvature_equilibrium"]}
{"id": "C24", "title": "find_equilibrium_fixed_pivot returns an equilibrium", "statement": "If find_equilibrium_fixed_pivot returns, the internal axial force of the returned plane balances n within 1e-2 and the plane keeps a pivot fibre at its limit strain.", "quantifier": "all section responses, n", "why_tests_cant": "arbitrary nonlinear response", "anchors": ["structuralcodes/sections/_generic.py:GenericSectionCalculator.find_equilibrium_fixed_pivot"]}
{"id": "C25", "title": "Equilibrium searches always stop", "statement": "The bracketing search and both bisections stop after a bounded number of section integrations (prefind at most 20*20 trial planes, bisection at most 100) for every response, either returning or raising.", "quantifier": "all responses", "why_tests_cant": "termination for every response function", "anchors": ["structuralcodes/sections/_generic.py:GenericSectionCalculator._prefind_range_curvature_equilibrium", "structuralcodes/sections/_generic.py:GenericSectionCalculator.find_equilibrium_fixed_curvature", "structuralcodes/sections/_generic.py:GenericSectionCalculator.find_equilibrium_fixed_pivot"]}
{"id": "C26", "title": "calculate_strain_profile: convergence contract", "statement": "If calculate_strain_profile returns, the last Newton increment is below tol and at most max_iter - 1 updates were used, otherwise it raises; for a linear elastic section with invertible stiffness it returns exactly the plane whose resultants equal the loads.", "quantifier": "all sections, loads, max_iter, tol", "why_tests_cant": "arbitrary iteration history", "anchors": ["structuralcodes/sections/_generic.py:GenericSectionCalculator.calculate_strain_profile"]}
{"id": "C27", "title": "Calculator results do not depend on the history of calls", "statement": "The fibre data cached by a section calculator is restored by every public calculation, so any sequence of calls (also ones that raised) gives the same results as a fresh calculator.", "quantifier": "all finite sequences of public calls, including failing ones, at all angles", "why_tests_cant": "all histories and all crash points", "anchors": ["structuralcodes/sections/_generic.py:GenericSectionCalculator.calculate_bending_strength", "structuralcodes/sections/_generic.py:GenericSectionCalculator.calculate_moment_curvature", "structuralcodes/sections/_generic.py:GenericSectionCalculator._rotate_integration_data"]}
{"id": "C28", "title": "Axial load limits gate the strength calculations", "statement": "calculate_bending_strength and calculate_moment_curvature raise ValueError exactly when n lies outside [n_min, n_max] before touching any state; n_min and n_max are computed at most once and never change afterwards.", "quantifier": "all loads and all call histories", "why_tests_cant": "caching across histories", "anchors": ["structuralcodes/sections/_generic.py:GenericSectionCalculator.check_axial_load", "structuralcodes/sections/_generic.py:GenericSectionCalculator.n_min", "structuralcodes/sections/_generic.py:GenericSectionCalculator.n_max"]}
{"id": "C29", "title": "Global design code state", "statement": "set_design_code followed by any operations that do not set the code keeps it; invalid names raise and leave it unchanged; creating a material with an explicit design_code affects only that instance, as documented.", "quantifier": "all operation histories", "why_tests_cant": "history property of global state", "anchors": ["structuralcodes/codes/__init__.py:set_design_code", "structuralcodes/codes/__init__.py:_use_design_code", "structuralcodes/materials/concrete/__init__.py:create_concrete", "structuralcodes/materials/reinforcement/__init__.py:create_reinforcement"]}
{"id": "C30", "title": "Constitutive law factory dispatch", "statement": "create_constitutive_law succeeds for exactly the names (in any letter case) that are registered and supported by the material, and raises ValueError for every other string.", "quantifier": "all strings and all materials", "why_tests_cant": "all strings", "anchors": ["structuralcodes/materials/constitutive_laws/__init__.py:create_constitutive_law"]}
{"id": "C31", "title": "Integrator factory is history independent", "statement": "integrator_factory(name) returns the same integrator class for the same name in any letter case after any history of calls; unknown names always give the Marin integrator.", "quantifier": "all call histories and strings", "why_tests_cant": "history property of a mutable registry", "anchors": ["structuralcodes/sections/section_integrators/_factory.py:IntegratorFactory.__call__"]}
{"id": "C32", "title": "add_reinforcement_line places the requested bars", "statement": "For valid n and/or s the bars lie on the segment, are equally spaced by s, symmetric about its midpoint, and their number is n (or floor(d/s)+1) minus the skipped end bars; invalid requests raise before anything is added.", "quantifier": "all end points, n, s, first/last flags", "why_tests_cant": "unbounded bar counts", "anchors": ["structuralcodes/geometry/_reinforcement.py:add_reinforcement_line"]}
{"id": "C33", "title": "add_reinforcement_circle places the requested bars", "statement": "For valid n and/or s the bars lie on the circle, at equal angles, no two coincide when the whole circle is requested, and their number is the requested one minus skipped end bars.", "quantifier": "all centres, radii, n, s, angles", "why_tests_cant": "unbounded bar counts", "anchors": ["structuralcodes/geometry/_reinforcement.py:add_reinforcement_circle"]}
{"id": "C34", "title": "Compound geometries flatten and add up", "statement": "Adding geometries in any nesting yields the compound with exactly the same surfaces and bars in order; + is associative up to content; area and extents are those of the parts.", "quantifier": "all finite nestings", "why_tests_cant": "unbounded nesting", "anchors": ["structuralcodes/geometry/_geometry.py:CompoundGeometry", "structuralcodes/geometry/_geometry.py:_process_geometries_list", "structuralcodes/geometry/_geometry.py:Geometry.__add__"]}
{"id": "C35", "title": "Rigid motions of geometries", "statement": "translate/rotate compose additively and are undone by the opposite motion; mirror about any axis is an involutive isometry fixing the axis; all of them preserve area, materials, diameters and the concrete flag.", "quantifier": "all geometries, motions and axes", "why_tests_cant": "a continuum of motions", "anchors": ["structuralcodes/geometry/_geometry.py:PointGeometry.rotate", "structuralcodes/geometry/_geometry.py:SurfaceGeometry.mirror", "structuralcodes/geometry/_geometry.py:_mirror_about_axis_matrix"]}
{"id": "C36", "title": "Splitting lines span the section", "statement": "create_line_point_angle returns a line through the given point (in direction theta) that extends beyond the bounding box, for every angle.", "quantifier": "all points, angles and boxes", "why_tests_cant": "all angles including near vertical", "anchors": ["structuralcodes/geometry/_geometry.py:create_line_point_angle"]}
{"id": "C37", "title": "Concrete flag survives geometry operations", "statement": "A compound containing a concrete-flagged surface reports reinforced_concrete = True whichever way it is built (list, MultiPolygon) or derived (translate, rotate, mirror, subtraction).", "quantifier": "all geometries and derivations", "why_tests_cant": "all operation sequences", "anchors": ["structuralcodes/geometry/_geometry.py:CompoundGeometry.reinforced_concrete", "structuralcodes/geometry/_geometry.py:SurfaceGeometry.__sub__"]}
{"id": "C38", "title": "Ultimate strain profiles respect the failure limits", "statement": "Every strain profile generated for the N-M interaction domain keeps the extreme fibres between the negative limit and the positive limit of the balanced failure, and the number of profiles equals the sum of the requested numbers, with field labels 1..6 in order.", "quantifier": "all sections, all counts and spacing types", "why_tests_cant": "unbounded counts and a continuum of sections", "anchors": ["structuralcodes/sections/_generic.py:GenericSectionCalculator._compute_ultimate_strain_profiles", "structuralcodes/sections/_generic.py:GenericSectionCalculator._process_num_strain_profiles"]}
{"id": "C39", "title": "Moment-curvature grid", "statement": "The default curvature grid has num_pre_yield + num_post_yield points (or num_pre_yield when there is no plastic branch), is monotone from chi_first, contains the yield curvature at the num_pre_yield-th point and ends at the ultimate curvature.", "quantifier": "all curvatures and counts", "why_tests_cant": "unbounded counts", "anchors": ["structuralcodes/sections/_generic.py:GenericSectionCalculator.calculate_moment_curvature"]}
{"id": "C40", "title": "EC2 2004 concrete properties are consistent", "statement": "For every fck the EC2 2004 functions return positive values that vary monotonically with fck as in Table 3.1, satisfy eps_c <= eps_cu, fctk_5 <= fctm <= fctk_95, fcm > fck, do not depend on the sign of the input, and have no jump at fck = 50.", "quantifier": "all strengths (12..90 where the code limits it)", "why_tests_cant": "a continuum of strengths", "anchors": ["structuralcodes/codes/ec2_2004/_concrete_material_properties.py"]}
{"id": "C41", "title": "EC2 2004 creep and shrinkage time functions", "statement": "beta_ds, beta_as, beta_c lie in [0,1), are 0 before the starting age, and are non-decreasing in time; k_h is non-increasing within [0.7,1]; scalar and array inputs agree; unknown cement classes raise.", "quantifier": "all times, sizes, humidities", "why_tests_cant": "a continuum of times", "anchors": ["structuralcodes/codes/ec2_2004/_concrete_creep_and_shrinkage.py"]}
{"id": "C42", "title": "EC2 2004 shear resistance", "statement": "VRdc is non-negative, at least the minimum resistance and monotone in fck, Asl, NEd; alpha_cw is continuous, between 0 and 1.25, and raises exactly when the prestress reaches fcd; VRds(Asw_s_required(V)) = V; VRdmax is largest at 45 degrees; angles outside the cotangent limits raise.", "quantifier": "all admissible inputs", "why_tests_cant": "a continuum of inputs", "anchors": ["structuralcodes/codes/ec2_2004/shear.py"]}
{"id": "C43", "title": "EC2 2004 crack control", "statement": "Crack width functions return non-negative values, respect the code's lower bounds, interpolate the tables between their entries and raise on invalid input.", "quantifier": "all admissible inputs", "why_tests_cant": "a continuum of inputs", "anchors": ["structuralcodes/codes/ec2_2004/_section_7_3_crack_control.py"]}
{"id": "C44", "title": "EC2 2023 material functions", "statement": "The EC2 2023 section 5 functions are total on admissible input with the stated error behaviour, bounded and monotone (eta_cc <= 1, fcd <= fck/gamma_c, k_tc in {0.85,1}), and continuous where the code changes formula.", "quantifier": "all admissible inputs", "why_tests_cant": "a continuum of inputs", "anchors": ["structuralcodes/codes/ec2_2023/_section5_materials.py", "structuralcodes/codes/ec2_2023/_section9_sls.py"]}
{"id": "C45", "title": "MC2010 material and time functions", "statement": "MC2010 material functions are positive, monotone and consistent (fctkmin <= fctm <= fctkmax, fcm > fck), and creep/shrinkage development functions are within [0,1] and monotone.", "quantifier": "all admissible inputs", "why_tests_cant": "a continuum of inputs", "anchors": ["structuralcodes/codes/mc2010/_concrete_material_properties.py", "structuralcodes/codes/mc2010/_concrete_creep_and_shrinkage.py"]}
{"id": "C46", "title": "MC2010 resistance models", "statement": "MC2010 shear, torsion, punching, interface and bond functions return non-negative resistances bounded by the crushing limits, and dispatch exactly on the documented approximation levels.", "quantifier": "all admissible inputs", "why_tests_cant": "a continuum of inputs", "anchors": ["structuralcodes/codes/mc2010/_concrete_shear.py", "structuralcodes/codes/mc2010/_concrete_punching.py", "structuralcodes/codes/mc2010/_concrete_torsion.py", "structuralcodes/codes/mc2010/_interface_concrete_steel_rebar.py"]}
{"id": "C47", "title": "Material factories honour user overrides and reject inconsistent input", "statement": "Every property given to a concrete constructor is returned as its absolute value, others are derived; fcm <= fck, negative k_sargin or n raise; the created law uses exactly these values; existing=True is rejected.", "quantifier": "all override combinations", "why_tests_cant": "combinatorial in the optional arguments", "anchors": ["structuralcodes/materials/concrete/_concreteEC2_2004.py", "structuralcodes/materials/concrete/_concreteMC2010.py", "structuralcodes/materials/concrete/_concreteEC2_2023.py"]}
{"id": "C48", "title": "Design reinforcement law passes through its design points", "statement": "The elasticplastic law created from a reinforcement reaches exactly fyd at the design yield strain and ftd at the design ultimate strain, and is zero beyond.", "quantifier": "all admissible steels", "why_tests_cant": "a continuum of parameters", "anchors": ["structuralcodes/materials/reinforcement/_reinforcementEC2_2004.py", "structuralcodes/materials/reinforcement/_reinforcementMC2010.py", "structuralcodes/materials/reinforcement/_reinforcementEC2_2023.py"]}
{"id": "C49", "title": "Fiber integrator mesh accuracy", "statement": "For a linear elastic surface the fiber integrator gives the exact axial force for a uniform strain and exact static moments on any triangulation of the section, never overestimates a bending stiffness E*I about any axis, and the error is exactly the own-inertia of the triangles; an explicitly non-positive or >1 mesh_size raises; passing the returned triangulation back gives the same result as triangulating again.", "quantifier": "all triangulations (any number and shape of triangles), all strain planes, all mesh sizes", "why_tests_cant": "all triangulations, of any size", "anchors": ["structuralcodes/sections/section_integrators/_fiber_integrator.py:FiberIntegrator.prepare_triangulation", "structuralcodes/sections/section_integrators/_fiber_integrator.py:FiberIntegrator.triangulate", "structuralcodes/sections/section_integrators/_fiber_integrator.py:FiberIntegrator.prepare_input"]}
{"id": "C50", "title": "Marin integration is exact for every library law", "statement": "For surfaces with holes whose law is piecewise polynomial in the strain (parabola-rectangle with n=2, bilinear, elastic-plastic, user defined), and point reinforcement, the Marin integrator returns exactly N = int sigma dA, My = int sigma z dA, Mz = -int sigma y dA and the exact tangent stiffness, for every biaxial strain plane with a curvature, provided the polygon clipper is exact.", "quantifier": "all polygons with holes, all strain planes, all laws whose pieces match", "why_tests_cant": "a continuum of sections and strain planes", "anchors": ["structuralcodes/sections/section_integrators/_marin_integrator.py:MarinIntegrator.prepare_input", "structuralcodes/sections/section_integrators/_marin_integrator.py:MarinIntegrator.integrate_stress", "structuralcodes/sections/section_integrators/_marin_integrator.py:MarinIntegrator.integrate_modulus", "structuralcodes/sections/section_integrators/_marin_integrator.py:MarinIntegrator._process_surface_geometries"]}
{"id": "C51", "title": "The failure plane of the strength calculation exceeds no limit strain", "statement": "The strain plane returned by find_equilibrium_fixed_pivot (used for the bending strength) exceeds no ultimate strain of any surface or bar of the section.", "quantifier": "all sections (lists of surfaces and bars with their limit strains), all axial loads, all section responses", "why_tests_cant": "It is a universally quantified inequality over all combinations of materials, positions and responses; tests only use ordinary reinforced sections, where the governing bar is also the most brittle one.", "anchors": ["structuralcodes/sections/_generic.py:find_equilibrium_fixed_pivot", "structuralcodes/sections/_generic.py:get_balanced_failure_strain"]}
{"id": "C53", "title": "Returned planes, forces and moments belong together", "statement": "The axial force and moments returned by calculate_bending_strength, and the moments of every point returned by calculate_moment_curvature, are exactly the resultants of the returned axial strain and curvatures over the unrotated section, and the curvature vector has the requested inclination; a moment-curvature diagram has exactly the requested curvatures in order.", "quantifier": "all sections, angles, axial loads, curvature lists and calculator states", "why_tests_cant": "ranges over all angles, sections and histories; a test samples a few angles", "anchors": ["structuralcodes/sections/_generic.py:GenericSectionCalculator.calculate_bending_strength", "structuralcodes/sections/_generic.py:GenericSectionCalculator.calculate_moment_curvature"]}
{"id": "C54", "title": "Material factories return a material or raise", "statement": "create_concrete and create_reinforcement return an object of the class belonging to the design code in effect, and raise ValueError when no code is in effect or the code does not provide that material; they never return without a material.", "quantifier": "all design code arguments, global states and constructor outcomes", "why_tests_cant": "needs every code module and every state of the global code, not the few combinations tests use", "anchors": ["structuralcodes/materials/concrete/__init__.py: create_concrete", "structuralcodes/materials/reinforcement/__init__.py: create_reinforcement", "structuralcodes/codes/__init__.py: _use_design_code"]}
{"id": "C55", "title": "Names and group labels survive motions", "statement": "translate, rotate and mirror keep the name and the group label of every surface and bar, so that filters still find them.", "quantifier": "all geometries and motions", "why_tests_cant": "all operation sequences", "anchors": ["structuralcodes/geometry/_geometry.py:SurfaceGeometry.translate", "structuralcodes/geometry/_geometry.py:PointGeometry.translate"]}
{"id": "C56", "title": "Rectangular and circular geometries have the requested shape", "statement": "A rectangle has the requested width, height, centre and area; a circle is a closed polygon of the requested number of points (rounded to a multiple of 4) on the circle, whose area converges to that of the circle from below; non-positive sizes and bad origins raise.", "quantifier": "all sizes, origins and numbers of points", "why_tests_cant": "a continuum of sizes and unbounded numbers of points", "anchors": ["structuralcodes/geometry/_rectangular.py:RectangularGeometry", "structuralcodes/geometry/_circular.py:CircularGeometry"]}
{"id": "C58", "title": "The profiles of the interaction domain sweep in order from uniform tension to uniform compression", "statement": "For an ordinary section (compression limits negative, tension limits positive, yield strains within the ultimate ones, pivot of field 6 above the lower governing ordinate) the ultimate strain profiles behind calculate_nm_interaction_domain are ordered: along the list the strain at the lower governing ordinate never increases, over fields 1 to 5 the strain never increases at any ordinate between the governing ones, the first profile is uniform tension at the tensile limit and the last is uniform compression, whatever the numbers of points and the spacings (linear, geometric, quadratic) of the fields.", "quantifier": "Every section (through its balanced failures), rotation, list of numbers and spacing kinds of the six fields.", "why_tests_cant": "Unit tests check a few shapes of domain with default numbers; the order of the points must hold for every combination of numbers and spacings.", "anchors": ["structuralcodes/sections/_generic.py:_compute_ultimate_strain_profiles", "structuralcodes/sections/_generic.py:calculate_nm_interaction_domain"]}
{"id": "C59", "title": "Basic materials carry the law they promise", "statement": "ElasticMaterial(E) answers E*eps with tangent E at every strain and rejects E <= 0; ElasticMaterial.from_material(m) has m's density and everywhere the tangent m has at zero strain (for a reinforcement its modulus), is idempotent, and rejects a material without stiffness at zero; ElasticPlasticMaterial and GenericMaterial carry exactly the law they are given.", "quantifier": "all moduli, strains, densities and source materials", "why_tests_cant": "a continuum of strains and materials", "anchors": ["structuralcodes/materials/basic/_elastic.py: ElasticMaterial, from_material", "structuralcodes/materials/basic/_elasticplastic.py: ElasticPlasticMaterial", "structuralcodes/materials/basic/_generic.py: GenericMaterial"]}
{"id": "C52", "title": "Gross section properties are the integrals they are named after", "statement": "For a section of one connected outline with materials of positive initial stiffness, gross_properties exists and: area is that of the surfaces; ea, e_sy, e_sz, e_iyy, e_izz, e_iyz are the integrals of E, E z, E y, E z^2, E y^2, E y z over the surfaces plus the sums over the bars (sy ... iyz the same with E = 1); (cy, cz) is the stiffness-weighted centroid, the values with suffix _c are the integrals about it; i11 and i22 are the extreme second moments over all axes through the centroid and theta the inclination of the axis of i11. With the fibre integrator the first moments and the centroid are still exact and the second moments too small by at most EA h^2/18.", "quantifier": "all polygons with holes, bars, materials and meshes", "why_tests_cant": "a continuum of shapes; tests use rectangles, T sections and circles whose axes are aligned", "anchors": ["structuralcodes/sections/_generic.py:GenericSectionCalculator._calculate_gross_section_properties", "structuralcodes/geometry/_geometry.py:CompoundGeometry.from_geometry", "structuralcodes/core/_section_results.py:SectionProperties"]}
{"id": "C60", "title": "Profile section properties do not depend on the order of reading", "statement": "For a profile whose polygon bounds the region R, every property read in any order and any number of times returns the value of R: A, Iy, Iz, Iyz the area and second moments; Icsi and Ieta the extreme second moments over all axes and theta the angle; Wely = Iy/zmax, Welz = Iz/ymax; Wply and Wplz the sum of absolute static moments about the axis that halves the area (found within 1e-10), which is the least over all axes and at least the elastic modulus; iy, iz the radii of inertia.", "quantifier": "all profile shapes and all finite sequences of property reads", "why_tests_cant": "history of a cache plus a bisection over a continuum of shapes", "anchors": ["structuralcodes/geometry/profiles/_base_profile.py:BaseProfile", "structuralcodes/geometry/profiles/_base_profile.py:BaseProfile._find_plastic_neutral_axis_y", "structuralcodes/geometry/profiles/_base_profile.py:BaseProfile.Wply", "structuralcodes/geometry/profiles/_base_profile.py:BaseProfile.theta"]}
{"id": "C61", "title": "Standard profiles: lookup is history independent and has the listed dimensions", "statement": "For every sequence of get_polygon, constructor and profiles() calls on the profile classes, each call behaves as in a fresh process: a listed name gives the section with the dimensions of its row (get_polygon and constructor agree), any other name raises ValueError, profiles() lists the same names; all listed dimensions are positive and fit together.", "quantifier": "all call histories and names", "why_tests_cant": "get_polygon writes into the class tables, so it is a property of histories", "anchors": ["structuralcodes/geometry/profiles/_ipe.py:IPE", "structuralcodes/geometry/profiles/_upn.py:UPN.get_polygon", "structuralcodes/geometry/profiles/_l.py:L.get_polygon"]}
{"id": "C62", "title": "I sections have the drawn shape", "statement": "The region of an I section with dimensions h, b, tw, tf, r fits the box b x h, is symmetric about both axes (centroid at the origin, no product moment), and its area is 2 b tf + tw (h - 2 tf) + 4 fillets; a parallel flange U section is symmetric about its horizontal axis.", "quantifier": "all dimensions with tw + 2r <= b and 2 tf + 2 r <= h (every row of the tables)", "why_tests_cant": "a continuum of dimensions", "anchors": ["structuralcodes/geometry/profiles/_common_functions.py:_create_I_section", "structuralcodes/geometry/profiles/_common_functions.py:_create_parallel_U_section"]}
{"id": "C63", "title": "Elastic cracked properties are those of the compression zone and the reinforcement", "statement": "calculate_elastic_cracked_properties(section, theta) returns None exactly if the geometry has no concrete. Otherwise the returned geometry consists of the parts of the surfaces on the compression side of an axis inclined by theta, and all bars, with the initial moduli (and densities) of the materials; the axis is the one for which the section without concrete tension is in equilibrium without axial force (unique, up to the tolerance of the search), so for concrete sections it passes through the centroid of the cracked section; and the returned properties are the gross properties of that geometry.", "quantifier": "all sections, materials with positive initial modulus, and angles", "why_tests_cant": "a root search and integrals over a continuum of shapes", "anchors": ["structuralcodes/sections/_rc_utils.py:calculate_elastic_cracked_properties", "structuralcodes/sections/_rc_utils.py:_create_surface_geometries"]}
{"id": "C64", "title": "Splitting a surface gives the parts above and below the line", "statement": "SurfaceGeometry.split with a line (two ends, or a point and an angle) returns polygons above and below: those above lie on or above the line, those below on or below it, and together they cover the surface once, so areas add up. split_two_lines gives the part of the surface in the convex hull of the lines; the strips the Marin integrator asks for are complete.", "quantifier": "all polygons with holes, points and angles", "why_tests_cant": "a continuum of lines and shapes", "anchors": ["structuralcodes/geometry/_geometry.py:SurfaceGeometry.split", "structuralcodes/geometry/_geometry.py:SurfaceGeometry.split_two_lines", "structuralcodes/geometry/_geometry.py:create_line_point_angle"]}
{"id": "C65", "title": "Laws without Marin expressions are replaced by an inscribed polygon, on the safe side", "statement": "For Sargin, Popovics and parabola-rectangle laws with exponent other than 2 the Marin integrator uses a piecewise linear law. It has the law's own values at eleven equally spaced strains from the ultimate compressive strain to zero and is straight in between; it never shows tension, has the same ultimate strain and never exceeds the strength; for Sargin and parabola-rectangle it never carries more compression than the law itself; the deviation is bounded (second order in the spacing for Sargin). A section integrated with it has an axial force within that bound times the area, compression not overestimated. Such laws can also be combined in a Parallel law, and a law derived from the base class by a user keeps its tension branch.", "quantifier": "all law parameters, strains, sections with holes and bars and strain planes with curvature", "why_tests_cant": "a bound over a continuum of strains and parameters, and integrals over arbitrary regions", "anchors": ["structuralcodes/core/base.py:ConstitutiveLaw._discretize_law", "structuralcodes/core/base.py:ConstitutiveLaw.__marin__", "structuralcodes/materials/constitutive_laws/_parallel.py:Parallel.__marin__", "structuralcodes/materials/constitutive_laws/_sargin.py:Sargin"]}
{"id": "C57", "title": "The fibre integrator converges to the exact forces", "statement": "With a mesher that covers each surface once by triangles no larger than mesh_size times its area and without angles below 30 degrees, the forces of the fibre integrator differ from the integrals N = int sigma dA, My = int sigma z dA, Mz = -int sigma y dA by at most 2/3 times curvature, greatest slope of the law, sqrt(8 A mesh_size) and the integral of the absolute lever arm; so they converge as mesh_size goes to 0, and fibre and Marin integrator agree within that bound. The mesher is asked for exactly the edges of the polygon and its holes, with one point inside each hole.", "quantifier": "all sections with holes and bars, laws with bounded slope on the strains that occur, strain planes and mesh sizes", "why_tests_cant": "an error bound over all meshes and a limit", "anchors": ["structuralcodes/sections/section_integrators/_fiber_integrator.py:FiberIntegrator.triangulate", "structuralcodes/sections/section_integrators/_fiber_integrator.py:FiberIntegrator.prepare_triangulation", "structuralcodes/sections/section_integrators/_fiber_integrator.py:FiberIntegrator.integrate_stress"]}
{"id": "C66", "title": "The bending strength of a reinforced concrete section is an ultimate equilibrium state", "statement": "For a section of parabola-rectangle concrete parts with holes and bars of any law, whatever was calculated before, a bending strength returned by calculate_bending_strength(theta, n) with the Marin integrator satisfies: the curvature has the requested inclination; the returned N, My, Mz are exactly the integrals of the stresses over the regions plus the bar forces of the returned strain plane; some corner of a part or some bar is exactly at a limit strain and none is beyond (if the governing strains respect the limits of all materials); and the returned N is within 0.01 of n for all but countably many n between the forces of the two nearly uniform limit planes. n_min and n_max are the axial forces under the two uniform limit strains, and for a load in the range the calculation returns.", "quantifier": "all polygons with holes, bars, angles, axial loads and calculator histories", "why_tests_cant": "a root search over integrals of a continuum of shapes, all loads and histories", "anchors": ["structuralcodes/sections/_generic.py:GenericSectionCalculator.calculate_bending_strength", "structuralcodes/sections/_generic.py:GenericSectionCalculator.find_equilibrium_fixed_pivot", "structuralcodes/sections/_generic.py:GenericSectionCalculator.calculate_limit_axial_load"]}
{"id": "C67", "title": "Points of the interaction domains are the exact forces of their strain planes", "statement": "For an ordinary section of parabola-rectangle concrete parts (with holes) and bars, with the Marin integrator and whatever was calculated before: calculate_nm_interaction_domain (half or complete) and calculate_nmm_interaction_domain return as soon as the strain profiles exist, with one point per profile in the same order, and each point is exactly (int sigma dA, int sigma z dA, -int sigma y dA) of its profile over the regions plus the bars; the profiles of the N-My-Mz domain are those of the equally spaced angles one after another. Each point of calculate_mm_interaction_domain belongs to a strain plane with the requested inclination that is at a limit and exceeds none, carries exactly the returned moments, and balances n within 0.01 (for all but countably many n).", "quantifier": "all polygons with holes, bars, angles, numbers and spacings of profiles and calculator histories", "why_tests_cant": "integrals over a continuum of shapes for every profile and every history", "anchors": ["structuralcodes/sections/_generic.py:GenericSectionCalculator.calculate_nm_interaction_domain", "structuralcodes/sections/_generic.py:GenericSectionCalculator.calculate_nmm_interaction_domain", "structuralcodes/sections/_generic.py:GenericSectionCalculator.calculate_mm_interaction_domain"]}
{"id": "C68", "title": "The plane returned by calculate_strain_profile carries the loads up to the tolerance", "statement": "If calculate_strain_profile(n, my, mz, tol=tol) returns a plane, and around the strain of every fibre (within tol*sqrt(1+y^2+z^2)) the stress of its law changes by at most E per unit strain and its tangent is at most E, then each of the axial force and the two moments of the returned plane differs from the requested load by at most 2*tol*sum(A*E*|lever|*sqrt(1+y^2+z^2)) over the fibres, for both variants (initial tangent and current tangent) and after any undisturbed history of calls. If all laws are strictly increasing and three fibres are not collinear, at most one plane carries the loads.", "quantifier": "all sections of the fibre integrator, laws, loads, max_iter, tolerances, variants and call histories", "why_tests_cant": "the code tests the size of the strain increment, never the force residual: a test only sees chosen loads; the bound must hold at every load and after any number of iterations", "anchors": ["structuralcodes/sections/_generic.py: calculate_strain_profile"]}
{"id": "C69", "title": "Tapered I and U sections and angles have the drawn shape", "statement": "For every listed IPN, UPN, U, L and LI section (and all dimensions that fit together), provided the double offset of a corner runs inside the corner triangle, the constructor returns a closed counterclockwise polygon without holes whose bounding box is exactly b wide and h high and whose centroid is the origin; I sections are symmetric about both axes and U sections about the horizontal one, so the moments odd in that coordinate (also the product moment Iyz the profile reports) vanish; the area is that of the sharp outline minus the parts cut off the outer corners plus the parts filled in the inner ones.", "quantifier": "all dimensions that fit together (all rows of the tables), all radii, slopes and roundings", "why_tests_cant": "a continuum of dimensions and of polyline roundings; the unit tests compare a few tabulated areas within per cents", "anchors": ["structuralcodes/geometry/profiles/_common_functions.py:_create_taper_I_section", "structuralcodes/geometry/profiles/_common_functions.py:_create_taper_U_section", "structuralcodes/geometry/profiles/_common_functions.py:_create_L_section"]}
{"id": "C70", "title": "Each point of a moment-curvature diagram of a reinforced concrete section is in equilibrium", "statement": "For a section of parabola-rectangle concrete parts with holes and bars of any law, whatever was calculated before, the points returned by calculate_moment_curvature(theta, n) with the Marin integrator have the given curvatures, in order and with inclination theta (with the default grid: num_pre_yield curvatures that end at the yield curvature, then num_post_yield that end at the curvature of calculate_bending_strength, all of one sign and growing); the returned moments are exactly the integrals of the stresses over the regions plus the bars under the returned strain plane; and the axial force of that plane is within 0.01 of n, for all but countably many n, unless the search was driven away by a material that fails.", "quantifier": "all polygons with holes, bars, angles, axial loads, curvatures and calculator histories", "why_tests_cant": "a chain of root searches over integrals of a continuum of shapes, each started from the result of the one before", "anchors": ["structuralcodes/sections/_generic.py:GenericSectionCalculator.calculate_moment_curvature", "structuralcodes/sections/_generic.py:GenericSectionCalculator.find_equilibrium_fixed_curvature", "structuralcodes/sections/_generic.py:GenericSectionCalculator._prefind_range_curvature_equilibrium"]}
{"id": "C71", "title": "Strength and moment-curvature with the fibre integrator are those of the section up to the mesh error", "statement": "For a section of surfaces of any law, meshed as requested, and bars, calculated with the fibre integrator: the limit axial loads are exactly the axial forces of the section under the uniform limit strains; a bending strength returned for (theta, n) belongs to a strain plane with inclination theta that reaches a limit strain and exceeds none, the axial force and both moments of the section in that plane differ from the returned ones by at most 2/3 times curvature times the sum over the surfaces of modulus times sqrt(8 A mesh_size) times the absolute moment of the region, and the returned axial force is within 0.01 of n; the strength is returned for every load between the end planes. The points of a moment-curvature diagram have the requested curvatures and the forces of the section up to the same error.", "quantifier": "all regions and meshes with triangles of the requested size and angles, laws, bars, angles, mesh sizes and axial loads", "why_tests_cant": "the exact section is a continuum; the error must be bounded for every mesh a mesher may produce", "anchors": ["structuralcodes/sections/section_integrators/_fiber_integrator.py:FiberIntegrator.integrate_strain_response_on_section", "structuralcodes/sections/_generic.py:GenericSectionCalculator.calculate_bending_strength", "structuralcodes/sections/_generic.py:GenericSectionCalculator.calculate_moment_curvature"]}
{"id": "C72", "title": "Turning, shifting or mirroring a section turns, shifts or mirrors its strength", "statement": "Let a section of surfaces (any law integrated exactly) and bars and the same section after a rigid motion (rotation, translation, mirroring) both accept the axial force n. Then calculate_bending_strength of the moved section about the moved axis returns exactly the result of the section moved along: same axial force, curvature and moment vectors turned (and mirrored), moments increased by the axial force at the shifted place, axial strain so that every material point keeps its strain; and it returns nothing else. In particular a section with an axis of symmetry bent about the perpendicular axis has its moment in the plane of symmetry. Shifting and mirroring do not change the limit axial loads. The N-M interaction domain of the moved section about the moved axis consists of exactly the moved points, in the same order.", "quantifier": "all motions, sections, angles, axial loads and earlier calculations", "why_tests_cant": "the motion is a continuous parameter and the equilibrium search runs on other numbers in the moved section", "anchors": ["structuralcodes/sections/_generic.py:GenericSectionCalculator.calculate_bending_strength", "structuralcodes/sections/_generic.py:GenericSectionCalculator.get_balanced_failure_strain", "structuralcodes/sections/_generic.py:GenericSectionCalculator.find_equilibrium_fixed_pivot", "structuralcodes/sections/_generic.py:GenericSectionCalculator.calculate_limit_axial_load", "structuralcodes/geometry/_geometry.py:CompoundGeometry.rotate", "structuralcodes/geometry/_geometry.py:CompoundGeometry.translate"]}
{"id": "C73", "title": "The strength of an ordinary reinforced concrete section exists for every load between its limit loads, and is the strength", "statement": "For a section of normal strength concrete (law parabolarectangle, default strains) with bars of one perfectly plastic steel, made from the material constructors of any of the three codes: the limit axial loads are the axial forces of the section under the uniform strains -0.0035 and design ultimate strain of the steel; a load outside them raises ValueError in every direction theta; for every load between them, up to 1e-13 times the axial rigidity times the depth, calculate_bending_strength returns, after any sequence of calls, a strain plane with curvature about the requested axis that carries exactly the reported forces, in which no point of the section is strained beyond its limit and some point is at its limit, and whose axial force differs from the load by at most 1e-2 (except for countably many loads; the exception is real: every such section has a load well inside the limits for which the returned state carries the squash load instead).", "quantifier": "all concrete and steel arguments accepted by the constructors, all polygons and bar layouts with bars inside the concrete and a bar at least a thousandth of the depth below the top, all directions, loads and call histories", "why_tests_cant": "tests compute single sections; that a result exists for every load and direction, and that failure to converge cannot happen, quantifies over sections and loads", "anchors": ["structuralcodes/sections/_generic.py:calculate_bending_strength", "structuralcodes/sections/_generic.py:get_balanced_failure_strain", "structuralcodes/sections/_generic.py:find_equilibrium_fixed_pivot", "structuralcodes/sections/_generic.py:calculate_limit_axial_load", "structuralcodes/materials/concrete/_concreteEC2_2004.py", "structuralcodes/materials/reinforcement/_reinforcement.py"]}
{"id": "C74", "title": "The bending strength is the largest moment: domain, diagram and strength agree", "statement": "For an ordinary reinforced concrete section (C73) with non-negative bar areas and a steel whose stress does not fall between its limit strains: no strain plane about an axis parallel to the one requested, with all strains within the limits of the materials, carries a moment larger than calculate_bending_strength reports, up to the difference of the axial forces times the distance R of the farthest corner from the axis through the origin (so under the same axial load: up to R times the tolerance 1e-2). Hence every point of calculate_nm_interaction_domain lies inside the bending strengths and those of fields 1 to 5 exactly on them; and in calculate_moment_curvature, as long as the strains are within the limits, the moment never falls with growing curvature and never exceeds the bending strength.", "quantifier": "all sections of C73, all directions and axial loads, all admissible strain planes (any curvature, either sign), all requested curvatures and numbers of points, all call histories", "why_tests_cant": "a maximum over all strain states: a test compares with finitely many other states", "anchors": ["structuralcodes/sections/_generic.py:calculate_bending_strength", "structuralcodes/sections/_generic.py:calculate_nm_interaction_domain", "structuralcodes/sections/_generic.py:calculate_moment_curvature", "structuralcodes/sections/_generic.py:_compute_ultimate_strain_profiles"]}
{"id": "C75", "title": "Steel sections: the bending strength is the plastic moment, the limit loads are the squash load", "statement": "For a section of elastic - perfectly plastic steel surfaces with a common limit strain u: calculate_limit_axial_load returns exactly minus and plus the sum of yield strength times area; calculate_bending_strength raises ValueError for axial loads beyond it and returns for every load inside it; the result is a plane with an extreme fibre exactly at the limit strain and none beyond, its forces are the integrals of the stresses over the section, its moment is never more than the plastic moment (yield stresses of opposite sign above and below a line, about that line), and is at least the plastic moment for a neutral axis inside the section less fy*eps_y*h/(4u) times the area for the elastic core. No strain plane about a parallel axis within the limits has a larger moment. In particular the bending strength of a profile equals fy*Wply of the profile classes up to these amounts.", "quantifier": "all numbers, shapes (with holes) and yield strengths of the surfaces, all directions and axial loads, all strain limits u up to 1 beyond yielding, all call histories", "why_tests_cant": "quantifies over all shapes and all loads; a test compares single profiles with tabulated values", "anchors": ["structuralcodes/sections/_generic.py:calculate_bending_strength", "structuralcodes/sections/_generic.py:calculate_limit_axial_load", "structuralcodes/materials/constitutive_laws/_elasticplastic.py:ElasticPlastic", "structuralcodes/geometry/profiles/_base_profile.py:Wply"]}
{"id": "C76", "title": "Reinforced concrete with the default (hardening) steel law: for which loads there is a bending strength", "statement": "For an ordinary reinforced concrete section (C73) whose bars have the default law elasticplastic with ftk not below fyk: calculate_bending_strength should return, for every axial load strictly between the limit axial loads, a limit state whose axial force is within 1e-2 of the load. It does not: strains within 1e-6 + 1e-5*eps_ud of the limit strain are taken for the limit strain, so the stress of a bar jumps by the hardening modulus times that width, and for loads in the gap the search raises ValueError after 100 iterations. What holds: outside the limit loads ValueError; whatever is returned is an exact admissible limit state with the reported forces; the loads between the limit loads without a result within 1e-2 have total length at most 8*bars*(2*Eh*w*sum(A) + 1e-2) and lie about at most 4*bars known loads; and whenever the lowest bar carries a jump of more than 2e-2, such a load exists.", "quantifier": "all sections of C73 with hardening steel, all directions, axial loads and call histories, all classes of concrete and steel", "why_tests_cant": "the gaps are fractions of a newton to a few newtons wide: no test hits them, and no test shows that nothing else fails", "anchors": ["structuralcodes/core/base.py:preprocess_strains_with_limits", "structuralcodes/sections/_generic.py:find_equilibrium_fixed_pivot", "structuralcodes/sections/_generic.py:calculate_bending_strength", "structuralcodes/materials/constitutive_laws/_elasticplastic.py:ElasticPlastic"]}
{"id": "C77", "title": "Bending strength of a rectangular beam is the textbook formula", "statement": "For a rectangular section of width B of normal strength concrete (parabola-rectangle with the default strains) with one layer of bars of perfectly plastic steel, total area As at depth d below the upper face and height zb: let X = (As*fyd - n)/(17/21*fcd*B). If X lies between 0.0035/(0.0035+eps_ud)*d and 0.0035/(0.0035+eps_yd)*d (bars beyond yielding, concrete governing), calculate_bending_strength(theta=0, n) returns the state with the upper face at -0.0035, the neutral axis at depth X up to 1e-2/(17/21*fcd*B), the bars yielding, and -m_y = (As*fyd - n)*(d - 99/238*X) - n*zb up to 1e-2*(d + |zb|).", "quantifier": "all widths, heights, steel areas and positions, all classes of concrete and steel, all axial loads in the range and all call histories", "why_tests_cant": "tests compare a few beams with the hand formula within percents; the closed form with its error bound for all beams needs the integrals of the law and the uniqueness of the limit state", "anchors": ["structuralcodes/sections/_generic.py:calculate_bending_strength", "structuralcodes/materials/constitutive_laws/_parabolarectangle.py:ParabolaRectangle", "structuralcodes/sections/section_integrators/_marin_integrator.py:MarinIntegrator"]}
{"id": "C78", "title": "The default moment-curvature diagram ends at the bending strength", "statement": "calculate_moment_curvature(theta, n) with default curvatures ends at the ultimate curvature, that of calculate_bending_strength(theta, n). Its last point should therefore be the ultimate state: in equilibrium, within the limit strains, with the moment of the bending strength; and whenever the bending strength exists the diagram should be returned.", "quantifier": "all reinforced concrete sections of one concrete and one perfectly plastic steel from the constructors, all axial loads but countably many, all numbers of points and all call histories", "why_tests_cant": "a test sees one diagram; that the last search starts outside the limit strains, so that the crushed upper face or the ruptured bars balance it or hide the solution, depends on the whole chain of searches before and is a statement about every section of the class", "anchors": ["structuralcodes/sections/_generic.py:calculate_moment_curvature", "structuralcodes/sections/_generic.py:find_equilibrium_fixed_curvature", "structuralcodes/sections/_generic.py:_prefind_range_curvature_equilibrium", "structuralcodes/sections/_generic.py:calculate_bending_strength"]}
{"id": "C79", "title": "More bars in the lowest layer never reduce the bending strength", "statement": "Take an ordinary reinforced concrete section (C73) and the same section with further bars of the same steel in its lowest layer of reinforcement (lowest in the direction of bending). Whenever the lowest layer is not compressed in the result of calculate_bending_strength for the first section - which is so for every axial load above that of the state with the crushing strain at the top and no strain in the layer - calculate_bending_strength of the second section reports at least the same moment under the same axial load, up to the tolerances of the two searches times the distance of the farthest corner from the axis through the origin.", "quantifier": "all sections of C73 (any polygons, holes, bar layouts), all numbers, areas and places of the added bars within the layer, all directions, axial loads and call histories", "why_tests_cant": "compares the results of two separate searches on two sections, for all pairs of sections; a test compares one pair", "anchors": ["structuralcodes/sections/_generic.py:calculate_bending_strength", "structuralcodes/sections/_generic.py:find_equilibrium_fixed_pivot", "structuralcodes/geometry/_reinforcement.py:add_reinforcement"]}
{"id": "C80", "title": "Both integrators give the same bending strength, up to an error that vanishes with the mesh", "statement": "Take an ordinary reinforced concrete section (C73), once with integrator='marin' and once with integrator='fiber' and relative triangle size mesh_size. With the fibre integrator the limit axial loads are exactly those of the section; calculate_bending_strength raises ValueError outside them and returns for every load inside (up to the margin of C73 and the mesh error of a curvature of 1e-13); no strain state within the limit strains has a larger moment than the reported one, up to the tolerance of the search and an explicit constant times sqrt(mesh_size); and under the same axial load the moments reported with the two integrators differ by at most the tolerances of the two searches times the distance of the farthest corner from the axis through the origin, and that constant times sqrt(mesh_size).", "quantifier": "all sections of C73 (any polygons, holes, bar layouts), all meshes with the requested triangle size and angles of at least 30 degrees, all directions, axial loads but countably many and call histories", "why_tests_cant": "compares two searches with two integrators for all sections and all mesh sizes; a test compares a few sections at one mesh size with a tolerance chosen by hand", "anchors": ["structuralcodes/sections/_generic.py:calculate_bending_strength", "structuralcodes/sections/section_integrators/_fiber_integrator.py:FiberIntegrator", "structuralcodes/sections/section_integrators/_marin_integrator.py:MarinIntegrator", "structuralcodes/sections/_generic.py:calculate_limit_axial_load"]}
{"id": "C81", "title": "The bending strength depends on the axial load as the geometry of the section allows", "statement": "For a section of normal strength concrete and bars of one perfectly plastic steel: let lo and hi be the lowest and the highest height of the section along the direction of bending. If the axial load is raised from n to n' (tension positive), the moment returned by calculate_bending_strength changes by at least -hi (n' - n) and at most -lo (n' - n), up to the tolerance of the two equilibrium searches times the size of the section. In particular the moment about the lowest point never decreases with compression, and repeating the calculation with the same load after any other calls gives the same moment up to the tolerance.", "quantifier": "all sections of C73 (any polygons, holes, bar layouts), all directions, all pairs of axial loads but countably many values, and all call histories before either call", "why_tests_cant": "compares two searches for all pairs of loads and all sections; a test compares a few loads on one section", "anchors": ["structuralcodes/sections/_generic.py:calculate_bending_strength", "structuralcodes/sections/_generic.py:find_equilibrium_fixed_pivot", "structuralcodes/sections/_generic.py:get_balanced_failure_strain"]}
{"id": "C82", "title": "Stronger concrete never reduces the bending strength of a section with one layer of bars", "statement": "For two sections of the same geometry with one layer of bars of one perfectly plastic steel, and two normal strength concretes: under the same axial load, calculate_bending_strength returns for the stronger concrete no smaller moment than for the weaker one, up to the tolerances of the two equilibrium searches times the size of the section, for every axial load for which the bars are in tension (above the load of the state with the crushing strain at the top and no strain in the bars).", "quantifier": "all sections of C73 with one layer of bars (any polygons, holes), all directions, all pairs of concretes of any of the codes, axial loads but countably many and call histories", "why_tests_cant": "compares two searches on two sections for all shapes and strengths; a test compares two concretes on one section", "anchors": ["structuralcodes/sections/_generic.py:calculate_bending_strength", "structuralcodes/sections/_generic.py:find_equilibrium_fixed_pivot", "structuralcodes/materials/constitutive_laws/_parabolarectangle.py:ParabolaRectangle"]}
{"id": "C83", "title": "Comparing section properties", "statement": "SectionProperties.isclose(other, rtol, atol) returns True exactly when every one of the 29 reported quantities agrees within atol + rtol times the value of the other, and False otherwise, for any object passed; it is reflexive, holds for wider tolerances when it holds for narrower ones, is symmetric, and does not depend on the units of the section.", "quantifier": "all pairs of property objects, all tolerances, any other object passed as argument", "why_tests_cant": "a statement about all pairs of values of 29 fields and all tolerances", "anchors": ["structuralcodes/core/_section_results.py:SectionProperties.isclose"]}
{"id": "C84", "title": "Bending strength of sections of high strength concrete", "statement": "For a section of concrete above C50 with the parabola-rectangle law, whose exponent is not 2, and bars of one perfectly plastic steel, calculate_bending_strength (default integrator) refuses exactly the loads outside the limit loads of the design diagram and otherwise returns an ultimate state of the section: an admissible plane of strains with a fibre at its ultimate strain, whose reported axial force and moment are those of the design diagram up to the error of replacing the diagram by ten straight pieces (never more compression than the diagram gives), in equilibrium with the load, and no other admissible plane with the same axial force has a larger moment up to that error.", "quantifier": "all polygons with holes and bar layouts, directions, axial loads, call histories, concretes above 50 and up to 89 MPa and steels of the code constructors, or any parameters of the law", "why_tests_cant": "compares a search with a bisection and a polygonal replacement of a power law with the exact integral of the diagram for all sections; a test checks one section against another program", "anchors": ["structuralcodes/sections/_generic.py:calculate_bending_strength", "structuralcodes/materials/constitutive_laws/_parabolarectangle.py:__marin__", "structuralcodes/core/base.py:_discretize_law", "structuralcodes/materials/concrete/_concreteEC2_2004.py:ConcreteEC2_2004"]}
{"id": "C85", "title": "Bending strength of sections of concrete with the bilinear law", "statement": "For a section of concrete with the law bilinearcompression and bars of one perfectly plastic steel, calculate_bending_strength (default integrator) refuses exactly the loads outside the limit loads of the section and otherwise returns an ultimate state: an admissible plane of strains with a fibre at its ultimate strain, whose axial force and moments under the bilinear diagram of the code are exactly the reported ones, in equilibrium with the load, and no other admissible plane with the same axial force has a larger moment. With default strains every consistent set of concrete arguments is accepted.", "quantifier": "all polygons with holes and bar layouts, directions, axial loads, call histories, concretes up to 90 MPa and steels of the code constructors, or any parameters of the law", "why_tests_cant": "compares a search and a decomposition of polygons with the exact integral of the diagram for all sections; a test checks one section", "anchors": ["structuralcodes/sections/_generic.py:calculate_bending_strength", "structuralcodes/materials/constitutive_laws/_bilinearcompression.py:BilinearCompression", "structuralcodes/sections/section_integrators/_marin_integrator.py", "structuralcodes/materials/concrete/_concreteEC2_2004.py:ConcreteEC2_2004", "structuralcodes/materials/concrete/_concreteMC2010.py:ConcreteMC2010"]}
{"id": "C86", "title": "Bending strength of sections of concrete with a softening law", "statement": "For a section of concrete with Sargin's or Popovics' law, which lose strength beyond their peak, and bars of one steel, calculate_bending_strength (default integrator) returns an ultimate state of the section: an admissible plane of strains with a fibre at its ultimate strain, whose reported axial force and moment are those of the exact diagram up to the error of replacing it by ten straight pieces (with Sargin's law never more compression than the diagram gives), in equilibrium with the load. Every axial load that some admissible plane of strains carries is accepted, and loads outside the limit loads of calculate_limit_axial_load are refused.", "quantifier": "all polygons with holes and bar layouts, directions, axial loads, call histories, concretes to any of the three codes from C12 to C90, C120 or C100 with default values, or any parameters of the laws", "why_tests_cant": "compares a search with a bisection and a polygonal replacement of a rational or power law with the exact integral of the diagram for all sections; a test checks one section", "anchors": ["structuralcodes/sections/_generic.py:calculate_bending_strength", "structuralcodes/sections/_generic.py:calculate_limit_axial_load", "structuralcodes/materials/constitutive_laws/_sargin.py:Sargin", "structuralcodes/materials/constitutive_laws/_popovics.py:Popovics", "structuralcodes/core/base.py:_discretize_law", "structuralcodes/materials/concrete/_concreteEC2_2004.py:ConcreteEC2_2004"]}
{"id": "C87", "title": "Moment-curvature diagrams of concrete of any law, for every axial force", "statement": "calculate_moment_curvature (default integrator) of a section of concrete with the parabola-rectangle, bilinear, Sargin or Popovics law and any bars returns one point per curvature asked for, in order, curvature zero included: its curvature is the one asked for, its moments are those of its plane of strains, and the axial force of that plane is the one asked for, zero included, within 0.01. Without given curvatures the curvatures fall strictly from a first one through the yield curvature at the requested place to the curvature of calculate_bending_strength. In a plane within the ultimate strains the forces are those of the design diagram, up to the error of replacing it by ten straight pieces where the law is replaced.", "quantifier": "all polygons with holes and bar layouts, directions, axial forces including zero, lists of curvatures including zero, call histories, parameters of the laws", "why_tests_cant": "the outcome of a chain of searches, each starting where the previous one ended, for all sections and lists of curvatures; a test checks one diagram", "anchors": ["structuralcodes/sections/_generic.py:calculate_moment_curvature", "structuralcodes/sections/_generic.py:find_equilibrium_fixed_curvature", "structuralcodes/sections/section_integrators/_marin_integrator.py", "structuralcodes/core/base.py:_discretize_law", "structuralcodes/materials/constitutive_laws/_bilinearcompression.py:BilinearCompression"]}
{"id": "C88", "title": "Interaction domains with every concrete law of the library", "statement": "calculate_nm_interaction_domain and calculate_nmm_interaction_domain (default integrator) of a section of concrete with the bilinear, Sargin or Popovics law (or a parabola with an exponent other than two) and bars of one steel return whatever was calculated before: one point per strain profile, in order, as many as asked for; every point is (N, My, Mz) of the section with its design diagram under that profile (up to the error of replacing the diagram by ten straight pieces where the law is replaced); no profile exceeds a limit strain, those of fields 1 to 5 are at one; the first profile is uniform tension at the rupture strain of the steel and the last uniform compression at the peak strain of the concrete. The points are loads that calculate_limit_axial_load and calculate_bending_strength allow.", "quantifier": "all polygons with holes and bar layouts, directions, numbers and spacings of the profiles, call histories, parameters of the laws and material constructors", "why_tests_cant": "strain profiles for all sections and spacings, and integrals over polygons for each of them; a test checks the points of one domain", "anchors": ["structuralcodes/sections/_generic.py:calculate_nm_interaction_domain", "structuralcodes/sections/_generic.py:calculate_nmm_interaction_domain", "structuralcodes/sections/_generic.py:_compute_ultimate_strain_profiles", "structuralcodes/sections/section_integrators/_marin_integrator.py", "structuralcodes/core/base.py:_discretize_law"]}
{"id": "C89", "title": "Prestressed sections from the constructor arguments", "statement": "A reinforcement with the law elasticperfectlyplastic accepts an initial strain, and every initial stress above 1e-12 up to its design strength, whenever it is accepted without; it then reports that strain (for a stress: stress over modulus) and that stress. In a section it carries the stress of its design diagram at the initial strain plus the strain of the section if bonded (the default), and keeps the initial stress if strain_compatibility is False; its limit strains are those of the steel less the initial strain. For a section of concrete (parabola-rectangle, bilinear or Sargin's law with default values, any class the codes cover) with such tendons, calculate_bending_strength refuses (ValueError) axial loads outside the forces at uniform crushing and uniform rupture of the tendons, which calculate_limit_axial_load reports, and for every load between, whatever was calculated before, returns a strain plane at a limit, within all limits, with its exact axial force (the load to 0.01 N) and moments and compression on the side asked for; no plane within the limits with the same axial force has a larger moment.", "quantifier": "all initial strains and stresses, bonded or not, material constructor arguments of the three codes, polygons with holes and bar layouts, directions, axial loads, call histories", "why_tests_cant": "a continuum of prestress levels and loads, and all sections; tests check one prestressed rectangle", "anchors": ["structuralcodes/core/base.py:Material._apply_initial_strain", "structuralcodes/core/base.py:Material._initial_strain_from_stress", "structuralcodes/materials/constitutive_laws/_initial_strain.py:InitialStrain", "structuralcodes/sections/_generic.py:calculate_bending_strength", "structuralcodes/sections/_generic.py:calculate_limit_axial_load"]}
{"id": "C90", "title": "A section of another size, or in other units, has the scaled results", "statement": "Multiplying all coordinates of a section by a positive factor l (bar areas by its square) and all stresses of its materials by a positive factor k multiplies: the integrals of marin_integration of degrees m, n by l^(m+n+2); area and perimeter by l^2 and l, axial stiffness by k l^2, the centroid by l, first and second moments by l^3 and l^4 (weighted: times k) in the gross properties; both limits of calculate_limit_axial_load by k l^2; and the moment of calculate_bending_strength under the load multiplied by k l^2 by k l^3, up to the distance of the farthest corner times the stated tolerance of the two searches. The N-M and N-My-Mz interaction domains consist of exactly the scaled points (moments times k l^3), in the same order. With unchanged materials this is the change of the unit of length or a larger member; with unit length factor the change of the unit of stress.", "quantifier": "all positive factors that keep the depth between 1e-3 and 1e9, polygons with holes and bar layouts, directions, axial loads, call histories, material constructor arguments of the three codes (ordinary reinforced concrete)", "why_tests_cant": "absolute tolerances (1e-2, 1e-13) are built into the searches, so that the invariance is not an algebraic identity; a test checks one pair of units of one section", "anchors": ["structuralcodes/core/_marin_integration.py:marin_integration", "structuralcodes/sections/_generic.py:calculate_gross_section_properties", "structuralcodes/sections/_generic.py:calculate_limit_axial_load", "structuralcodes/sections/_generic.py:calculate_bending_strength"]}
{"id": "C91", "title": "Interaction domains of the fibre integrator are those of the section", "statement": "calculate_mm_interaction_domain with the fibre integrator returns one point per angle, each a failure plane of the section in equilibrium with the load and the returned moments up to an explicit mesh error. For a section of surfaces and bars, calculate_nm_interaction_domain and calculate_nmm_interaction_domain with the fibre integrator return one point for every strain profile, in the order of the profiles, on exactly the strain profiles the Marin integrator uses; no profile exceeds a limit strain, and every point differs from (N, My, Mz) of the section under its profile by at most an explicit error, proportional to the square root of the relative triangle size.", "quantifier": "all polygons with holes, bar layouts, directions, numbers and spacings of the profiles, meshes within the requested area and angle, call histories, material constructor arguments of the three codes (ordinary reinforced concrete); any law with a slope over the strains of given profiles", "why_tests_cant": "a test compares a few points of one domain of one section and one mesh size", "anchors": ["structuralcodes/sections/_generic.py:calculate_nm_interaction_domain", "structuralcodes/sections/_generic.py:calculate_nmm_interaction_domain", "structuralcodes/sections/_generic.py:_compute_ultimate_strain_profiles", "structuralcodes/sections/section_integrators/_fiber_integrator.py:FiberIntegrator"]}
{"id": "C92", "title": "Bending strengths of the fibre integrator compare as those of the section", "statement": "For an ordinary reinforced concrete section, calculate_bending_strength with the fibre integrator gives strengths that compare as those of the section do, up to an explicit mesh error: the strengths of two meshes (two calculators, any histories) differ by the error of the two meshes and the difference of their axial forces; more compression does not reduce the moment about the lowest point nor increase the one about the highest point; further bars in the lowest, tensioned layer do not reduce the strength; stronger concrete does not reduce the strength of a section whose bars, in one layer, are in tension. The lowest layer is in tension when the axial force exceeds that of the state crushing at the top with no strain in the layer, plus the mesh error.", "quantifier": "all polygons with holes, bar layouts, inclinations, pairs of axial loads, pairs of meshes within the requested area and angle, call histories, and the material constructor arguments of the three codes (parabola-rectangle concrete, perfectly plastic or hardening steel)", "why_tests_cant": "a test compares two sections of a table at one load and one mesh size", "anchors": ["structuralcodes/sections/_generic.py:calculate_bending_strength", "structuralcodes/sections/_generic.py:find_equilibrium_fixed_pivot", "structuralcodes/sections/section_integrators/_fiber_integrator.py:FiberIntegrator"]}
{"id": "C93", "title": "Strengths of the fibre integrator move and scale with the section", "statement": "With the fibre integrator, the bending strength of a section that is shifted, turned or mirrored, about the moved axis, is the bending strength of the section, with the moment of the axial force about the shift, and that of a section scaled in length (and in the strengths of its materials) is the scaled bending strength; both up to an explicit error of the two meshes, which need not correspond and may have different sizes, and the difference of the axial forces of the two searches. calculate_nm_interaction_domain for a moved section returns, with as many points, the moved points of the domain of the section, up to the errors of the meshes.", "quantifier": "all ordinary reinforced concrete sections (polygons with holes, bar layouts), rigid motions, scale factors, inclinations, axial loads, meshes within the requested area and angle, call histories; material constructor arguments of the three codes for the existence of the results", "why_tests_cant": "a test compares a few placements of one section and one mesh size", "anchors": ["structuralcodes/sections/_generic.py:calculate_bending_strength", "structuralcodes/sections/section_integrators/_fiber_integrator.py:FiberIntegrator", "structuralcodes/geometry/_geometry.py:translate", "structuralcodes/geometry/_geometry.py:rotate"]}
