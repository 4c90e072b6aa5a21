{
 "claims": [
  {
   "property": "C01",
   "status": "proved",
   "theorems": [
    "SC.C01_signed_moment",
    "SC.C01_triangle",
    "SC.C01_raises_iff",
    "SC.C01_convex_aux",
    "SC.C01_convex"
   ],
   "note": ""
  },
  {
   "property": "C02",
   "status": "proved",
   "theorems": [
    "SC.C02_reverse",
    "SC.C02_start"
   ],
   "note": ""
  },
  {
   "property": "C03",
   "status": "proved",
   "theorems": [
    "SC.C03_cut",
    "SC.C03_insert"
   ],
   "note": ""
  },
  {
   "property": "C04",
   "status": "proved",
   "theorems": [
    "SC.C04_all_moments",
    "SC.C04_rectangle",
    "SC.C04_rejects"
   ],
   "note": ""
  },
  {
   "property": "C05",
   "status": "partial",
   "theorems": [
    "SC.C05_elastic",
    "SC.C05_sargin",
    "SC.C05_bilinear",
    "SC.C05_popovics",
    "SC.C05_parabola_rectangle_partial",
    "SC.C05_parabola_rectangle_violated",
    "SC.C05_elasticplastic_partial",
    "SC.C05_elasticplastic_condition",
    "SC.C05_elasticplastic_violated",
    "SC.C05_userdefined"
   ],
   "note": "Proved for Elastic, Sargin, BilinearCompression, Popovics, UserDefined. ParabolaRectangle and ElasticPlastic differ between scalar and array inputs on measure-zero sets: violation witnesses and exact conditions proved."
  },
  {
   "property": "C06",
   "status": "partial",
   "theorems": [
    "SC.C06_elastic",
    "SC.C06_elasticplastic",
    "SC.C06_parabola_rectangle",
    "SC.C06_sargin",
    "SC.C06_popovics",
    "SC.C06_bilinear_partial",
    "SC.C06_bilinear_violated",
    "SC.C06_userdefined"
   ],
   "note": "All laws; BilinearCompression tangent flag differs: witness in _violated."
  },
  {
   "property": "C07",
   "status": "partial",
   "theorems": [
    "SC.C07_violated",
    "SC.C07_partial",
    "SC.C07_repeat_partial"
   ],
   "note": "Caller arrays are mutated by the snapping preprocess (_violated witness); repeat-call stability proved."
  },
  {
   "property": "C08",
   "status": "partial",
   "theorems": [
    "SC.C08_parabola_rectangle",
    "SC.C08_bilinear",
    "SC.C08_sargin_partial",
    "SC.C08_sargin_violated",
    "SC.C08_popovics"
   ],
   "note": "Sargin violates the bound for some admissible constructor arguments (witness); proved under the stated condition."
  },
  {
   "property": "C09",
   "status": "partial",
   "theorems": [
    "SC.C09_parabola_rectangle",
    "SC.C09_bilinear",
    "SC.C09_sargin_partial",
    "SC.C09_sargin_violated",
    "SC.C09_popovics_partial"
   ],
   "note": "Violated for Sargin's law when k = 1 (division by zero at the peak) and when the peak strain is within numpy's tolerance of the ultimate strain (the stress at the peak is then not the strength); C09_sargin_partial and C09_popovics_partial exclude exactly these cases by hypotheses on the constructor parameters."
  },
  {
   "property": "C10",
   "status": "partial",
   "theorems": [
    "SC.C10_elastic",
    "SC.C10_elasticplastic",
    "SC.C10_parabola_rectangle",
    "SC.C10_bilinear",
    "SC.C10_sargin",
    "SC.C10_popovics",
    "SC.C10_initial_strain",
    "SC.C10_initial_strain_violated",
    "SC.C10_userdefined"
   ],
   "note": "Tangent = derivative proved for every law away from its kinks; false for InitialStrain without strain compatibility (tangent 1e-6 of the wrapped one, derivative 0: _violated)."
  },
  {
   "property": "C11",
   "status": "partial",
   "theorems": [
    "SC.C11_odd",
    "SC.C11_mono",
    "SC.C11_values",
    "SC.C11_bounded",
    "SC.C11_no_ultimate_violated"
   ],
   "note": "Boundedness fails without an ultimate strain (witness)."
  },
  {
   "property": "C12",
   "status": "proved",
   "theorems": [
    "SC.C12_secant",
    "SC.C12_secant_array"
   ],
   "note": ""
  },
  {
   "property": "C13",
   "status": "partial",
   "theorems": [
    "SC.C13_elastic",
    "SC.C13_parabola_rectangle_uniform",
    "SC.C13_bilinear_uniform",
    "SC.C13_elasticplastic_uniform",
    "SC.C13_parabola_rectangle",
    "SC.C13_parabola_rectangle_tangent",
    "SC.C13_bilinear",
    "SC.C13_elasticplastic",
    "SC.C13_elasticplastic_violated",
    "SC.C13_userdefined_uniform",
    "SC.C13_userdefined"
   ],
   "note": "Marin pieces equal the law for all laws with bounded strain ranges; an elastic-plastic law without ultimate strain is cut at twice the yield strain (_violated)."
  },
  {
   "property": "C14",
   "status": "partial",
   "theorems": [
    "SC.C14_shift",
    "SC.C14_marin_partial",
    "SC.C14_incompatible_stress",
    "SC.C14_incompatible_marin_violated",
    "SC.C14_ranges_violated",
    "SC.C14_shifted_ranges"
   ],
   "note": "Marin coefficients proved where strains are compatible; the incompatible-strain Marin path and the unshifted strain ranges violate the property (witnesses)."
  },
  {
   "property": "C15",
   "status": "proved",
   "theorems": [
    "SC.C15_loop_stops",
    "SC.C15_stops",
    "SC.C15_initial_stress",
    "SC.C15_initial_strain",
    "SC.C15_compat",
    "SC.C15_none",
    "SC.C15_both_rejected",
    "SC.C15_unattainable",
    "SC.C15_one_step",
    "SC.C15_elastic",
    "SC.C15_steel_rejected",
    "SC.C15_steel_elastic",
    "SC.C15_steel_hardening"
   ],
   "note": ""
  },
  {
   "property": "C16",
   "status": "partial",
   "theorems": [
    "SC.C16_constructor",
    "SC.C16_sum",
    "SC.C16_ultimate",
    "SC.C16_marin_partial",
    "SC.C16_marin_tangent_partial",
    "SC.C16_no_mutation",
    "SC.C16_marin_instance",
    "SC.C16_unbounded_violated",
    "SC.C16_marin_uniform_partial",
    "SC.C16_uniform_violated",
    "SC.C16_array_partial",
    "SC.C16_array_violated"
   ],
   "note": "Sum/ultimate/constructor proved in general. Marin pieces proved where all component ranges cover the strains; an unbounded component is lost outside the other ranges, and uniform/array edge cases violate the property (witnesses)."
  },
  {
   "property": "C17",
   "status": "partial",
   "theorems": [
    "SC.C17_chord",
    "SC.C17_at_limits",
    "SC.C17_outside",
    "SC.C17_bounded",
    "SC.C17_odd_partial",
    "SC.C17_odd_violated",
    "SC.C17_flag"
   ],
   "note": "The mirrored law is odd iff the first abscissa is 0; witness for the violation."
  },
  {
   "property": "C18",
   "status": "proved",
   "theorems": [
    "SC.C18_forces",
    "SC.C18_stiffness",
    "SC.C18_unknown",
    "SC.C18_order_forces",
    "SC.C18_order_stiffness",
    "SC.C18_grouping",
    "SC.C18_additive",
    "SC.C18_symmetric",
    "SC.C18_psd",
    "SC.C18_posdef"
   ],
   "note": ""
  },
  {
   "property": "C19",
   "status": "proved",
   "theorems": [
    "SC.C19_jacobian"
   ],
   "note": ""
  },
  {
   "property": "C20",
   "status": "partial",
   "theorems": [
    "SC.C20_forces_partial",
    "SC.C20_stiffness_partial",
    "SC.C20_first_call",
    "SC.C20_data_unrotated",
    "SC.C20_agree_partial",
    "SC.C20_ragged_violated",
    "SC.C20_unknown",
    "SC.C20_shared_strain_violated"
   ],
   "note": "Proved for sections of bars (point geometries) with any groups, any strain plane and call history; a section with bar groups of different sizes raises in the Marin integrator, and next to a snapping surface law a uniform strain is altered for the bars (_violated witnesses)."
  },
  {
   "property": "C21",
   "status": "proved",
   "theorems": [
    "SC.C21_forces",
    "SC.C21_stiffness"
   ],
   "note": ""
  },
  {
   "property": "C22",
   "status": "proved",
   "theorems": [
    "SC.C22_balanced",
    "SC.C22_raises_iff",
    "SC.C22_single_layer_raises"
   ],
   "note": ""
  },
  {
   "property": "C23",
   "status": "partial",
   "theorems": [
    "SC.C23_fixed_curvature_partial",
    "SC.C23_monotone_partial",
    "SC.C23_fixed_curvature_violated",
    "SC.C23_no_bracket_violated",
    "SC.C23_almost_all_partial",
    "SC.C23_monotone_almost_all"
   ],
   "note": "The returned plane balances n within the tolerance unless the bisection hits an exact equilibrium midpoint (then the returned midpoint is off: _violated witness for every linear section) or no bracket was found (second _violated witness). Monotone Lipschitz responses covered. C23_almost_all_partial: for every response N the requested loads for which a midpoint is exactly balanced are countable, so every other load is balanced or falls in the no-bracket case."
  },
  {
   "property": "C24",
   "status": "partial",
   "theorems": [
    "SC.C24_pivot",
    "SC.C24_equilibrium_partial",
    "SC.C24_violated",
    "SC.C24_almost_all_partial"
   ],
   "note": "The pivot fibre keeps its limit strain for every response; equilibrium within 1e-2 proved when the residuals bracket and no dyadic plane is exactly balanced; violated otherwise (witness: linear prism, error > 400). C24_almost_all_partial: the same for all but countably many loads."
  },
  {
   "property": "C25",
   "status": "proved",
   "theorems": [
    "SC.C25_fixed_curvature_stops",
    "SC.C25_bracketing_stops",
    "SC.C25_fixed_pivot_stops",
    "SC.C25_calculator"
   ],
   "note": ""
  },
  {
   "property": "C26",
   "status": "proved",
   "theorems": [
    "SC.C26_stops",
    "SC.C26_contract",
    "SC.C26_newton",
    "SC.C26_linear",
    "SC.C26_last_iteration",
    "SC.C26_small_max_iter",
    "SC.C26_elastic_section"
   ],
   "note": "Termination, contract, Newton update, linear/elastic sections (whole method on the fiber integrator). lu_factor/lu_solve is a parameter with its specification as hypothesis."
  },
  {
   "property": "C27",
   "status": "partial",
   "theorems": [
    "SC.C27_history_partial",
    "SC.C27_rejected_load",
    "SC.C27_marin_partial",
    "SC.C27_fiber_partial",
    "SC.C27_exception_violated",
    "SC.C27_mesh_size_violated"
   ],
   "note": "Proved for all histories in which no rotating call raised after its axial-load check, with default mesh_size (any mesh_size for Marin). Violated by exceptions between the rotations and by mesh_size not passed on (witnesses)."
  },
  {
   "property": "C28",
   "status": "proved",
   "theorems": [
    "SC.C28_limits_constant",
    "SC.C28_gate_rejects",
    "SC.C28_gate_accepts",
    "SC.C28_no_limits"
   ],
   "note": "For every engine, state and history."
  },
  {
   "property": "C29",
   "status": "partial",
   "theorems": [
    "SC.C29_set",
    "SC.C29_names",
    "SC.C29_module",
    "SC.C29_stable_partial",
    "SC.C29_last",
    "SC.C29_explicit_violated"
   ],
   "note": "Stable under every history that names no code; creating one material with an explicit code replaces the global one (_violated for every valid code)."
  },
  {
   "property": "C30",
   "status": "partial",
   "theorems": [
    "SC.C30_unknown",
    "SC.C30_registered_partial",
    "SC.C30_support",
    "SC.C30_case_violated"
   ],
   "note": "Complete for lower-case names; mixed-case spellings pass the lookup and then fail (_violated)."
  },
  {
   "property": "C31",
   "status": "proved",
   "theorems": [
    "SC.C31_history_independent"
   ],
   "note": ""
  },
  {
   "property": "C32",
   "status": "partial",
   "theorems": [
    "SC.C32_count",
    "SC.C32_count_one",
    "SC.C32_number",
    "SC.C32_both",
    "SC.C32_spacing",
    "SC.C32_rejects",
    "SC.C32_single_violated",
    "SC.C32_coincident_violated"
   ],
   "note": "Positions proved for n >= 2 or spacing given; n = 1 without spacing and coincident end points place bars at nan (_violated)."
  },
  {
   "property": "C33",
   "status": "partial",
   "theorems": [
    "SC.C33_arc_number",
    "SC.C33_whole_number",
    "SC.C33_both",
    "SC.C33_spacing_partial",
    "SC.C33_spacing_violated",
    "SC.C33_rejects",
    "SC.C33_single_violated",
    "SC.C33_tiny_violated"
   ],
   "note": "All combinations of n, s and arcs; the whole circle with a dividing spacing doubles one bar, n = 1 raises, and tiny radii count as whole circles (_violated)."
  },
  {
   "property": "C34",
   "status": "partial",
   "theorems": [
    "SC.C34_flatten",
    "SC.C34_assoc",
    "SC.C34_bar_area",
    "SC.C34_area",
    "SC.C34_extents",
    "SC.C34_bars_only_violated"
   ],
   "note": "Complete for geometries with surfaces; bars do not count in the extents (_violated: bars only)."
  },
  {
   "property": "C35",
   "status": "partial",
   "theorems": [
    "SC.C35_mirror",
    "SC.C35_move_content",
    "SC.C35_translate",
    "SC.C35_rotate",
    "SC.C35_rotate_point",
    "SC.C35_mirror_twice",
    "SC.C35_area",
    "SC.C35_mirror_rejects",
    "SC.C35_mirror_degenerate_violated"
   ],
   "note": "Complete for proper axes; a degenerate mirror axis is accepted (_violated)."
  },
  {
   "property": "C36",
   "status": "partial",
   "theorems": [
    "SC.C36_on_line",
    "SC.C36_span_partial",
    "SC.C36_vertical_violated"
   ],
   "note": "Complete except within 1e-8 of vertical, where the segment can end inside a box higher than wide (_violated)."
  },
  {
   "property": "C37",
   "status": "partial",
   "theorems": [
    "SC.C37_flag_partial",
    "SC.C37_move_partial",
    "SC.C37_multipolygon",
    "SC.C37_multipolygon_violated",
    "SC.C37_multipolygon_moved",
    "SC.C37_sub_partial",
    "SC.C37_sub_violated",
    "SC.C37_compound_sub"
   ],
   "note": "Flag complete for compounds built from lists and moved; MultiPolygon compounds lack the attribute and subtraction drops a user-set flag (_violated)."
  },
  {
   "property": "C38",
   "status": "partial",
   "theorems": [
    "SC.C38_count",
    "SC.C38_rejects",
    "SC.C38_bounds_partial",
    "SC.C38_violated",
    "SC.C38_domain_count",
    "SC.C38_nmm_labels_violated",
    "SC.C38_num"
   ],
   "note": "Counts, labels and rejection for all sections; strain bounds for sections whose yield strains are ordered within the ultimate ones, false otherwise (C38_violated); field numbers of the N-My-Mz domain are those of the last angle only (_violated)."
  },
  {
   "property": "C39",
   "status": "partial",
   "theorems": [
    "SC.C39_plastic_partial",
    "SC.C39_elastic_partial",
    "SC.C39_beyond_ultimate_violated",
    "SC.C39_single_violated",
    "SC.C39_no_post_violated"
   ],
   "note": "Grid proved for all admissible numbers; runs past the ultimate curvature when that is below yield, and misses yield/ultimate for num_pre_yield = 1 or num_post_yield = 0 (_violated)."
  },
  {
   "property": "C40",
   "status": "partial",
   "theorems": [
    "SC.EC2_2004.C40_sign",
    "SC.EC2_2004.C40_strengths",
    "SC.EC2_2004.C40_fcd",
    "SC.EC2_2004.C40_eps_c1_le_eps_cu1",
    "SC.EC2_2004.C40_eps_c3_le_eps_cu3",
    "SC.EC2_2004.C40_eps_c2_le_eps_cu2_partial",
    "SC.EC2_2004.C40_C90_violated",
    "SC.EC2_2004.C40_monotone",
    "SC.EC2_2004.C40_antitone",
    "SC.EC2_2004.C40_fctm_partial",
    "SC.EC2_2004.C40_fctm_violated",
    "SC.EC2_2004.C40_continuous_partial",
    "SC.EC2_2004.C40_jump_violated",
    "SC.EC2_2004.C40_beta_cc",
    "SC.EC2_2004.C40_beta_ct_array",
    "SC.EC2_2004.C40_beta_ct",
    "SC.EC2_2004.C40_Ecm_time",
    "SC.EC2_2004.C40_cement",
    "SC.EC2_2004.C40_cement_none",
    "SC.EC2_2004.C40_steel",
    "SC.EC2_2004.C40_epsud_violated"
   ],
   "note": "Every function of section 3 (concrete and steel) modelled; violated: eps_c2 > eps_cu2 at C90, fctm falls at 50 MPa, jumps at 50, negative gamma_eps accepted."
  },
  {
   "property": "C41",
   "status": "partial",
   "theorems": [
    "SC.EC2_2004.C41_beta_ds",
    "SC.EC2_2004.C41_arrays",
    "SC.EC2_2004.C41_k_h",
    "SC.EC2_2004.C41_beta_RH",
    "SC.EC2_2004.C41_beta_as",
    "SC.EC2_2004.C41_shrinkage",
    "SC.EC2_2004.C41_beta_c",
    "SC.EC2_2004.C41_alpha",
    "SC.EC2_2004.C41_continuous",
    "SC.EC2_2004.C41_phiRH",
    "SC.EC2_2004.C41_creep",
    "SC.EC2_2004.C41_t0_adj",
    "SC.EC2_2004.C41_t_T",
    "SC.EC2_2004.C41_cement_shrinkage",
    "SC.EC2_2004.C41_cement_creep",
    "SC.EC2_2004.C41_cement_violated"
   ],
   "note": "Creep and shrinkage complete, scalar and array; the two functions accept different cement spellings (_violated)."
  },
  {
   "property": "C42",
   "status": "partial",
   "theorems": [
    "SC.EC2_2004.C42_k",
    "SC.EC2_2004.C42_rho",
    "SC.EC2_2004.C42_VRdc",
    "SC.EC2_2004.C42_CRdc_zero_violated",
    "SC.EC2_2004.C42_alpha_cw",
    "SC.EC2_2004.C42_theta_partial",
    "SC.EC2_2004.C42_theta_violated",
    "SC.EC2_2004.C42_required",
    "SC.EC2_2004.C42_VRds_flatter",
    "SC.EC2_2004.C42_VRdmax_45",
    "SC.EC2_2004.C42_Asw_max",
    "SC.EC2_2004.C42_v",
    "SC.EC2_2004.C42_v_range",
    "SC.EC2_2004.C42_v_violated",
    "SC.EC2_2004.C42_prin_stress"
   ],
   "note": "Shear complete; violated: an explicit CRdc = 0 is replaced, cot(theta) limits apply after rounding, v negative beyond 250 MPa."
  },
  {
   "property": "C43",
   "status": "partial",
   "theorems": [
    "SC.EC2_2004.C43_w_max",
    "SC.EC2_2004.C43_k",
    "SC.EC2_2004.C43_kc_rect",
    "SC.EC2_2004.C43_kc_flanges_partial",
    "SC.EC2_2004.C43_kc_flanges_violated",
    "SC.EC2_2004.C43_hc_eff",
    "SC.EC2_2004.C43_As_min",
    "SC.EC2_2004.C43_As_min_chain",
    "SC.EC2_2004.C43_As_min_error",
    "SC.EC2_2004.C43_As_min_violated",
    "SC.EC2_2004.C43_xi1",
    "SC.EC2_2004.C43_As_min_p_partial",
    "SC.EC2_2004.C43_As_min_p_violated",
    "SC.EC2_2004.C43_As_min_2",
    "SC.EC2_2004.C43_eps",
    "SC.EC2_2004.C43_factors",
    "SC.EC2_2004.C43_sr_max",
    "SC.EC2_2004.C43_sr_max_far",
    "SC.EC2_2004.C43_sr_max_theta_partial",
    "SC.EC2_2004.C43_sr_max_theta_violated",
    "SC.EC2_2004.C43_phi_eq",
    "SC.EC2_2004.C43_wk",
    "SC.EC2_2004.C43_wk_error",
    "SC.EC2_2004.C43_kinds",
    "SC.EC2_2004.C43_sustained",
    "SC.EC2_2004.C43_rho_p_eff",
    "SC.EC2_2004.C43_tables"
   ],
   "note": "Crack control complete; violated: documented ValueErrors missing (kc_flanges, sr_max_theta), sigma_s = 0 divides by zero, As_min_p can be negative."
  },
  {
   "property": "C44",
   "status": "partial",
   "theorems": [
    "SC.EC2_2023.C44_strengths",
    "SC.EC2_2023.C44_fctm_partial",
    "SC.EC2_2023.C44_fctm_violated",
    "SC.EC2_2023.C44_Ecm",
    "SC.EC2_2023.C44_eta_cc",
    "SC.EC2_2023.C44_k_tc",
    "SC.EC2_2023.C44_fcd",
    "SC.EC2_2023.C44_fctd",
    "SC.EC2_2023.C44_strains",
    "SC.EC2_2023.C44_eps_cu1_partial",
    "SC.EC2_2023.C44_eps_cu1_violated",
    "SC.EC2_2023.C44_A_phi",
    "SC.EC2_2023.C44_phi_50y",
    "SC.EC2_2023.C44_eps_cs",
    "SC.EC2_2023.C44_sigma_s",
    "SC.EC2_2023.C44_sigma_s_violated",
    "SC.EC2_2023.C44_sigma_p",
    "SC.EC2_2023.C44_design",
    "SC.EC2_2023.C44_p_steel",
    "SC.EC2_2023.C44_p_steel_names",
    "SC.EC2_2023.C44_Y1560_violated",
    "SC.EC2_2023.C44_thermal_violated",
    "SC.EC2_2023.C44_ductility",
    "SC.EC2_2023.C44_Ec_eff",
    "SC.EC2_2023.C44_As_min_y",
    "SC.EC2_2023.C44_wk",
    "SC.EC2_2023.C44_delta"
   ],
   "note": "Sections 5, 9 and annex B complete; violated: fctm falls at 50, eps_cu1 rises beyond fcm = 108, k < 1 accepted, Y1560 missing from the tables, thermal coefficients ten times too large."
  },
  {
   "property": "C45",
   "status": "partial",
   "theorems": [
    "SC.MC2010.C45_strengths",
    "SC.MC2010.C45_sign",
    "SC.MC2010.C45_fctm_partial",
    "SC.MC2010.C45_fctm_violated",
    "SC.MC2010.C45_fcd",
    "SC.MC2010.C45_Eci",
    "SC.MC2010.C45_beta_cc",
    "SC.MC2010.C45_beta_cc_class",
    "SC.MC2010.C45_strains_partial",
    "SC.MC2010.C45_C90_violated",
    "SC.MC2010.C45_strains_monotone",
    "SC.MC2010.C45_table_range",
    "SC.MC2010.C45_table_sign",
    "SC.MC2010.C45_table_order",
    "SC.MC2010.C45_table_monotone",
    "SC.MC2010.C45_table_nodes",
    "SC.MC2010.C45_steel",
    "SC.MC2010.C45_ductility",
    "SC.MC2010.C45_t0_adj",
    "SC.MC2010.C45_t0_adj_order",
    "SC.MC2010.C45_t_T",
    "SC.MC2010.C45_beta_ds",
    "SC.MC2010.C45_beta_RH",
    "SC.MC2010.C45_beta_s1",
    "SC.MC2010.C45_shrinkage",
    "SC.MC2010.C45_autogenous",
    "SC.MC2010.C45_basic_creep",
    "SC.MC2010.C45_drying_creep",
    "SC.MC2010.C45_phi",
    "SC.MC2010.C45_calc_J",
    "SC.MC2010.C45_cement_spelling_violated"
   ],
   "note": "Materials, creep and shrinkage complete; violated: fctm falls at 50, eps_c2 > eps_cu2 at C90, cement spellings differ between functions."
  },
  {
   "property": "C46",
   "status": "partial",
   "theorems": [
    "SC.MC2010.C46_b_s",
    "SC.MC2010.C46_m_ed",
    "SC.MC2010.C46_r_s",
    "SC.MC2010.C46_psi",
    "SC.MC2010.C46_psi_order",
    "SC.MC2010.C46_k_psi",
    "SC.MC2010.C46_punching",
    "SC.MC2010.C46_punching_steel",
    "SC.MC2010.C46_bond_values",
    "SC.MC2010.C46_bond_points",
    "SC.MC2010.C46_s_3",
    "SC.MC2010.C46_K_tr",
    "SC.MC2010.C46_tau_bu_split",
    "SC.MC2010.C46_s_tau",
    "SC.MC2010.C46_anchorage",
    "SC.MC2010.C46_nuFc",
    "SC.MC2010.C46_interface",
    "SC.MC2010.C46_demand",
    "SC.MC2010.C46_epsilon_x",
    "SC.MC2010.C46_eta_fc",
    "SC.MC2010.C46_v_rd_max1",
    "SC.MC2010.C46_v_rd_max2",
    "SC.MC2010.C46_v_rd_max3_partial",
    "SC.MC2010.C46_v_rd_max3_violated",
    "SC.MC2010.C46_v_rdc1",
    "SC.MC2010.C46_v_rdc2",
    "SC.MC2010.C46_v_rdc3_partial",
    "SC.MC2010.C46_v_rdc3_violated",
    "SC.MC2010.C46_v_rds",
    "SC.MC2010.C46_dispatch",
    "SC.MC2010.C46_missing",
    "SC.MC2010.C46_v_rd_le",
    "SC.MC2010.C46_gamma_s_violated",
    "SC.MC2010.C46_gamma_s_twice_violated",
    "SC.MC2010.C46_v_rd_ct",
    "SC.MC2010.C46_torsion_dispatch_violated",
    "SC.MC2010.C46_t_rd_max",
    "SC.MC2010.C46_t_rd"
   ],
   "note": "Shear, punching, torsion, interfaces complete; violated: level 3 crushing resistance negative between 0.7 and 1.6 per cent, sign of the shear force matters, gamma_s ignored or applied twice, UnboundLocalError for unknown torsion levels."
  },
  {
   "property": "C47",
   "status": "partial",
   "theorems": [
    "SC.C47_rejects",
    "SC.C47_values_ec2_2004",
    "SC.C47_values_mc2010",
    "SC.C47_values_ec2_2023",
    "SC.C47_law_ec2_2004",
    "SC.C47_law_mc2010",
    "SC.C47_law_ec2_2023",
    "SC.C47_accepts",
    "SC.C47_accepts_2023",
    "SC.C47_existing_violated",
    "SC.C47_roundtrip_violated",
    "SC.C47_law_object",
    "SC.C47_fctd_ec2_2023"
   ],
   "note": "Values, law and acceptance proved for the three concretes; the clause \"existing=True is rejected\" is false (C47_existing_violated) and a value read from an MC2010 concrete cannot be passed back unchanged (C47_roundtrip_violated). Warnings are not modelled."
  },
  {
   "property": "C48",
   "status": "partial",
   "theorems": [
    "SC.C48_law_object",
    "SC.C48_epsyk",
    "SC.C48_design",
    "SC.C48_accepts",
    "SC.C48_accepts_perfect",
    "SC.C48_law",
    "SC.C48_curve",
    "SC.C48_perfect",
    "SC.C48_brittle_violated",
    "SC.C48_setter_violated"
   ],
   "note": "Design points proved for every accepted steel whose design yield strain is below the ultimate one by more than the tolerance; outside that range the claim is false (C48_brittle_violated), and the epsuk setter leaves the law stale (C48_setter_violated)."
  },
  {
   "property": "C49",
   "status": "proved",
   "theorems": [
    "SC.C49_triangle",
    "SC.C49_elastic",
    "SC.C49_mesh_size",
    "SC.C49_cache_transparent"
   ],
   "note": ""
  },
  {
   "property": "C50",
   "status": "partial",
   "theorems": [
    "SC.C50_forces_partial",
    "SC.C50_stiffness_partial",
    "SC.C50_concrete_section_partial",
    "SC.C50_bilinear_good",
    "SC.C50_elasticplastic_good",
    "SC.C50_userdefined_good",
    "SC.C50_collection_violated"
   ],
   "note": "Proved for bar groups of equal sizes and strains clear of numpy's tolerance at the ultimate strains, with the clipper's exactness as hypothesis (met by a concrete rectangle clipper). A strip that shapely returns as GeometryCollection is dropped (_violated witness)."
  },
  {
   "property": "C51",
   "status": "partial",
   "theorems": [
    "SC.C51_admissible_partial",
    "SC.C51_violated"
   ],
   "note": "Proved when no part is weaker than the governing parts; violated for a brittle bar near the pivot (witness)."
  },
  {
   "property": "C53",
   "status": "proved",
   "theorems": [
    "SC.C53_bending",
    "SC.C53_neutral_axis",
    "SC.C53_moment_curvature"
   ],
   "note": "For integrators that return the fibre resultants: fiber integrator on any section; Marin integrator on bar sections with equal groups."
  },
  {
   "property": "C54",
   "status": "partial",
   "theorems": [
    "SC.C54_concrete_partial",
    "SC.C54_reinforcement_partial",
    "SC.C54_mc2020_violated"
   ],
   "note": "Complete for the three implemented codes; with mc2020 the factories return None (_violated)."
  },
  {
   "property": "C55",
   "status": "partial",
   "theorems": [
    "SC.C55_bars_partial",
    "SC.C55_surfaces_violated"
   ],
   "note": "Bars keep name and label; surfaces lose both by every motion (_violated)."
  },
  {
   "property": "C56",
   "status": "proved",
   "theorems": [
    "SC.C56_rectangle",
    "SC.C56_rejects",
    "SC.C56_nearest",
    "SC.C56_circle",
    "SC.C56_rounding"
   ],
   "note": ""
  },
  {
   "property": "C58",
   "status": "proved",
   "theorems": [
    "SC.C58_sweep"
   ],
   "note": ""
  },
  {
   "property": "C59",
   "status": "proved",
   "theorems": [
    "SC.C59_elastic",
    "SC.C59_from_material",
    "SC.C59_from_material_idem",
    "SC.C59_from_steel",
    "SC.C59_elasticplastic",
    "SC.C59_generic"
   ],
   "note": ""
  },
  {
   "property": "C52",
   "status": "partial",
   "theorems": [
    "SC.C52_marin",
    "SC.C52_centroid",
    "SC.C52_principal_partial",
    "SC.C52_theta_violated",
    "SC.C52_multipolygon_violated",
    "SC.C52_modulus_violated",
    "SC.C52_prestress_modulus",
    "SC.C52_fiber"
   ],
   "note": "C52_marin (default integrator) and C52_fiber give every reported quantity; C52_centroid, C52_principal_partial: parallel axes and extreme moments. Violations: sections in several pieces raise AttributeError, zero initial stiffness (e.g. steel prestressed beyond yield) raises ValueError, theta loses its sign. shapely union, eig and the mesher are parameters."
  },
  {
   "property": "C60",
   "status": "partial",
   "theorems": [
    "SC.C60_neutral_axis",
    "SC.C60_reads_partial",
    "SC.C60_theta_violated",
    "SC.C60_plastic_modulus",
    "SC.C60_plastic_modulus_z",
    "SC.C60_principal_partial",
    "SC.C60_shape_factor"
   ],
   "note": "Every read of every property in any order is the region's value, except that theta raises AttributeError until Icsi or Ieta was read (C60_theta_violated) and is determined only up to sign. shapely split/intersects (SplitsWell) and eig are parameters; exceptions inside the search (which would leave a wrong cache) do not occur for such shapes."
  },
  {
   "property": "C61",
   "status": "partial",
   "theorems": [
    "SC.C61_history",
    "SC.C61_numbers",
    "SC.C61_number_violated",
    "SC.C61_dimensions"
   ],
   "note": "Full for all names and histories (C61_history), all listed dimensions (C61_dimensions). Violated for numbers: IPE(80.9) silently becomes IPE80 (C61_number_violated)."
  },
  {
   "property": "C62",
   "status": "partial",
   "theorems": [
    "SC.C62_box",
    "SC.C62_parts",
    "SC.C62_symmetric",
    "SC.C62_centroid",
    "SC.C62_area",
    "SC.C62_inertia",
    "SC.C62_profile",
    "SC.C62_channel"
   ],
   "note": "I sections: box, parts, symmetry, centroid, area, second moments, and with C60 the reported area and moduli; U sections with parallel flanges. Buffer discs are a parameter with IsDisc (proved for true discs and for regular polygons); rounding to the shapely grid is not modelled; tapered and angle sections: C69."
  },
  {
   "property": "C63",
   "status": "partial",
   "theorems": [
    "SC.C63_geometry_partial",
    "SC.C63_properties_partial",
    "SC.C63_centroid",
    "SC.C63_none",
    "SC.C63_pieces_violated",
    "SC.C63_plain_violated"
   ],
   "note": "Marin integrator, positive moduli, some reinforcement, no trial height exactly at the axis. Violated for plain concrete (ValueError), for remaining surfaces that do not form one polygon (AttributeError), and, for surfaces that are not concrete, tension below the axis is counted in equilibrium but removed from the geometry (C63_centroid). The fibre integrator is modelled, not proved."
  },
  {
   "property": "C64",
   "status": "partial",
   "theorems": [
    "SC.C64_split_ends",
    "SC.C64_split_partial",
    "SC.C64_area_partial",
    "SC.C64_strip",
    "SC.C64_two_lines_arguments",
    "SC.C64_vertical_violated"
   ],
   "note": "Angles not within 1e-8 of vertical, shapely's split/intersects/intersection assumed right (CutsWell, ClipsAt). Vertical lines given by point and angle may end inside the section: violated (C64_vertical_violated)."
  },
  {
   "property": "C65",
   "status": "partial",
   "theorems": [
    "SC.C65_nodes",
    "SC.C65_inscribed",
    "SC.C65_safe",
    "SC.C65_error",
    "SC.C65_sargin",
    "SC.C65_parabola_rectangle",
    "SC.C65_popovics",
    "SC.C65_section_partial",
    "SC.C65_sargin_section_partial",
    "SC.C65_parabola_section_partial",
    "SC.C65_same_law_violated",
    "SC.C65_parallel_violated",
    "SC.C65_single_call",
    "SC.C65_tension",
    "SC.C65_tension_violated"
   ],
   "note": "Law and section level proved (strains clear of the ultimate strain, curvature); violated: the two integrators use different laws, and a Parallel law containing such a law raises TypeError; for a law written by a user with the usual ultimate strain 100 in tension, a tension branch shorter than 1/9999 is lost (C65_tension_violated; longer ones: C65_tension)."
  },
  {
   "property": "C57",
   "status": "partial",
   "theorems": [
    "SC.C57_surface",
    "SC.C57_forces",
    "SC.C57_converges",
    "SC.C57_parabola_slope",
    "SC.C57_bilinear_slope",
    "SC.C57_sargin_slope",
    "SC.C57_elasticplastic_slope",
    "SC.C57_agree",
    "SC.C57_boundary",
    "SC.C57_hole_point",
    "SC.C57_hole_point_violated"
   ],
   "note": "Holds for laws with bounded slope on the strains of the section (slopes given for parabola-rectangle, bilinear, Sargin, elastic-plastic) and a mesher that delivers what it is asked for. The hole points are inside the holes for convex holes only: C57_hole_point_violated is a U-shaped hole whose point lies in the material."
  },
  {
   "property": "C66",
   "status": "partial",
   "theorems": [
    "SC.C66_reinforced_concrete_partial",
    "SC.C66_limits_partial",
    "SC.C66_returns",
    "SC.C66_strength_partial"
   ],
   "note": "Admissibility needs the governing strains to respect the limits of all materials (otherwise C51's violation applies); equilibrium is shown for all but countably many axial loads between the two end planes (the search compares with ==, see C21); limit loads need the uniform limit strains not to lie within snapping distance of a limit of another law. Termination (C66_returns) is for bars with Lipschitz laws. Parts: parabola-rectangle with n = 2."
  },
  {
   "property": "C67",
   "status": "partial",
   "theorems": [
    "SC.C67_nm_partial",
    "SC.C67_nmm_partial",
    "SC.C67_mm_partial",
    "SC.C67_design_partial",
    "SC.C67_design_nmm_partial",
    "SC.C67_design_mm_partial"
   ],
   "note": "C67_nm/nmm/mm_partial: ordinary sections (hypothesis Ordinary: yield strains within ultimate ones, governing ordinate on top of the concrete, geometric spacing resolved; C38_violated shows the profiles may otherwise exceed limits) of parabola-rectangle concrete with n = 2, exact polygon clipper. C67_design*_partial: the hypotheses follow from the material constructors and the geometry (covered bars, lowest bar not exactly at 4/7 of the depth). Missing: the fiber integrator, other laws. My-Mz: conditions of C66/C73; the code reports the requested n, not the force of the plane."
  },
  {
   "property": "C68",
   "status": "proved",
   "theorems": [
    "SC.C68_fiber",
    "SC.C68_unique"
   ],
   "note": "Fibre integrator, any constitutive laws that are Lipschitz with the given slope bound; the Marin integrator is not covered here (C50 gives its forces)."
  },
  {
   "property": "C69",
   "status": "proved",
   "theorems": [
    "SC.C69_taperI",
    "SC.C69_taperU",
    "SC.C69_angle",
    "SC.C69_tables",
    "SC.C69_reports"
   ],
   "note": "offset_curve is a parameter with the contract Rounds (proved for sharp corners, every monotone line inside the corner and arcs of any number of chords); grid rounding is the identity."
  },
  {
   "property": "C70",
   "status": "partial",
   "theorems": [
    "SC.C70_zero_partial",
    "SC.C70_design_partial",
    "SC.C70_given_partial",
    "SC.C70_default_partial",
    "SC.C70_reinforced_concrete_partial",
    "SC.C70_concrete_default_partial"
   ],
   "note": "Marin integrator, given curvatures (zero included: C70_zero_partial) and default ones. Partial: a search that meets n exactly on its way (countably many n) or that is driven away by a failing material ends out of balance (violations: C23_fixed_curvature_violated, C23_no_bracket_violated)."
  },
  {
   "property": "C71",
   "status": "partial",
   "theorems": [
    "SC.C71_strength_partial",
    "SC.C71_curvature_partial",
    "SC.C71_limits",
    "SC.C71_returns"
   ],
   "note": "C71_limits and C71_returns are complete. Strength: admissibility needs the governing strains to respect the limits of all materials (C51's violation otherwise), equilibrium for all but countably many loads; after earlier calculations the result is only that of the requested mesh if mesh_size is the default (C27's violation). Diagram: as C70, default mesh size; the mesh error bound applies in planes within the limit strains."
  },
  {
   "property": "C72",
   "status": "partial",
   "theorems": [
    "SC.C72_domain_partial",
    "SC.C72_nmm_partial",
    "SC.C72_strength",
    "SC.C72_reinforced_concrete",
    "SC.C72_limits_partial",
    "SC.C72_limits_violated",
    "SC.C72_symmetric",
    "SC.C72_symmetric_vertical"
   ],
   "note": "The strength part (C72_strength, C72_reinforced_concrete, C72_symmetric) is complete for sections integrated exactly. Partial because the limit axial loads are invariant under shift and mirroring only: turning a section with two steels changes them (C72_limits_violated), so acceptance of n by both sections is a hypothesis. C72_domain_partial: the N-M domain for normal strength parabola-rectangle concrete and bars of one perfectly plastic steel (any motion, complete or half domain); example: the beam turned by any angle. C72_nmm_partial: the N-My-Mz domain of such a section shifted without rotation (bending about every computed angle); example: the beam shifted by (1000, 2000)."
  },
  {
   "property": "C73",
   "status": "partial",
   "theorems": [
    "SC.C73_violated",
    "SC.C73_concrete",
    "SC.C73_steel",
    "SC.C73_design_partial",
    "SC.C73_limits",
    "SC.C73_strength_partial"
   ],
   "note": "From the arguments of the constructors and the geometry alone. Missing: loads within 1e-13 times axial rigidity times depth of a limit load (about 1e-3 N for a beam), and the tolerance of 1e-2 for a countable set of loads; that the tolerance fails there is C73_violated: in every such section a load well inside the limits is answered, without error, by a state that carries the squash load (the bisection drops a midpoint in exact equilibrium)."
  },
  {
   "property": "C74",
   "status": "partial",
   "theorems": [
    "SC.C74_design_partial",
    "SC.C74_domain_partial",
    "SC.C74_strength",
    "SC.C74_load_partial",
    "SC.C74_curvature_partial",
    "SC.C74_default_partial",
    "SC.C74_design_domain_partial"
   ],
   "note": "C74_strength itself is complete for the sections of C73. Partial: the version at a given load (C74_load_partial, C74_design_partial) for the loads of C73; the diagram for axial forces outside the countable set of C70; the domain (C74_domain_partial, C74_design_domain_partial) for sections for which C67 is proved, one direction of bending (complete_domain = False)."
  },
  {
   "property": "C75",
   "status": "partial",
   "theorems": [
    "SC.C75_largest",
    "SC.C75_profile",
    "SC.C75_strength",
    "SC.C75_limits",
    "SC.C75_loads_partial"
   ],
   "note": "C75_strength, C75_limits, C75_largest and C75_profile are complete for the sections described (surfaces only, Marin integrator, common limit strain). Partial: in C75_loads_partial the result exists for every load below the squash load, but that its axial force is within 1e-2 of the load is proved outside a countable set of loads (where the bisection meets a force exactly) or when the balanced plane already carries the load."
  },
  {
   "property": "C76",
   "status": "partial",
   "theorems": [
    "SC.C76_gaps",
    "SC.C76_steel",
    "SC.C76_design_partial",
    "SC.C76_violated",
    "SC.C76_strength_partial"
   ],
   "note": "C76_violated: for every ordinary section with one hardening steel whose lowest bar carries a jump of more than 2e-2 there is a load between the limit loads for which the calculation raises (the example shows it for every class of concrete and steel with B500). C76_strength_partial, C76_gaps and C76_design_partial: what holds otherwise, with a bound on the total length of the loads without a result. Missing: loads within 1e-13 times axial rigidity times depth of a limit load."
  },
  {
   "property": "C77",
   "status": "partial",
   "theorems": [
    "SC.C77_rectangular_partial"
   ],
   "note": "Closed form with error bounds from the arguments of the constructors. Missing: the countable set of loads inherited from C73, and sections for which the axial rigidity times the depth times 1e-12 exceeds the smallest compression force of the range (far beyond sizes in mm and N)."
  },
  {
   "property": "C78",
   "status": "partial",
   "theorems": [
    "SC.C78_end_violated",
    "SC.C78_repeats_violated",
    "SC.DiagramBeam.C78_beam_violated",
    "SC.C78_end_partial",
    "SC.DiagramBeam.C78_rupture_violated"
   ],
   "note": "The property is false of the code: C78_end_violated and C78_repeats_violated quantify over all rectangular beams of C77; C78_beam_violated and C78_rupture_violated are complete runs of two beams. What does hold (points in equilibrium and within the limit strains, all sections of C73) is C78_end_partial."
  },
  {
   "property": "C79",
   "status": "partial",
   "theorems": [
    "SC.C79_strength",
    "SC.C79_design_partial"
   ],
   "note": "C79_strength (two results, any axial forces) is complete for the sections of C73 with tension in the lowest layer. Partial: C79_design_partial adds that both results exist and have the given load, for the loads of C73 (all but countably many, and a margin of 1e-13 of the rigidity)."
  },
  {
   "property": "C80",
   "status": "partial",
   "theorems": [
    "SC.C80_design_partial",
    "SC.C80_largest",
    "SC.C80_agree",
    "SC.C80_strength_partial"
   ],
   "note": "Margin at the limit loads and countable set of loads as in C73; histories of calls before the strength only for the default mesh size.  The constant is a worst case bound: it proves convergence, not a sharp error for a given mesh."
  },
  {
   "property": "C81",
   "status": "partial",
   "theorems": [
    "SC.C81_design_partial",
    "SC.C81_load"
   ],
   "note": "C81_load (any two results, moments about the lowest and highest point ordered by the axial forces actually reached) is complete for the sections of C73. Partial: C81_design_partial adds that both results exist and have the given loads, for the loads of C73 (all but countably many, and a margin of 1e-13 of the rigidity)."
  },
  {
   "property": "C82",
   "status": "partial",
   "theorems": [
    "SC.C82_strength",
    "SC.C82_design_partial"
   ],
   "note": "C82_strength (two results, any axial forces) is complete for the sections of C73 with one layer of bars in tension in both results. Partial: C82_design_partial adds that both results exist, have the given load and tension in the bars, for the loads of C73 (all but countably many, and a margin of 1e-13 of the rigidity). With compression reinforcement the claim would be false, so it is limited to one layer."
  },
  {
   "property": "C83",
   "status": "partial",
   "theorems": [
    "SC.C83_close",
    "SC.C83_default",
    "SC.C83_refl",
    "SC.C83_mono",
    "SC.C83_symmetric_partial",
    "SC.C83_symmetric_violated",
    "SC.C83_units_violated",
    "SC.C83_other_violated"
   ],
   "note": "Meaning, reflexivity and monotonicity proved; symmetry only up to the factor 1/(1 - rtol) in the tolerances. Violated: symmetry with equal tolerances, independence of the units (absolute tolerance 1e-8), and other objects, for which the answer is NotImplemented, which counts as true. Values are reals (no nan)."
  },
  {
   "property": "C84",
   "status": "partial",
   "theorems": [
    "SC.C84_strength_partial",
    "SC.C84_concrete",
    "SC.C84_design_partial"
   ],
   "note": "From constructor arguments (C84_design_partial) or any law parameters (C84_strength_partial). Missing: loads within 1e-13 of the rigidity of a limit load, and equilibrium for a countable set of loads, as in C73. The error is a worst case bound, a tenth of the largest stress step of the diagram."
  },
  {
   "property": "C85",
   "status": "partial",
   "theorems": [
    "SC.C85_concrete",
    "SC.C85_accepts",
    "SC.C85_design_partial",
    "SC.C85_strength_partial"
   ],
   "note": "From constructor arguments (C85_design_partial) or any law parameters (C85_strength_partial). Missing: loads within 1e-13 of the rigidity of a limit load, and equilibrium for a countable set of loads, as in C73. EC2 2023 concrete has no such law."
  },
  {
   "property": "C86",
   "status": "partial",
   "theorems": [
    "SC.C86_popovics_partial",
    "SC.C86_concrete_codes",
    "SC.C86_codes_design_partial",
    "SC.C86_accepts_codes",
    "SC.C86_refused_mc2010",
    "SC.C86_concrete",
    "SC.C86_accepts",
    "SC.C86_design_partial",
    "SC.C86_sargin_partial",
    "SC.C86_limit_violated"
   ],
   "note": "C86_sargin_partial / C86_popovics_partial for any parameters; from constructor arguments for all three codes with default values (C86_codes_design_partial: EC2 2004 to C90, Model Code to C120, EC2 2023 to C100; the values are restated from the standards' tables in Spec/Design). C86_accepts_codes: accepted exactly for consistent arguments; C86_refused_mc2010. C86_limit_violated: calculate_limit_axial_load takes the force at the ultimate strain, where the concrete has softened, so a load the section carries at the peak strain is refused. Missing: that the returned state has the largest moment (false for softening laws), loads within 1e-13 of the rigidity of a limit load, and equilibrium for a countable set of loads."
  },
  {
   "property": "C87",
   "status": "partial",
   "theorems": [
    "SC.C87_bilinear_partial",
    "SC.C87_pieces_partial",
    "SC.C87_default_partial"
   ],
   "note": "Every axial force and curvature, zero included. Partial: the two remaining cases of DiagramPoint.balance: a search driven away by a failing material, and a search that meets the force exactly on its way, shown not to happen in a broken state when bars and concrete are Tied, and for default curvatures only for countably many forces."
  },
  {
   "property": "C88",
   "status": "partial",
   "theorems": [
    "SC.C88_bilinear_partial",
    "SC.C88_bilinear_nmm_partial",
    "SC.C88_pieces_partial",
    "SC.C88_pieces_nmm_partial",
    "SC.C88_bilinear_design_partial",
    "SC.C88_sargin_design_partial",
    "SC.C88_limit_violated",
    "SC.C88_high_strength_design_partial",
    "SC.C88_sargin_codes_design_partial"
   ],
   "note": "Bilinear law exactly, pieces laws up to the stated error, from the constructors: C88_bilinear_design_partial up to 90 MPa, C88_sargin_codes_design_partial C12 to C80 in all three codes, C88_high_strength_design_partial (parabola-rectangle above C50 up to 89 MPa). The last sentence is false: C88_limit_violated gives a beam with Sargin's law whose domain ends a meganewton beyond the limit axial load, where the strength is refused. Partial: bars of one steel with rupture strain from the crushing strain to 0.09, the lowest bar not exactly at the pivot of the compressive strains, Marin integrator."
  },
  {
   "property": "C89",
   "status": "partial",
   "theorems": [
    "SC.C89_accepts",
    "SC.C89_tendon",
    "SC.C89_design_partial",
    "SC.C89_high_design_partial",
    "SC.C89_bilinear_design_partial",
    "SC.C89_sargin_design_partial"
   ],
   "note": "Tendons: C89_accepts, C89_tendon in full. Sections from the constructors: C89_design_partial (parabola-rectangle up to C50, with the maximality of the moment), C89_high_design_partial (above C50 to C89), C89_bilinear_design_partial, C89_sargin_design_partial (the last two as C85 and C86: the Sargin answer is compared with its design diagram up to the stated error, and has no maximality because the law softens). Partial: all bars of one steel; the load is met for all loads but a countable set, answers are shown inside the range by 1e-13 of the rigidity; tendons keep at least 0.0001 of elongation and at most 0.09, and reach the crushing strain; Marin integrator."
  },
  {
   "property": "C90",
   "status": "partial",
   "theorems": [
    "SC.C90_domain_partial",
    "SC.C90_nmm_partial",
    "SC.C90_limits",
    "SC.C90_strength",
    "SC.C90_load_partial",
    "SC.C90_marin",
    "SC.C90_design_partial",
    "SC.C90_gross"
   ],
   "note": "C90_marin, C90_gross, C90_limits in full; C90_strength in full (any two answers: moments scaled up to the farthest distance times the difference of the axial forces of the answers). C90_load_partial and C90_design_partial (material constructors, unchanged materials): both calculations answer with that accuracy for all loads between the limits but a countable set and the margin next to the limits inherited from C73. Ordinary reinforced concrete (parabola-rectangle law up to C50, steel of one limit strain), the depth of both sections between 1e-3 and 1e9. `shapely` is assumed to cut both the section and the scaled section correctly. Principal axes of the gross properties are not covered (eigenvalue routine external). Example: the C30 beam at twice the size has eight times the strength. C90_domain_partial, C90_nmm_partial: the points of the N-M and N-My-Mz domains scale exactly (no tolerance), for any scaling of lengths and stresses, for normal strength parabola-rectangle concrete and bars of one perfectly plastic steel; example: 68 points of the beam of twice the size."
  },
  {
   "property": "C91",
   "status": "partial",
   "theorems": [
    "SC.C91_points",
    "SC.C91_design_partial",
    "SC.C91_nmm_partial",
    "SC.C91_mm_partial"
   ],
   "note": "C91_points in full (any laws, any profiles: one point per profile, error of C57). C91_design_partial, C91_nmm_partial: normal strength parabola-rectangle concrete and bars of one perfectly plastic steel, existence of the domain included; a call history before the domain only for the default mesh size (the mesh is kept between calls). calculate_nmm always uses the default mesh size, which is what is proved. Example: 68 points of the beam, for every mesh of squares. C91_mm_partial: the My-Mz domain under the hypotheses of C80_strength_partial, default mesh size; example: pure bending of the beam in two directions."
  },
  {
   "property": "C92",
   "status": "partial",
   "theorems": [
    "SC.C92_tension",
    "SC.C92_meshes",
    "SC.C92_load",
    "SC.C92_bars",
    "SC.C92_concrete",
    "SC.C92_design_partial"
   ],
   "note": "C92_meshes, C92_load, C92_bars, C92_concrete and C92_tension hold for every two results of the fibre integrator for an ordinary section (MeshedBeam), without an assumption on the meshes beyond the requested area and angle. C92_design_partial adds that the sections of the three codes with normal strength concrete are such sections and that results exist; the latter is limited, as in C73, to loads between the limit loads less a margin and outside a countable set, where calculate_bending_strength really may raise."
  },
  {
   "property": "C93",
   "status": "partial",
   "theorems": [
    "SC.C93_moved",
    "SC.C93_scaled",
    "SC.C93_design_partial",
    "SC.C93_domain_partial",
    "SC.C93_scaled_design_partial"
   ],
   "note": "C93_moved and C93_scaled hold for every two results of the fibre integrator for an ordinary section (MeshedBeam) and the moved or scaled one. C93_design_partial adds, for motions, that both results exist for the loads of C73 (all but countably many, less a margin at the limit loads). C93_domain_partial: the N-M domain (existence included) under the hypotheses of C91_design_partial. Examples: the beam shifted by (1000, 2000), for every mesh of squares, strengths and 68 points of the domain. C93_scaled_design_partial: the same for the section with all lengths scaled, under the scaled load. Example: the beam and the beam of twice the size, for every mesh of squares. Turned sections need a bar below a corner also in the new upright position, because the limit loads are found there."
  }
 ]
}