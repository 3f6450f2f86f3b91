{
 "claims": [
  {
   "property": "C01",
   "status": "proved",
   "theorems": [
    "gets_last_write",
    "gets_other_unchanged",
    "gets_fatal_iff"
   ],
   "note": ""
  },
  {
   "property": "C02",
   "status": "partial",
   "theorems": [
    "gets_def_spec",
    "geti_def_spec",
    "atoi_fmtInt",
    "getd_def_partial",
    "getd_def_false",
    "atof_fmtE",
    "read_back"
   ],
   "note": "Strings and integers: in full. Doubles: par_getd_def returns its default but stores 16 digits of it, so the claim is false for defaults that need 17 (getd_def_false, e.g. 0.1+0.2); proved for zero, defaults with at most 16 decimal digits, and doubles nearest to a decimal of at most 15 digits that are not powers of two. Overflow, underflow, infinities and NaN are not modelled."
  },
  {
   "property": "C03",
   "status": "proved",
   "theorems": [
    "names_unique",
    "names_unique_run"
   ],
   "note": ""
  },
  {
   "property": "C04",
   "status": "partial",
   "theorems": [
    "dump_open_partial",
    "dump0_open_partial",
    "reread_partial",
    "dump_open_false",
    "dump_open_par_end_false"
   ],
   "note": "The unrestricted statement is false (witnesses proved): an empty value with a comment is read back with the comment as value; a block named par_end ends the file. Proved for every database without those, whose lines fit MAXLEN."
  },
  {
   "property": "C05",
   "status": "proved",
   "theorems": [
    "cmdline_spec",
    "isAssign_unique"
   ],
   "note": ""
  },
  {
   "property": "C06",
   "status": "partial",
   "theorems": [
    "dist_partial",
    "dist_false",
    "dist_overflow"
   ],
   "note": "False in general (witnesses): same re-parsing problem as C04, and par_dist_mpi overflows its line buffer for long lines."
  },
  {
   "property": "C07",
   "status": "partial",
   "theorems": [
    "main_loop_new",
    "main_loop_restart_partial",
    "main_loop_terminates",
    "message_partial",
    "restart_overshoot_false",
    "message_sigterm_false"
   ],
   "note": "Proved in full for new runs (main_loop_new), for every number of ranks, solver and signal arrival; for restarts only if the step in the file respects tlim (restart_overshoot_false shows the code does not clip it); termination reason is true only when no signal stopped the run (message_sigterm_false)."
  },
  {
   "property": "C08",
   "status": "partial",
   "theorems": [
    "dump_call",
    "dump_numbers",
    "schedule_ahead",
    "schedule_lag_false",
    "data_output_overflow"
   ],
   "note": "Numbering, once-per-call, exact schedule advance proved for every history; the schedule stays ahead only if steps are within the interval (schedule_lag_false); data_output overruns dump_flag when more than 11 outputs exist (data_output_overflow)."
  },
  {
   "property": "C09",
   "status": "proved",
   "theorems": [
    "restart_schedule",
    "reads_of_contents",
    "restart_schedule_file"
   ],
   "note": "For every database, history and restart dump; the number format %.15e is a parameter (DFmt) with its round trip as an explicit hypothesis."
  },
  {
   "property": "C10",
   "status": "proved",
   "theorems": [
    "restart_roundtrip",
    "noEnd_of_clean",
    "restart_par_end_false",
    "restart_dims_false"
   ],
   "note": "dump_restart followed by restart_grids in the file-level model; the two _false theorems show that the stated preconditions are needed"
  },
  {
   "property": "C11",
   "status": "proved",
   "theorems": [
    "buffered_write"
   ],
   "note": "for every buffer capacity and value sequence"
  },
  {
   "property": "C12",
   "status": "proved",
   "theorems": [
    "grids_tile",
    "grids_tile_3d",
    "grids_sizes"
   ],
   "note": ""
  },
  {
   "property": "C13",
   "status": "proved",
   "theorems": [
    "domDecomp_valid",
    "domDecomp_optimal",
    "domDecomp_fails_iff"
   ],
   "note": "unbounded integers (no overflow of the cost), exact square root"
  },
  {
   "property": "C14",
   "status": "proved",
   "theorems": [
    "ranks_balanced",
    "ranks_accepted_iff"
   ],
   "note": ""
  },
  {
   "property": "C15",
   "status": "proved",
   "theorems": [
    "same_level_apart",
    "root_unique"
   ],
   "note": "accepted configurations, all lists of Domains"
  },
  {
   "property": "C16",
   "status": "partial",
   "theorems": [
    "nesting_partial",
    "parent_unique",
    "nesting_false",
    "negative_level_ub"
   ],
   "note": "holds against every parent that the Domain overlaps or touches; nesting_false: a Domain away from every parent is accepted"
  },
  {
   "property": "C17",
   "status": "proved",
   "theorems": [
    "checkOverlap_correct",
    "checkOverlapTouch_correct",
    "overlap_symm",
    "checkOverlap_empty_box"
   ],
   "note": "non-empty boxes; checkOverlap_empty_box shows the restriction is needed"
  },
  {
   "property": "C18",
   "status": "partial",
   "theorems": [
    "words_agree_partial",
    "words_odd_false"
   ],
   "note": "even child Grids; words_odd_false is the counterexample for odd ones"
  },
  {
   "property": "C19",
   "status": "proved",
   "theorems": [
    "neighbours_mutual",
    "wrap_agrees",
    "gridOrder_commID",
    "commID_inj",
    "neighbours_mixed_false"
   ],
   "note": "mixed periodic/non-periodic flags of one direction are excluded: neighbours_mixed_false"
  },
  {
   "property": "C20",
   "status": "proved",
   "theorems": [
    "ghost_images",
    "image_active",
    "active_unchanged",
    "bvals_idempotent",
    "outflow_faces"
   ],
   "note": "All kinds but ProlongateLater; every array entry but the first normal face. outflow_faces records that the outer outflow condition copies the face before the boundary face."
  },
  {
   "property": "C21",
   "status": "proved",
   "theorems": [
    "message_delivered"
   ],
   "note": "Words packed = declared length = words unpacked <= buffer; contents."
  },
  {
   "property": "C22",
   "status": "proved",
   "theorems": [
    "decomposed_eq_single",
    "decomposed_images",
    "one_zone_false",
    "one_sided_periodic_false",
    "narrow_false"
   ],
   "note": "The _false theorems show that the stated preconditions are needed."
  },
  {
   "property": "C23",
   "status": "partial",
   "theorems": [
    "cfl_hydro",
    "cfl_sr",
    "cfl_mhd_iso_partial",
    "cfl_mhd_negative_false",
    "cfl_mhd_adiabatic_false",
    "cfl_particles_partial",
    "cfl_particles_false"
   ],
   "note": "Proved in full for hydrodynamics (both equations of state) and special relativity, Cartesian coordinates; for isothermal MHD only with non-negative field components; refuted for MHD with negative components, for adiabatic MHD, and for particles with negative velocity. CYLINDRICAL not modelled."
  },
  {
   "property": "C24",
   "status": "proved",
   "theorems": [
    "new_dt_spec",
    "dt_growth",
    "main_loop_new",
    "sts_limit",
    "new_dt_diff_covers"
   ],
   "note": "All ranks, all histories; STS by sts_limit."
  },
  {
   "property": "C25",
   "status": "proved",
   "theorems": [
    "prim_cons_prim",
    "cons_prim_cons",
    "floor_preserves",
    "zone_prim_cons_prim",
    "zone_cons_prim_cons"
   ],
   "note": "Exact arithmetic over the reals; non-relativistic branches of convert_var.c."
  },
  {
   "property": "C26",
   "status": "proved",
   "theorems": [
    "cfastPrim_spec",
    "cfastPrim_sign",
    "cfast_eq",
    "cfast_no_floor"
   ],
   "note": "cfast applies no pressure floor (cfast_no_floor), so cfast = cfast_prim of the converted state only when the floor is not active."
  },
  {
   "property": "C27",
   "status": "proved",
   "theorems": [
    "Athena.Smr.restrict_average_any",
    "Athena.Smr.restrict_integral_any",
    "Athena.Smr.exchange_succeeds_hydro",
    "Athena.Smr.restrict_succeeds_partial",
    "Athena.Smr.restrict_average",
    "Athena.Smr.restrict_integral",
    "Athena.Smr.restrict_elsewhere"
   ],
   "note": "restrict_average_any and restrict_integral_any: every size of overlap in 1D, 2D, 3D, with and without magnetic field, whenever the exchange is carried out. The further theorems (the message is used up exactly, nothing else changes) need, with magnetic field, an overlap more than one coarse zone wide."
  },
  {
   "property": "C28",
   "status": "partial",
   "theorems": [
    "Athena.Smr.composite_conservative_hydro",
    "Athena.Smr.composite_conservative_partial",
    "Athena.Smr.exchange_succeeds_hydro",
    "Athena.Smr.REx.thin_overlap_false"
   ],
   "note": "Hydrodynamics: every size and position of the overlap. With magnetic field the overlap must be more than one coarse zone wide; otherwise the parent misreads the message (thin_overlap_false). One child Grid per parent Grid."
  },
  {
   "property": "C29",
   "status": "partial",
   "theorems": [
    "Athena.Smr.faces_agree_partial",
    "Athena.Smr.covered_divergence_partial",
    "Athena.Smr.divergence_free_partial",
    "Athena.Smr.REx.thin_overlap_false"
   ],
   "note": "2D and 3D; overlap more than one coarse zone wide (thin_overlap_false shows that the exchange goes wrong otherwise). On the boundary of the region the claim holds by the EMF correction and is proved for a constrained-transport step of both Grids from fields that agreed before."
  },
  {
   "property": "C30",
   "status": "proved",
   "theorems": [
    "Athena.Smr.proCon_conserves",
    "Athena.Smr.proCon_conserves_2d1d",
    "Athena.Smr.proCon_range_1d",
    "Athena.Smr.proCon_range_2d",
    "Athena.Smr.proCon_range_3d_partial",
    "Athena.Smr.proCon_uniform",
    "Athena.Smr.proCon_intE",
    "Athena.Smr.proCon_pressure_2d",
    "Athena.Smr.mcdSlope_bounds",
    "Athena.Smr.proCon_negative_density_3d_false",
    "Athena.Smr.proCon_energy_false"
   ],
   "note": "The property (average, range of each one-dimensional profile, uniform states) is proved in 1D, 2D and 3D. Beyond the property: in 3D the sum of the three offsets can leave the range of the stencil (proCon_negative_density_3d_false: a negative density), and the total energy, which is rebuilt from the internal energy, is not conserved (proCon_energy_false)."
  },
  {
   "property": "C31",
   "status": "partial",
   "theorems": [
    "Athena.Smr.proFld_div",
    "Athena.Smr.proFld_div_coarse",
    "Athena.Smr.proFld_div_2d",
    "Athena.Smr.proFld_keeps_partial",
    "Athena.Smr.proFld_keeps_false"
   ],
   "note": "Divergence is proved in full. Keeping known fine faces is proved when no known face is exactly 0.0 in all of the tested entries; the code uses 0.0 as 'not set' and proFld_keeps_false exhibits a known face that is overwritten."
  },
  {
   "property": "C32",
   "status": "proved",
   "theorems": [
    "step_flux",
    "run_conserves",
    "update_conserves",
    "Athena.Gen.conserved_run"
   ],
   "note": "All six Newtonian Cartesian integrators (VL and CTU in 1D, 2D, 3D) without source terms, FOFC, H-correction; exact arithmetic"
  },
  {
   "property": "C33",
   "status": "proved",
   "theorems": [
    "run_divB",
    "update_divB",
    "Athena.Gen.divB_run"
   ],
   "note": "All six Newtonian Cartesian integrators; boundaries other than reflecting (whose functions overwrite the wall faces)"
  },
  {
   "property": "C34",
   "status": "partial",
   "theorems": [
    "fan_speeds",
    "hlle_formula",
    "hlle_consistent",
    "hlle_upwind",
    "force_consistent",
    "force_upwind",
    "force_defined",
    "twoShock_solution",
    "twoShock_consistent",
    "hllc_consistent",
    "hllc_upwind",
    "hllc_contact",
    "hllc_star",
    "hllc_scalars",
    "hllc_upwind_false",
    "roe_consistent",
    "roe_upwind",
    "roe_scalars_partial",
    "roe_scalars_false",
    "hlldA_defined",
    "hlldA_consistent",
    "hlldA_upwind",
    "hlldA_fan",
    "hlldA_scalars",
    "hlldA_order_false",
    "hlldI_defined",
    "hlldI_consistent",
    "hlldI_upwind",
    "hlldI_fan",
    "hlldI_scalars",
    "exactI_consistent",
    "exactA_consistent",
    "exactA_contact"
   ],
   "note": "Proved for HLLE, FORCE, two-shock, HLLD and Roe in all supported physics and for HLLC if isothermal or gamma >= 5/4. False for HLLC when gamma is close to 1 (hllc_upwind_false); the scalar clause is false for Roe when the gas moves against a one-sided fan (roe_scalars_false). HLLD: jump conditions for waves that are not declared degenerate and without the density floor (Regular, RegularI); wave order s0 <= s1 is false (hlldA_order_false). The exact solver: consistency for both gases and the contact; its other clauses are C66."
  },
  {
   "property": "C35",
   "status": "partial",
   "theorems": [
    "hlle_mirror",
    "hllc_mirror",
    "twoShock_mirror",
    "force_mirror_partial",
    "force_mirror_defect",
    "force_mirror_false",
    "roe_mirror",
    "hlldA_mirror_partial",
    "hlldA_mirror_false",
    "hlldI_mirror_partial",
    "hlldI_mirror_false",
    "exactI_mirror_partial",
    "exactA_mirror_partial"
   ],
   "note": "Proved for HLLE, HLLC (isothermal or gamma >= 5/4), two-shock, Roe (sound speeds above TINY_NUMBER), HLLD unless its contact is at rest at the interface and a wave is degenerate (false then: hlldA_mirror_false) or, isothermal without normal field, the density floor acts (false: hlldI_mirror_false), and FORCE except adiabatic MHD, for which it is false: force.c:273 uses pbl for the central state (force_mirror_false, exact defect in force_mirror_defect). Exact solver: whenever the root found is exact (always for two shocks or two rarefactions of isothermal gas, and for contacts)."
  },
  {
   "property": "C36",
   "status": "proved",
   "theorems": [
    "dc_states",
    "dc_bounded",
    "dc_stencil",
    "prim2_bounded",
    "prim2_mean",
    "prim2_linear",
    "prim2_uniform",
    "prim2_stencil",
    "plm_bounded",
    "plm_mean",
    "plm_linear",
    "plm_uniform",
    "plm_stencil",
    "prim3_bounded",
    "prim3_linear",
    "prim3_uniform",
    "prim3_stencil",
    "ppm_bounded",
    "ppm_linear",
    "ppm_uniform",
    "ppm_stencil",
    "koren_bounded",
    "p3c_uniform",
    "p3c_stencil",
    "stencil_local",
    "esysAdbHyd_inv",
    "esysIsoHyd_inv",
    "Bounded.pos",
    "prim3_profile",
    "ppm_profile",
    "mhd_linear",
    "mhd_iso_linear"
   ],
   "note": "Cartesian coordinates, exact reals. Linear exactness of PLM/PPM needs left and right eigenvectors inverse to each other, proved for the hydrodynamic and (C94) the MHD eigensystems."
  },
  {
   "property": "C37",
   "status": "proved",
   "theorems": [
    "athGcd_correct",
    "athGcd_zero_ub"
   ],
   "note": ""
  },
  {
   "property": "C38",
   "status": "partial",
   "theorems": [
    "bswap_reverses",
    "bswap_involutive",
    "bswap_general_partial",
    "bswap_general_false"
   ],
   "note": "Holds for len 1,2,4,8 (the lengths the code uses). For other lengths only the first word is swapped: bswap_general_partial (count 1) and the negation bswap_general_false."
  },
  {
   "property": "C39",
   "status": "proved",
   "theorems": [
    "lu_solves",
    "lu_det",
    "inverse_ok",
    "matrixMult_ok",
    "lu_error_iff",
    "lu_no_ub",
    "lu_singular_false"
   ],
   "note": "Crout decomposition with implicit pivoting, forward/back substitution, inverse and product modelled loop by loop over an arbitrary ordered field; for every n and every nonsingular matrix. Singular matrices without a zero row are not reported (lu_singular_false)."
  },
  {
   "property": "C40",
   "status": "partial",
   "theorems": [
    "minmax1_correct",
    "minmax2_correct",
    "minmax3_correct",
    "signChange_found",
    "signChange_none_iff",
    "bisection_success_partial",
    "bisection_succeeds",
    "bisection_success_false"
   ],
   "note": "bisection reports success with a point where |f|<tol or the midpoint of a sign-changing bracket narrower than tol*|c|; that |f| is small there is false in general (bisection_success_false)."
  },
  {
   "property": "C41",
   "status": "proved",
   "theorems": [
    "vecpot_div_zero",
    "vecpot_computeDivB",
    "computeDivB_bound",
    "computeDivB_least",
    "computeDivB_zero_iff"
   ],
   "note": "every vector potential, Cartesian and cylindrical, any quadrature"
  },
  {
   "property": "C42",
   "status": "proved",
   "theorems": [
    "at_most_Nb",
    "no_deadlock",
    "terminates",
    "inside_before_done",
    "unregulated"
   ],
   "note": "Both buffered and synchronous MPI sends."
  },
  {
   "property": "C43",
   "status": "partial",
   "theorems": [
    "signal_stops",
    "no_signal_no_quit",
    "signal_lost_false"
   ],
   "note": "Signals arriving before the flag is read stop all ranks in the same cycle; a signal between read and reset is lost (signal_lost_false)."
  },
  {
   "property": "C44",
   "status": "proved",
   "theorems": [
    "levels_filter",
    "never_exits",
    "lazy_no_file",
    "goes_to_file"
   ],
   "note": "All sequences of set_level/open/close/print/fp calls; file system as an oracle (which names can be opened, which exist)."
  },
  {
   "property": "C45",
   "status": "proved",
   "theorems": [
    "fname_documented",
    "fname_differ",
    "dump_name_differ",
    "fname_empty_path_false"
   ],
   "note": "The name is the documented form and fits its buffer for every argument except the empty (non-NULL) path, for which the code reads before its buffer (fname_empty_path_false; no caller passes it)."
  },
  {
   "property": "C46",
   "status": "proved",
   "theorems": [
    "parse_range",
    "parse_single",
    "parse_ordered",
    "parse_reversed",
    "out3",
    "out2_mean",
    "out2_outside",
    "out2_plane",
    "out1_x1",
    "out1_x2",
    "out1_x3",
    "out1_line"
   ],
   "note": "Exact reals; atof arbitrary. Reversed limits end in the error path, whose message has mismatched formats (undefined behaviour)."
  },
  {
   "property": "C47",
   "status": "proved",
   "theorems": [
    "cell_of_faces",
    "cell_of_centre",
    "cell_in_grid",
    "faces_and_centres",
    "position_of_domain_zone",
    "grids_abut",
    "cell_negative_false"
   ],
   "note": "Zones with non-negative index in the Grid's arrays; for positions below the first ghost zone celli rounds towards zero (cell_negative_false)."
  },
  {
   "property": "C48",
   "status": "proved",
   "theorems": [
    "Athena.Smr.Wait.waitany_restrict",
    "Athena.Smr.Wait.waitany_prolongate",
    "Athena.Smr.Wait.order_irrelevant",
    "Athena.Smr.Wait.waitany_prolongate_false"
   ],
   "note": "For Prolongate the number of parents on the same processor is at most one (a consequence of nesting and of one Grid per processor and Domain); waitany_prolongate_false shows that the hypothesis is needed."
  },
  {
   "property": "C49",
   "status": "proved",
   "theorems": [
    "calloc1_ok",
    "calloc2_ok",
    "calloc3_ok",
    "elements_disjoint",
    "calloc2_no_alias",
    "calloc3_no_alias",
    "calloc2_zero_false",
    "calloc2_wrap_false"
   ],
   "note": "Outer dimensions at least 1 and sizes within size_t; otherwise the code misbehaves (calloc2_zero_false, calloc2_wrap_false)."
  },
  {
   "property": "C50",
   "status": "proved",
   "theorems": [
    "trapzd_refines",
    "qsimp_simpson",
    "qsimp_cubic"
   ],
   "note": "exact arithmetic"
  },
  {
   "property": "C51",
   "status": "proved",
   "theorems": [
    "overlapTable_complete"
   ],
   "note": ""
  },
  {
   "property": "C52",
   "status": "partial",
   "theorems": [
    "commParent_correct_partial",
    "addChildren_ranks",
    "commParent_false"
   ],
   "note": "holds when the parent Domain has one Grid on every rank; commParent_false: src/init_mesh.c:787 stores a world rank instead of a position"
  },
  {
   "property": "C53",
   "status": "proved",
   "theorems": [
    "open_clean",
    "open_ub_line"
   ],
   "note": ""
  },
  {
   "property": "C54",
   "status": "proved",
   "theorems": [
    "sts_advances_dt",
    "sts_sum",
    "sts_limit",
    "sts_base_step"
   ],
   "note": "Real arithmetic; the identity is proved with Chebyshev polynomials for every N."
  },
  {
   "property": "C55",
   "status": "proved",
   "theorems": [
    "diffusion_stable",
    "new_dt_diff_covers"
   ],
   "note": ""
  },
  {
   "property": "C56",
   "status": "partial",
   "theorems": [
    "output_own_file",
    "visited_iff",
    "dump_own_file_partial",
    "dump_own_file_false",
    "two_dumps_false",
    "two_outputs"
   ],
   "note": "output_*: proved in full. dump_*: proved when no Domain with index 0 is visited after one with positive index; the full statement is refuted by a stale Domain tag and by two dumps of the same format."
  },
  {
   "property": "C57",
   "status": "partial",
   "theorems": [
    "Athena.Tab.tab_faithful_partial",
    "Athena.Tab.tab_header_partial",
    "Athena.Tab.tab_header_false",
    "Athena.Tab.tab_columns_false"
   ],
   "note": "Disagreements found: the header omits columns when a direction has two (x3: two or three) zones, and index columns run together (1010) when an index has more digits than the largest number of zones. Proved otherwise. The lines before the column header are not modelled."
  },
  {
   "property": "C58",
   "status": "partial",
   "theorems": [
    "Athena.Hist.history_line",
    "Athena.Hist.history_average_partial",
    "Athena.Hist.history_average_false",
    "Athena.Hist.history_integral",
    "Athena.Hist.history_labels",
    "Athena.Hist.history_fits",
    "Athena.Hist.history_fits_false",
    "Athena.Hist.history_one_line_partial",
    "Athena.Hist.history_one_line_root",
    "Athena.Hist.history_one_line_false"
   ],
   "note": "Disagreements found: averages carry the extents of ignorable directions as a factor; process 0 writes an additional line for refined Domains in which it is not first; with special relativity and MHD the array overflows from 27 user columns on."
  },
  {
   "property": "C59",
   "status": "partial",
   "theorems": [
    "fofc_made",
    "fofc_choice",
    "fofc_conserves",
    "fofc_divB",
    "fofc_mean",
    "fofc_faces",
    "fofc_first_order",
    "fofc_elsewhere",
    "fofc_idle",
    "fofc_step_conserves",
    "fofc_step_divB",
    "fofc_positive_false",
    "fofc_split_false",
    "fofc2_made",
    "fofc2_divB",
    "fofc2_first_order",
    "fofc2_idle",
    "fofc2_conserves_partial",
    "fofc2_conserves_false",
    "fofc2_faces_false"
   ],
   "note": "3D: all of it, except that zones at the boundary of a Grid keep their second-order boundary fluxes, so that zones can stay or become negative (fofc_positive_false) and the result depends on the decomposition (fofc_split_false). 2D: the update is one of a set of fluxes, the divergence is kept and bad zones end as the first-order step makes them; but boundary fluxes are replaced on one side only, so totals and shared faces are not kept (fofc2_conserves_false, fofc2_faces_false), except while no zone at the boundary is bad."
  },
  {
   "property": "C60",
   "status": "proved",
   "theorems": [
    "run_decomposed",
    "init_hasDim",
    "init_dims",
    "init_ok",
    "scheme_local",
    "Athena.Gen.decomposed_run",
    "Athena.Gen.run_exists",
    "code_run_decomposed",
    "code_local",
    "code_decl"
   ],
   "note": "All six Newtonian Cartesian integrators without source terms, FOFC, H-correction; the time step is the same in both runs. Instantiated with the HLLE solver and every reconstruction of the code in real arithmetic."
  },
  {
   "property": "C61",
   "status": "partial",
   "theorems": [
    "sr_subluminal_partial",
    "sr_states",
    "sr_superluminal_false"
   ],
   "note": "False in general: the loops over the four-velocity have the condition n==3 and never run, so the three-velocity is reconstructed component by component."
  },
  {
   "property": "C62",
   "status": "partial",
   "theorems": [
    "prim2_ctu_scalars",
    "plm_ctu_scalars",
    "prim2Trace_hancock",
    "plmTrace_hancock",
    "limO3_bounded_partial",
    "plm_ctu_hll_false",
    "prim3_ctu_scalar_false",
    "limO3_false"
   ],
   "note": "False for PLM with HLL-type fluxes and waves at rest (corrected twice), for the third order primitive scheme with two or more scalars (slopes of the first scalar used for all), and for LimO3 at small variations."
  },
  {
   "property": "C63",
   "status": "partial",
   "theorems": [
    "Athena.Smr.uncovered_divergence_partial",
    "Athena.Smr.REx.thin_overlap_false"
   ],
   "note": "Overlap more than one coarse zone wide (see thin_overlap_false)."
  },
  {
   "property": "C64",
   "status": "proved",
   "theorems": [
    "run_rotated",
    "latt_rot",
    "image_rot",
    "code_run_rotated"
   ],
   "note": "Newtonian 3D integrators (van Leer and CTU) with bvals_mhd, exact arithmetic; lr_states must not use its direction argument (true outside cylindrical coordinates) and Cons_to_Prim must commute with renaming. The order of additions differs between directions, so the claim is not bit for bit. Instantiated with the HLLE solver and every reconstruction of the code."
  },
  {
   "property": "C65",
   "status": "partial",
   "theorems": [
    "roe_matrix",
    "roe_flow",
    "roe_waves",
    "roe_jump",
    "roe_jump_false",
    "hlldA_jump",
    "hlldI_jump"
   ],
   "note": "roe_matrix, roe_waves and roe_jump hold for hydrodynamics and for MHD if the densities or the transverse fields agree or gamma = 2 (RoeExact), for sound speeds above TINY_NUMBER. Otherwise false in MHD: roe.c:119 uses y = (dl+dr)/(2 sqrt(dl dr)) where 1 is needed (roe_jump_false; exact defect in roe_flow). hlldA_jump, hlldI_jump: HLLD."
  },
  {
   "property": "C66",
   "status": "partial",
   "theorems": [
    "exactI_solution",
    "exactI_defined",
    "exactI_solution_false",
    "exactA_solution_partial",
    "exactA_vacuum",
    "exactA_contact",
    "exactA_defined_false",
    "pFunc_hasDeriv"
   ],
   "note": "Isothermal: proved whenever the intermediate density is an exact root (always for two shocks and two rarefactions; for a shock and a rarefaction when rtsafe finds it); false at low densities (exactI_solution_false). Adiabatic: proved whenever the pressure returned by the Newton iteration is an exact root (e.g. all contacts); the error of an inexact root is not bounded; the vacuum clause is proved; false near vacuum (exactA_defined_false). PFuncDeriv is the derivative of PFunc."
  },
  {
   "property": "C67",
   "status": "partial",
   "theorems": [
    "run_mirror_partial",
    "run_symmetric_partial",
    "outflow_mirror_false",
    "code_run_mirror_partial",
    "code_run_symmetric_partial",
    "code_mirror"
   ],
   "note": "Proved for all six integrators, every direction, any decomposition, with reflecting, conducting and periodic boundaries and every set of functions that satisfies Funs.Mirror; outflow refuted (ghost interfaces of the normal field). Funs.Mirror is proved for the code with the HLLE solver, every equation of state and reconstruction."
  },
  {
   "property": "C68",
   "status": "proved",
   "theorems": [
    "Athena.Gen.run_2d_in_3d",
    "Athena.Gen.run_1d_in_2d",
    "Athena.Gen.latV3_flat",
    "Athena.Gen.latC3_flat",
    "Athena.Gen.latV2_flat",
    "Athena.Gen.latC2_flat",
    "code_2d_in_3d_vl",
    "code_2d_in_3d_ctu",
    "code_1d_in_2d_vl",
    "code_1d_in_2d_ctu",
    "code_plain",
    "code_exact"
   ],
   "note": "Exact real arithmetic; the solver is assumed to return the induction flux for the transverse field between equal states, for every state. CTU: conversions exact above d_MIN, densities above d_MIN, initial field divergence-free with zone-centred field the face average. van Leer 1D/2D: the pressure floor does not act on the states. The time steps are taken to be the same in both runs (new_dt's minimum runs over more directions in the higher-dimensional one). The hypotheses are proved for the code with the HLLE solver (van Leer: every equation of state; CTU: isothermal)."
  },
  {
   "property": "C69",
   "status": "proved",
   "theorems": [
    "Athena.Gen.run_uniform",
    "Athena.Micro.run_uniform_diffusion",
    "Athena.Gen.latt_const",
    "Athena.Micro.latDiff_const"
   ],
   "note": "Exact real arithmetic. The reconstruction is assumed to use three zones on either side, nothing is assumed of the Riemann solver. Newtonian MHD integrators without source terms."
  },
  {
   "property": "C70",
   "status": "partial",
   "theorems": [
    "Athena.Micro.conduct_only_E",
    "Athena.Micro.conduct_lattice",
    "Athena.Micro.latCond_conserves",
    "Athena.Micro.conduct_divB",
    "Athena.Micro.uniform_unchanged",
    "Athena.Micro.hot_to_cold",
    "Athena.Micro.conduct_flip",
    "Athena.Micro.no_cross_field",
    "Athena.Micro.max_principle",
    "Athena.Micro.max_principle_uniform_density",
    "Athena.Micro.max_principle_false",
    "Athena.Micro.conduct_2d_3d_false",
    "Athena.Micro.conduct_2d_3d_partial",
    "Athena.Micro.temp_gas",
    "Athena.Micro.aniso_linear_3d",
    "Athena.Micro.aniso_linear_2d",
    "Athena.Micro.iso_linear"
   ],
   "note": "Refuted for density contrasts and for x3-field in two dimensions; the rest is proved. max_principle gives the sufficient condition on the time step for any density."
  },
  {
   "property": "C71",
   "status": "partial",
   "theorems": [
    "Athena.Micro.resist_only",
    "Athena.Micro.resist_lattice",
    "Athena.Micro.latRes_conserves",
    "Athena.Micro.resist_divB",
    "Athena.Micro.current_free",
    "Athena.Micro.ohmic_heating",
    "Athena.Micro.latRes_decays",
    "ambi_decays_false"
   ],
   "note": "Ohmic diffusion: proved. Ambipolar diffusion: energy decay proved in one dimension and refuted in two and three (ambi_decays_false: standard diffusivity, time step within the program's limit, the field energy grows); all other parts for both. Q_Hall = 0, Cartesian coordinates."
  },
  {
   "property": "C72",
   "status": "proved",
   "theorems": [
    "Athena.Micro.viscous_only_ME",
    "Athena.Micro.viscous_lattice",
    "Athena.Micro.latVisc_conserves",
    "Athena.Micro.viscous_divB",
    "Athena.Micro.linear_flow",
    "Athena.Micro.heating_nonneg",
    "Athena.Micro.heating_zero",
    "Athena.Micro.rigid_unchanged",
    "Athena.Micro.galilean"
   ],
   "note": "Hydrodynamics; the anisotropic (MHD) part does not compile in the program."
  },
  {
   "property": "C73",
   "status": "proved",
   "theorems": [
    "Athena.Micro.run_decomposed_diffusion",
    "Athena.Micro.run_conserves_diffusion",
    "Athena.Micro.run_divB_diffusion",
    "Athena.Micro.run_ohm_decays"
   ],
   "note": "The decay statement has the range of C71. One Domain (no refinement)."
  },
  {
   "property": "C74",
   "status": "partial",
   "theorems": [
    "Athena.Micro.restart_skips_resistivity",
    "Athena.Micro.restart_resistive_false",
    "Athena.Micro.restart_resistive_partial"
   ],
   "note": "Refuted; the partial theorem shows that one call of get_eta after reading the file is all that is missing."
  },
  {
   "property": "C75",
   "status": "partial",
   "theorems": [
    "Athena.Grav.potential_solves_poisson",
    "Athena.Grav.potential_unique",
    "Athena.Grav.potential_any_grids",
    "Athena.Grav.potential2_any_grids",
    "Athena.Grav.potential_1d_false",
    "Athena.Grav.potential_1d_example_false",
    "Athena.Grav.inversion",
    "Athena.Grav.bvalsG_eq"
   ],
   "note": "FFT solvers (2D, 3D) for all sizes and any grav_mean_rho, forward elimination (1D) when grav_mean_rho is the mean; refuted in 1D otherwise. The discrete Fourier transform is the mathematical one (FFTW's algorithm is not modelled); bvals_grav on one periodic Grid only."
  },
  {
   "property": "C76",
   "status": "proved",
   "theorems": [
    "Athena.Grav.momentum_conserved_run",
    "Athena.Grav.force_exact",
    "Athena.Grav.force_1d"
   ],
   "note": "For arbitrary matching fluxes and time steps, so for every integrator and Riemann solver."
  },
  {
   "property": "C77",
   "status": "partial",
   "theorems": [
    "Athena.Grav.energy_conserved_run_partial",
    "Athena.Grav.energy_cycle",
    "Athena.Grav.energy_2d",
    "Athena.Grav.energy_2d_false",
    "Athena.Grav.energy_2d_example_false"
   ],
   "note": "Full in 1D and 3D; in 2D the exact defect is computed and a run that loses energy exhibited (selfg.c:174)."
  },
  {
   "property": "C78",
   "status": "proved",
   "theorems": [
    "potential_conserves",
    "potential_closed"
   ],
   "note": "Cartesian coordinates; the last steps of all six integrators, from arbitrary fluxes. Exact arithmetic."
  },
  {
   "property": "C79",
   "status": "partial",
   "theorems": [
    "Athena.Part.drag_factor",
    "Athena.Part.fulimp_monotone",
    "Athena.Part.semimp_stable",
    "Athena.Part.expl_stable_iff",
    "Athena.Part.drag_second_order",
    "Athena.Part.comoving_fixed",
    "Athena.Part.drag_damps_false"
   ],
   "note": "Uniform gas and constant stopping time. The explicit integrator is unstable beyond two stopping times (drag_damps_false), which the code does not prevent."
  },
  {
   "property": "C80",
   "status": "proved",
   "theorems": [
    "Athena.Part.semimp_canonical",
    "Athena.Part.semimp_epicyclic",
    "Athena.Part.circular_fixed"
   ],
   "note": ""
  },
  {
   "property": "C81",
   "status": "partial",
   "theorems": [
    "Athena.Part.feedback_is_drag",
    "Athena.Part.feedback_momentum",
    "Athena.Part.feedback_energy",
    "Athena.Part.feedback_energy_partial",
    "Athena.Part.feedback_energy_false"
   ],
   "note": "Momentum balance is proved. Energy is balanced in gas at rest only: the work of the drag on moving gas is missing (feedback_energy_false). Constant stopping time, semi-implicit integrator for energy."
  },
  {
   "property": "C82",
   "status": "partial",
   "theorems": [
    "Athena.Part.interp_exact",
    "Athena.Part.interp_between",
    "Athena.Part.deposit_total",
    "Athena.Part.interp_edge_false"
   ],
   "note": "Exactness and conservation for positions whose zones are all inside the Grid with ghost zones; at the lower edge weights are misaligned (interp_edge_false)."
  },
  {
   "property": "C83",
   "status": "proved",
   "theorems": [
    "Athena.Part.shuffle_sorted",
    "Athena.Part.deleteGhost_exact"
   ],
   "note": ""
  },
  {
   "property": "C84",
   "status": "partial",
   "theorems": [
    "Athena.Part.bvals_exact",
    "Athena.Part.bvals_everyone",
    "Athena.Part.step_exact",
    "Athena.Part.run_exact",
    "Athena.Part.run_independent",
    "Athena.Part.run_count",
    "Athena.Part.wall_lost_false",
    "Athena.Part.reflect_x3_false",
    "Athena.Part.outflow_x3_false",
    "Athena.Part.carry_negative_false"
   ],
   "note": "Proved for all decompositions, boundary conditions and run lengths except: particles exactly on an outer reflecting wall (lost), reflecting inner x3 boundary not at 0, outflow inner x3 boundary, negative identifiers; each refuted. Shearing box and FARGO shifts not modelled."
  },
  {
   "property": "C85",
   "status": "partial",
   "theorems": [
    "exchange_ok",
    "exchange_total",
    "exchange_at",
    "exchange_conserves",
    "pred_ghost",
    "bin_ok",
    "bin_exact",
    "bin_independent",
    "reflect_1d_false",
    "pred_split_false"
   ],
   "note": "Proved for the exchange itself (all three uses) and end to end for binning for output and both feedback steps (before the limiting). Refuted: the predictor force is limited by the stiffness before the exchange, so it depends on the decomposition; in 1D the reflecting inner boundary of the predictor exchange indexes with js and leaves the array. Not modelled: shearing-box remap of particles."
  },
  {
   "property": "C86",
   "status": "partial",
   "theorems": [
    "sheet_state",
    "sheet_independent",
    "sheet_whole",
    "sheet_uniform",
    "sheet_shear_flow",
    "sheet_sum",
    "sheet_bounds",
    "sheet_line",
    "sheet_parabola_partial",
    "centred_mean",
    "step5_fits",
    "step9_fits_partial",
    "thermal_false",
    "divergence_false",
    "positive_false",
    "parabola_false",
    "backward_false",
    "centred_false",
    "step9_false",
    "amount_quad_pos",
    "amount_quad_neg",
    "jy_value",
    "jy_fits",
    "phi_value",
    "phi_bounds"
   ],
   "note": "Proved for boxes that shear forward (qshear*Omega_0 >= 0) and Grids of equal size along x2. Refuted: pressure can become negative (both orders) and density too at third order; the ghost field is not divergence-free; the third-order version clips extrema; a box shearing backward reads unset data; with as many ghost zones as zones the centred B2 is stale in one ghost zone and a message overruns its buffer with MHD. Also proved: the gravitational potential in the ghost zones (ShearingSheet_grav) and the current density of the resistive terms (RemapJy) at and beyond the edges."
  },
  {
   "property": "C87",
   "status": "partial",
   "theorems": [
    "flux_matched",
    "total_kept",
    "b3_kept",
    "shear_total",
    "shear_b3",
    "concentration_false",
    "outflow_false",
    "ey_matched",
    "ey_top",
    "resist_b3",
    "resist_b1",
    "jy_matched"
   ],
   "note": "Proved for mass, momenta and the field along x3. Refuted: scalar (and energy) fluxes are not remapped, so scalars are not treated like mass; the fluxes are averaged whatever the boundary condition along x1. Also proved: the resistive step with RemapEy keeps the net fields along x3 and x1, for any electric field."
  },
  {
   "property": "C88",
   "status": "partial",
   "theorems": [
    "advance_units_partial",
    "units_false",
    "predicted_elsewhere"
   ],
   "note": "Proved except for the xy shearing box without FARGO, where the predicted position has a term qshear*v1*dt^2 without the rate Omega_0; refuted there."
  },
  {
   "property": "C89",
   "status": "partial",
   "theorems": [
    "fargo_centred",
    "fargo_faces",
    "fargo_b2",
    "fargo_div",
    "fargo_sum",
    "fargo_independent",
    "fargo_bounds",
    "fargo_whole",
    "carried_line",
    "amount_quad_pos",
    "amount_quad_neg",
    "fargo_uniform",
    "fargo_runs",
    "fargo_runs_false",
    "small_false",
    "flat_b3_false",
    "fargo_positive_false"
   ],
   "note": "Proved where every Grid has at least as many zones along x2 as there are extra ghost zones. Refuted: the estimate of extra ghost zones takes a sound speed of at least 1 (fargo_runs_false); Grids with fewer zones use unset memory (small_false); in 2D the centred B3 is not moved (flat_b3_false); at third order the density can become negative (fargo_positive_false)."
  },
  {
   "property": "C90",
   "status": "partial",
   "theorems": [
    "roll_row",
    "roll_gravity",
    "roll_back",
    "roll_far_false"
   ],
   "note": "Proved for boxes that reach no further from x1=0 than their length along x1; refuted for others (roll_far_false)."
  },
  {
   "property": "C91",
   "status": "partial",
   "theorems": [
    "cyl_update_conserves",
    "cyl_conserves",
    "cyl_update_divB",
    "cyl_divB",
    "cyl_rest",
    "cyl_radial_momentum",
    "ctu_conserves_partial",
    "ctu_divB",
    "ctu_momentum_partial",
    "ctu_flat_partial",
    "ctu_half_partial",
    "ctu_energy_false",
    "ctu_half_false",
    "ctu_coriolis_missing",
    "ctu_flat_false"
   ],
   "note": "Proved for the whole 3D van Leer step: conservation, divergence, equilibrium, and the balance of radial momentum with the hoop stress. For the 3D CTU integrator: conservation except energy in a potential (false, theorem), balance of radial and angular momentum with the half-step values of the conservation laws and the Coriolis force for one plane, half-step momenta of the transverse correction wrong unless dx2=1 (false, theorem), rotating frame acts only on the lowest plane (theorems). 1D and 2D and FARGO in cylindrical coordinates are not modelled."
  },
  {
   "property": "C92",
   "status": "partial",
   "theorems": [
    "alloc2_safe",
    "alloc3_safe_partial",
    "alloc1_safe_partial",
    "alloc13_safe_false",
    "alloc1_dust_false"
   ],
   "note": "2D proved; 1D and 3D characterised exactly: they dereference NULL in cylindrical hydrodynamics without potential and cooling (1D also with fields), and in 1D with particles in an adiabatic gas."
  },
  {
   "property": "C93",
   "status": "partial",
   "theorems": [
    "join_exact",
    "back_found",
    "sort_correct",
    "join_refuses",
    "join_dims_partial",
    "join_order_false",
    "join_dims_false",
    "join_thin_false",
    "join_one_false"
   ],
   "note": "Proved for every decomposition, order of files, list of variables and data: all data, comment, origin, spacing and number of zones are those of a run on one process, if origins read back are distinct; files that begin with different variables are refused. Refuted: origins that print alike, DIMENSIONS of plane runs, Grids one zone thick in x2 only."
  },
  {
   "property": "C94",
   "status": "proved",
   "theorems": [
    "adb_mhd_eigensystem",
    "iso_mhd_eigensystem",
    "adb_hyd_eigensystem",
    "iso_hyd_eigensystem",
    "mhd_linear",
    "mhd_iso_linear"
   ],
   "note": "Exact reals; divisions and roots of the MHD functions are partial in the model and shown to succeed. Cartesian calls."
  },
  {
   "property": "C95",
   "status": "partial",
   "theorems": [
    "pgm_image_partial",
    "pgm_auto",
    "pgm_flat",
    "shade_mono",
    "ppm_image",
    "ppm_flat",
    "ppm_unknown",
    "pgm_scale_false"
   ],
   "note": "Proved in full for colour images and for gray images scaled to the data; for gray images with a scale from the input file if no value is further than 2^31 shades from it: beyond, the conversion to int before the clamping is undefined (pgm_scale_false)."
  },
  {
   "property": "C96",
   "status": "partial",
   "theorems": [
    "pdf_exact_partial",
    "pdf_mpi_partial",
    "pdf_adev_false",
    "pdf_refined_false",
    "pdf_mean_false"
   ],
   "note": "Proved without refined Domains: the file of a run on one process holds exactly the statistics and the distribution (which integrates to one); with MPI the root's file is the same for every decomposition and order of zones, but for the mean deviation. False: with MPI the mean deviation covers only the root's zones (not reduced); with refined Domains the mean (and moments) are not reset between Domains, and a Domain with more zones than the first overruns the array."
  },
  {
   "property": "C97",
   "status": "partial",
   "theorems": [
    "lam_pos",
    "dlam_deriv",
    "cooling_step_partial",
    "cooling_equilibrium",
    "cooling_dt_false",
    "koyInut_positive_partial",
    "koyInut_positive_false"
   ],
   "note": "Per Grid: only the energy changes, converged implicit temperature with the true derivative of the cooling curve, floor, ten per cent, time step at most 0.8 cooling times; equilibria unchanged. Refuted: one time step for all Grids (a later Domain shortens the step after an earlier one was cooled and keeps the longer), positive pressure below 10 K with the explicit function. SUB_CYCLE and SIMPSON variants not modelled."
  },
  {
   "property": "C98",
   "status": "partial",
   "theorems": [
    "wall_is_symmetry_partial",
    "code_wall_is_symmetry_partial"
   ],
   "note": "Proved for all six integrators, every direction and decomposition; the far end of the Domain reflecting or conducting (outflow is not mirror symmetric, C67; periodic with a wall is not a symmetric problem); solver, reconstruction and conversions satisfy Funs.Mirror. Funs.Mirror is proved for the code with the HLLE solver, every equation of state and reconstruction."
  },
  {
   "property": "C99",
   "status": "proved",
   "theorems": [
    "sr_hydro_round_trip",
    "sr_hydro_round_trip_cons",
    "sr_hydro_prim_unique",
    "admissible_has_prim",
    "primToCons_admissible",
    "sr_hydro_slow_false"
   ],
   "note": "Closed-form root of the quartic selected by the code proved to be the flow speed (resolvent by Cardano, other real root by the intermediate value theorem). sr_hydro_slow_false shows the bound on momentum is needed."
  },
  {
   "property": "C100",
   "status": "proved",
   "theorems": [
    "sr_hydro_subluminal"
   ],
   "note": "For every conserved state, NaNs of the closed form included (MAX turns them into 0)."
  },
  {
   "property": "C101",
   "status": "partial",
   "theorems": [
    "sr_mhd_root_unique",
    "sr_mhd_round_trip_partial",
    "sr_mhd_residual",
    "sr_mhd_cons_round_trip_partial",
    "sr_mhd_start",
    "sr_mhd_rest_round_trip",
    "sr_mhd_floor_false"
   ],
   "note": "Function strictly increasing on the physical range, hence one root, which is the state; start in the range; states at rest round-trip through the whole function. Not proved: convergence of the Newton iteration for moving states (the first step multiplies Q by ten when the residual is below 0.1, and the step is not safeguarded). sr_mhd_floor_false: states below the floors change."
  },
  {
   "property": "C102",
   "status": "proved",
   "theorems": [
    "sr_mhd_outcome",
    "sr_mhd_check_outcome",
    "sr_mhd_check_rest"
   ],
   "note": "A result containing NaNs is the model's none, as the statement says. sr_mhd_check_outcome, sr_mhd_check_rest: the same for the check without floors that the repair step uses."
  },
  {
   "property": "C103",
   "status": "partial",
   "theorems": [
    "sr_mhd_newton_derivative",
    "sr_mhd_entropy_derivative_false"
   ],
   "note": "True for the energy equation for every state; refuted for the entropy equation (exponent of the density)."
  },
  {
   "property": "C104",
   "status": "proved",
   "theorems": [
    "sr_char_speeds",
    "sr_char_speeds_1d",
    "sr_hllc_defined",
    "sr_hllc_consistent",
    "sr_hllc_upwind",
    "sr_hllc_contact",
    "sr_hllc_mirror"
   ],
   "note": "Hydrodynamics (no field), real arithmetic."
  },
  {
   "property": "C105",
   "status": "proved",
   "theorems": [
    "sr_hllc_fan"
   ],
   "note": "The star pressure itself may be negative for receding streams; the intermediate conserved states are physical nevertheless."
  },
  {
   "property": "C106",
   "status": "proved",
   "theorems": [
    "sr_first_order_physical",
    "sr_predictor_physical",
    "warm_iff"
   ],
   "note": "Hydrodynamics, 1D, no static potential."
  },
  {
   "property": "C107",
   "status": "partial",
   "theorems": [
    "sr_fix_made",
    "sr_fix_isolated_partial",
    "sr_fix_physical_partial",
    "sr_fix_untouched",
    "sr_fix_conserves",
    "sr_fix_adjacent_false",
    "sr_fix2_zone_partial",
    "sr_fix3_conserves_partial",
    "sr_fix3_uniform_false",
    "sr_fix3_component_false"
   ],
   "note": "1D complete for isolated bad zones and conservation for all; false for adjacent bad zones and in 3D. 2D only one zone; magnetic field corrections of the MHD integrators not modelled."
  },
  {
   "property": "C108",
   "status": "partial",
   "theorems": [
    "sr_mhd_quartic",
    "sr_mhd_speeds_noBx",
    "sr_mhd_speeds_rest",
    "sr_mhd_speeds_general_partial",
    "sr_mhd_speeds_negative_false",
    "sr_mhd_speeds_reverse_false",
    "sr_mhd_fallback_bounds"
   ],
   "note": "Exact for no normal field and for gas at rest; positive normal field: roots to 1e-6 of the right polynomial, not shown outermost. False for negative normal field."
  },
  {
   "property": "C109",
   "status": "proved",
   "theorems": [
    "cubic_solves",
    "quartic_solves",
    "quartic_checked"
   ],
   "note": "The relative shift 1e-16 of one coefficient is a parameter and appears in the statement."
  },
  {
   "property": "C110",
   "status": "proved",
   "theorems": [
    "sr_hlle_lightcone",
    "sr_hlle_consistent",
    "sr_hlle_fan",
    "sr_hlle_reverse_partial",
    "sr_hlle_edges",
    "sr_hlle_edges_fallback",
    "sr_hlle_encloses_partial",
    "sr_hlle_entropy"
   ],
   "note": "Field reversal with a normal field is false through the signal speeds, see C108."
  },
  {
   "property": "C111",
   "status": "proved",
   "theorems": [
    "remap_correct",
    "messages_match",
    "recvs_apart",
    "scratch_fits",
    "place_inj",
    "place_bound"
   ],
   "note": "For every number of processes, boxes, storage order and arrival order. Lists of addresses model the loops of pack_3d.c (PACK_ARRAY version); in-place use is covered because out is an arbitrary array."
  },
  {
   "property": "C112",
   "status": "partial",
   "theorems": [
    "fft3d_correct_partial",
    "ath_3d_fft_partial",
    "counts_pre",
    "counts_even",
    "counts_distinct",
    "counts_one",
    "targets_fit",
    "bifactor_spec",
    "trans3_dft",
    "fft3d_false"
   ],
   "note": "False in general: plans of equal length are shared although the number of lines differs (fft3d_false: 9 x 16 x 9 zones on 2 processes). Proved when each process transforms as many lines as it owns, which holds for three different lengths, for cubes and equal adjacent lengths after a first redistribution, for even divisions and for one process. FFTW's one-dimensional transform is its definition. Only the 3D routine, as ath_3d_fft calls it."
  },
  {
   "property": "C113",
   "status": "partial",
   "theorems": [
    "multigrid_returns_iff",
    "multigrid_returns_false"
   ],
   "note": "exact criterion proved; the unrestricted claim refuted (24 zones)"
  },
  {
   "property": "C114",
   "status": "partial",
   "theorems": [
    "multigrid_smallest_partial",
    "multigrid_drift",
    "multigrid_keeps_false"
   ],
   "note": "refuted for sizes halved once; proved where one direction has 4 zones. Missing: sizes halved more than once"
  },
  {
   "property": "C115",
   "status": "proved",
   "theorems": [
    "poisson_exists",
    "poisson_unique",
    "sweep_fixed_iff",
    "sweep_error",
    "sweeps_converge"
   ],
   "note": ""
  },
  {
   "property": "C116",
   "status": "partial",
   "theorems": [
    "prolongate_ghosts",
    "prolongate_averages",
    "prolongate_uniform",
    "prolongate_linear",
    "prolongate_odd_false"
   ],
   "note": "nghost even; with nghost = 5 (particles and third order) the first active zone is overwritten (prolongate_odd_false). One parent Grid per child Grid; array bounds and MPI not modelled; with MHD the field is C117."
  },
  {
   "property": "C117",
   "status": "proved",
   "theorems": [
    "prolongate_field",
    "prolongate_field_1d"
   ],
   "note": "2D and 3D; in 1D the face-centred field is a copy of the cell-centred one (prolongate_field_1d); nghost even; one parent Grid per child Grid."
  },
  {
   "property": "C118",
   "status": "partial",
   "theorems": [
    "prolongate_div_partial",
    "prolongate_div_false"
   ],
   "note": "The first of the child's values on a face of the boundary must not be exactly 0; otherwise the statement fails (prolongate_div_false). The outermost layer of ghost zones on the upper sides, whose upper faces are not stored, is excluded."
  },
  {
   "property": "C119",
   "status": "partial",
   "theorems": [
    "disk_poisson_partial",
    "disk2_poisson_partial",
    "disk1_poisson",
    "disk2_eq",
    "disk_bottom_false",
    "disk_top_false",
    "disk1_ghost_false"
   ],
   "note": "Proved in all zones except the two outermost planes (2D, 3D) and in all zones in 1D before the boundary conditions; refuted in the outermost planes and, with reflecting walls, in 1D."
  },
  {
   "property": "C120",
   "status": "partial",
   "theorems": [
    "disk_sheets_partial",
    "disk2_sheets_partial",
    "disk1_sheets",
    "disk_empty_false"
   ],
   "note": "Proved for the average over each plane (exact potential of infinite sheets) and in 1D; refuted for densities that vary in the plane."
  },
  {
   "property": "C121",
   "status": "partial",
   "theorems": [
    "obc_poisson_partial",
    "obc_is_periodic",
    "obc_kernel",
    "obc_poisson_false"
   ],
   "note": "Proved: equivalence with the periodic solver on the doubled Domain, Poisson's equation with one eighth of the mean density subtracted, even kernel. Refuted with the density alone as the source."
  },
  {
   "property": "C122",
   "status": "proved",
   "theorems": [
    "restrict_conserves",
    "restrict_linear",
    "prolong_linear"
   ],
   "note": "Even numbers of zones for the conservation of the residual and the prolongation, as the code's recursion needs."
  },
  {
   "property": "C123",
   "status": "partial",
   "theorems": [
    "boundary_monopole_partial",
    "boundary_origin_false"
   ],
   "note": "Proved: all ghost zones hold the monopole of the total mass at the origin. Refuted: independence of the origin."
  },
  {
   "property": "C124",
   "status": "partial",
   "theorems": [
    "vl3_predictor_positive_partial",
    "vl2_predictor_positive_partial",
    "vl1_predictor_positive_partial",
    "ctu1_positive_partial",
    "vl1_predictor_positive_false",
    "ctu1_positive_false"
   ],
   "note": "Isothermal: under the Courant condition new_dt imposes (C < 2, 1, 2/3 in 1D, 2D, 3D predictors, C < 1 in the CTU step). Adiabatic (Gamma at most 5/3): under the condition with 4/3 of the full speed |V|+c instead of |V_t|+c; with |V_t|+c it is false: a layer of shear gives negative density (_false). Zones above the pressure floor; no magnetic field; exact arithmetic."
  },
  {
   "property": "C125",
   "status": "proved",
   "theorems": [
    "crank_nicholson",
    "epicycle",
    "shear_steady",
    "correction_exact",
    "shear_conserves",
    "box_epicycle",
    "box_epicyclic_energy",
    "predictor_forces"
   ],
   "note": "Last steps of the four integrators and ApplyCorr, arbitrary fluxes; StaticGravPot NULL and no self-gravity (C78, C79 are about them); predictor of the van Leer integrators."
  },
  {
   "property": "C126",
   "status": "partial",
   "theorems": [
    "tide_force_partial",
    "null_potential_false",
    "potential_no_force",
    "stratified_false"
   ],
   "note": "Proved for the potential of the tide. Refuted for all others: the last step hard-codes the tide and takes only the energy from ShearingBoxPot; and without one the step calls a null pointer."
  },
  {
   "property": "C127",
   "status": "partial",
   "theorems": [
    "field_loop_solenoidal",
    "field_loop_plane_partial",
    "field_loop_plane_false",
    "field_loop_curl",
    "field_loop_curl2",
    "field_loop_curl3",
    "field_loop_shared",
    "field_loop_shared2",
    "field_loop_centred",
    "linear_wave_solenoidal_partial",
    "linear_wave_plane_false",
    "cpaw_solenoidal_partial",
    "default_fits",
    "zero_fits",
    "linear_wave_centred",
    "cpaw_centred",
    "orszag_tang_solenoidal",
    "orszag_tang_centred",
    "rotor_solenoidal",
    "blast_solenoidal",
    "blast_centred",
    "current_sheet_solenoidal",
    "blast_bounds",
    "current_sheet_bounds_partial",
    "current_sheet_bounds_false",
    "orszag_tang_field"
   ],
   "note": "Proved for every generator in three dimensions, for the loop in the plane, for waves with angles that are zero or not given. False in two dimensions for loops in other planes and for waves with a given angle out of the plane; the current sheet in one dimension writes outside the arrays."
  },
  {
   "property": "C128",
   "status": "partial",
   "theorems": [
    "field_loop_pressure",
    "orszag_tang_pressure",
    "rotor_pressure",
    "blast_pressure",
    "current_sheet_pressure",
    "cpaw_pressure",
    "cpaw_speed",
    "rotor_density_partial",
    "rotor_density_false"
   ],
   "note": "Pressures proved for six generators. The density of the rotor is proved for tapers that end at radius 0.115 and refuted for others: the generator uses fixed radii for the taper. The linear wave sets perturbed conserved variables, its pressure is not stated."
  },
  {
   "property": "C129",
   "status": "proved",
   "theorems": [
    "default_one_length",
    "linear_wave_periodic",
    "linear_wave_seam",
    "cpaw_seam",
    "rotated_loop_periodic",
    "rotated_loop_seam",
    "wave_axes"
   ],
   "note": "One wavelength along each side for angles that are not given, for every shape and dimension; periodicity of state and field; rotated loop."
  },
  {
   "property": "C130",
   "status": "partial",
   "theorems": [
    "code_run_units_partial",
    "run_units_partial",
    "code_units",
    "latt_un",
    "rankDti_units",
    "compact_units_false",
    "floor_units_false"
   ],
   "note": "Proved for the HLLE solver, every integrator (1D/2D/3D, CTU and van Leer), piecewise constant/linear/parabolic reconstruction, isothermal gas in any units; for an adiabatic gas units of density and field in which the floor TINY_NUMBER of the pressure is converted. Refuted: the compact third-order reconstruction depends on the unit of length (compact_units_false), an adiabatic cold gas has the pressure TINY_NUMBER in any units (floor_units_false)."
  },
  {
   "property": "C131",
   "status": "partial",
   "theorems": [
    "code_run_reverse_partial",
    "code_reverse",
    "dt_reverse_partial",
    "dt_reverse_false"
   ],
   "note": "Proved for given time steps, for the HLLE solver, both equations of state, every reconstruction and integrator. The time step itself is the same if faces and centres agree (dt_reverse_partial), but refuted in general: new_dt.c adds |B_face - B_centre| to B_centre, not to its absolute value (dt_reverse_false)."
  },
  {
   "property": "C132",
   "status": "partial",
   "theorems": [
    "ran2_good",
    "ran2_unit",
    "ran2_seed",
    "ran2_seed_false",
    "ran2_power",
    "ran2_streams",
    "grid_seed",
    "grid_seed_false",
    "rank_seed_false",
    "rank_same",
    "ran2_perturb"
   ],
   "note": "Range and no overflow for every seed of 31 bits and every number of calls; different negative seeds never coincide; Grid seeds distinct below 2^31 zones. Refuted: seeds by rank (all ranks but 0 draw the same eight numbers, rank_same) and Domains of 2048^3 zones (overflow). Missing: that the returned numbers, not only the generator's state, differ."
  },
  {
   "property": "C133",
   "status": "partial",
   "theorems": [
    "hist_scalars",
    "hist_types",
    "hist_decomposition",
    "hist_frame",
    "enroll_bound",
    "hist_large_false"
   ],
   "note": "Proved in full for Domains of fewer than 2^31 zones; refuted for larger ones (the number of zones is computed with int). The text of the file is not modelled."
  },
  {
   "property": "C134",
   "status": "proved",
   "theorems": [
    "unit_value",
    "unit_free",
    "unit_derived"
   ],
   "note": "Exact real arithmetic."
  },
  {
   "property": "C135",
   "status": "partial",
   "theorems": [
    "fft2d_correct_partial",
    "ath_2d_fft_partial",
    "counts2_distinct",
    "counts2_pre",
    "counts2_even",
    "remap2_correct",
    "messages_match2",
    "targets_fit2",
    "scratch_fits2",
    "fft2d_false"
   ],
   "note": "Proved for all cases in which each process transforms as many lines as it owns (different lengths, a Grid that does not span x2, or even boxes); refuted in general: the plan for x1 is shared with x2 when lengths agree although the numbers of lines differ."
  },
  {
   "property": "C136",
   "status": "partial",
   "theorems": [
    "Athena.Grav.selfg3_parallel_partial",
    "Athena.Grav.selfg2_parallel_partial",
    "Athena.GravGrids.gravity3_everywhere_partial",
    "Athena.GravGrids.gravity2_everywhere_partial"
   ],
   "note": "End to end: fill work, decomposed transform with its messages, multiplication by the Grid's wave numbers, transform back, normalisation, exchange of the ghost zones of Phi (C137). Missing: divisions for which fft_3d / fft_2d share a plan wrongly (C112, C135: there the transform itself is false), shearing box, star particles."
  },
  {
   "property": "C137",
   "status": "proved",
   "theorems": [
    "Athena.Bvals.phi_ghosts",
    "Athena.Bvals.cntPhi_le_buf"
   ],
   "note": "Grids of different sizes, one to three dimensions, periodic boundaries in all directions; messages as in the model of bvals_mhd. Reflecting boundaries are modelled (bcPhi) but the theorem is about periodic Domains; shearing box and open boundaries not modelled."
  },
  {
   "property": "C138",
   "status": "partial",
   "theorems": [
    "join_all",
    "names_meet",
    "sort_sorts_partial",
    "lists_agree_partial",
    "sort_empty_false"
   ],
   "note": "Full for lists that are not empty; sort_empty_false: for an empty list sort_lis writes outside an array. Files are sequences of typed values; float is opaque."
  },
  {
   "property": "C139",
   "status": "partial",
   "theorems": [
    "joinbin_exact",
    "joinbin_whole_partial",
    "joinbin_gravity_false",
    "joinbin_check_false"
   ],
   "note": "joinbin_exact characterises the joined file for every run; it is the file of one process if there is neither self-gravity nor particle data. Refuted: with self-gravity the potential is dropped; the consistency check accepts all files."
  },
  {
   "property": "C140",
   "status": "partial",
   "theorems": [
    "average_partial",
    "faces_exact",
    "divergence_free",
    "repeats",
    "grids_agree",
    "corner_false",
    "position_false",
    "refined_false",
    "ghosts_partial",
    "stale_false",
    "states_turned"
   ],
   "note": "Proved: exact averages for all zones but those the interface meets in a corner, exact face fields, zero divergence, symmetry, boundary values away from two corners. Refuted for the code: zones at a corner (corner_false), position of the interface (position_false, refined_false), ghost zones next to two corners (stale_false)."
  },
  {
   "property": "C141",
   "status": "partial",
   "theorems": [
    "same_physics",
    "jet_restart_partial",
    "jet_restart_false",
    "strat_restart",
    "hgb_restart_partial",
    "kh_restart_partial",
    "hb3_restart_partial",
    "rt_restart_partial",
    "rt_restart_false",
    "dmr_restart_false",
    "noh_restart_false",
    "shk_cloud_restart_false",
    "shkset2d_restart_false",
    "cylwind_restart_false",
    "pgflow_restart_false",
    "jeans_restart_false",
    "linear_wave_restart_false",
    "collapse3d_gravity_false",
    "blast_restart_false",
    "field_loop_restart_false",
    "history_restart_false",
    "gravity_unset"
   ],
   "note": "Proved for strat; in part for jet, hgb, kh, hb3, rt; refuted for the others, for every input. Static variables are modelled where they are used after the set-up by a generator for which something is proved."
  },
  {
   "property": "C142",
   "status": "partial",
   "theorems": [
    "nozzle_partial",
    "wall_partial",
    "rest_kept",
    "ghost_div_partial",
    "last_face_false",
    "restart_false",
    "restart_partial"
   ],
   "note": "Proved for a new run, and after a restart with the axis at x2 = x3 = 0; refuted after a restart otherwise (the axis is not restored, so the nozzle moves to the origin or is gone) and for the last face of each row, which is never set."
  },
  {
   "property": "C143",
   "status": "partial",
   "theorems": [
    "jump_partial",
    "gamma_false",
    "initial_exact",
    "centre",
    "only_2d",
    "left_exact",
    "wall_exact",
    "top_partial",
    "top_false",
    "active_kept"
   ],
   "note": "Proved for gamma = 1.4, which the code does not check (refuted otherwise); the ghost zones above hold the shock at height 1 instead of their own height (refuted)."
  },
  {
   "property": "C144",
   "status": "partial",
   "theorems": [
    "start_state",
    "ghost_state_partial",
    "density_solves",
    "ghost_start",
    "pressure_false",
    "origin_false",
    "right_covered"
   ],
   "note": "Density and velocity proved; the pressure of the ghost zones is not that of an isentropic flow (refuted in 2D and 3D); a zone centred at the origin divides by zero."
  },
  {
   "property": "C145",
   "status": "partial",
   "theorems": [
    "shock_exact",
    "shock_compresses",
    "initial_partial",
    "boundary_partial",
    "boundary_false",
    "field_false"
   ],
   "note": "Initial state proved without MHD; refuted: the boundary function leaves the outermost ghost zone and overwrites the first active zone; with MHD the fields are never set."
  },
  {
   "property": "C146",
   "status": "partial",
   "theorems": [
    "standing_exact",
    "uniform_flow",
    "checkerboard_partial",
    "decomposition_false",
    "one_d_false",
    "shu_osher_shock"
   ],
   "note": "Shocks proved; the checkerboard is proved in one Grid and refuted across Grids with an odd displacement; one-dimensional runs write outside of the arrays."
  },
  {
   "property": "C147",
   "status": "partial",
   "theorems": [
    "turned",
    "sides",
    "divergence_free",
    "message_false",
    "sod_start",
    "rj_start",
    "sod_jumps",
    "fan_isentropic",
    "sod_pos",
    "rj_contact",
    "root_partial",
    "refined_false",
    "restart_false",
    "error_decomposition",
    "error_zero",
    "fan_characteristic",
    "fan_edges",
    "compare_partial",
    "rj_waves"
   ],
   "note": "Refuted: ath_error(0,...) passes a null format; with refinement the array of the reference solution is overwritten by refined Domains (level not tested at :269); after a restart it is null. Adiabatic gas."
  },
  {
   "property": "C148",
   "status": "partial",
   "theorems": [
    "interface_partial",
    "symmetric",
    "diff_exact",
    "decomposition_false",
    "diff_grid_false",
    "diff_shape_false",
    "refined_false"
   ],
   "note": "Proved for a Domain that is one Grid. Refuted: the loop adds the displacement of the Domain instead of the Grid; diff_d transposes within a Grid and leaves the array of one that is not square; the line moves by a zone with each level."
  },
  {
   "property": "C149",
   "status": "partial",
   "theorems": [
    "rtbis_root",
    "rtbis_succeeds",
    "sonic",
    "zone_steady",
    "zone_supersonic",
    "zone_subsonic",
    "potential_false"
   ],
   "note": "Proved for flow along x1 or x2 over the reals. Refuted: the wavelength of the potential is the length of the Grid, so that the potential depends on the decomposition."
  },
  {
   "property": "C150",
   "status": "partial",
   "theorems": [
    "gas_taper",
    "rotor_partial",
    "rotor_turned",
    "taper_false",
    "rim_false"
   ],
   "note": "Proved for inner radius 0.1 and outer radius 0.115. Refuted for others: the taper and the angular velocity are constants, so that a larger outer radius gives negative densities and another inner radius a different rim velocity."
  },
  {
   "property": "C151",
   "status": "partial",
   "theorems": [
    "sheet_partial",
    "run_inv",
    "run_ok",
    "one_dim_false"
   ],
   "note": "Proved for Newtonian adiabatic gas on a Grid with more than one zone in x2. Refuted in one dimension: a face beyond the array is stored."
  },
  {
   "property": "C152",
   "status": "partial",
   "theorems": [
    "gravity_centripetal",
    "field_force_free",
    "equilibrium",
    "shear_exact",
    "rayleigh",
    "restart_partial",
    "restart_false",
    "restart_fargo_false"
   ],
   "note": "The balance, the shear and the criterion are proved for point values. Refuted: a restart does not enrol the boundary functions nor the rotation profiles."
  }
 ]
}