{"id": "C01", "title": "Parameter reads return the latest write", "statement": "After any sequence of par_sets/par_seti/par_setd calls on the parameter database, par_gets(block,name) returns the value most recently stored for exactly that (block,name) pair, and is a fatal error when no such value was ever stored; a write to one (block,name) never changes the value read for any other pair.", "quantifier": "all databases and all finite sequences of writes, all block/name/value strings", "why_tests_cant": "the history of writes is unbounded; a test samples a handful of histories and names", "anchors": ["src/par.c: par_sets, par_gets, par_exist, add_par, add_block, find_block, find_par"]}
{"id": "C02", "title": "Defaulted reads never overwrite and always register", "statement": "par_gets_def/par_geti_def/par_getd_def return the stored value if the parameter exists and the default otherwise; afterwards the parameter exists and holds exactly the returned value; a value already present is left unchanged, and every other parameter reads as before.", "quantifier": "all databases, all block/name/default strings", "why_tests_cant": "must hold for every database reachable by any history", "anchors": ["src/par.c: par_gets_def, par_geti_def, par_getd_def, par_exist, add_par"]}
{"id": "C03", "title": "No duplicate blocks or parameters", "statement": "However the database is built (file lines, command line, set and defaulted reads), it never contains two blocks of the same name nor two entries of the same name in one block, so that reads are unambiguous; repeated assignments in a file resolve to the last one and a block re-opened later in the file is merged into the first.", "quantifier": "all finite sequences of database operations and all input files", "why_tests_cant": "an invariant over unbounded histories", "anchors": ["src/par.c: add_block, add_par, add_par_line, par_open"]}
{"id": "C04", "title": "par_dump (restart mode) then par_open reproduces the database", "statement": "Writing the database with par_dump(2,fp) and reading the file back with par_open yields the same blocks, in the same order, with the same names, values and comments.", "quantifier": "all databases whose names, values and comments are lexically clean; the code violates it for a parameter with an empty value and a comment", "why_tests_cant": "quantifies over all databases; a test cannot enumerate field widths, comments and orders", "anchors": ["src/par.c: par_dump, par_open, add_par_line, line_block_name, skipwhite, str_term"]}
{"id": "C05", "title": "Command-line overrides touch only existing parameters", "statement": "par_cmdline changes the value of exactly the parameters named by block/name=value arguments, keeps their comments, ignores arguments without a '/' followed later by '=', never creates a parameter, and is a fatal error when the named block or parameter does not exist.", "quantifier": "every database and every list of arguments", "why_tests_cant": "arguments and databases are arbitrary", "anchors": ["src/par.c: par_cmdline"]}
{"id": "C06", "title": "MPI distribution gives every rank the same database", "statement": "After par_dist_mpi every rank's database has the same blocks, names, values and comments, in the same order, as rank 0's.", "quantifier": "all (clean) databases and every number of ranks", "why_tests_cant": "all databases; runtime message sequence", "anchors": ["src/par.c: par_dist_mpi, add_par_line, line_block_name"]}
{"id": "C07", "title": "The main loop stops at the time and step limits and counts steps correctly", "statement": "Whatever time steps the solver proposes, the simulation time never exceeds tlim, the number of cycles never exceeds nlim when nlim >= 0, nstep equals the number of steps taken and time equals the initial time plus the sum of the time steps; the loop ends only because of tlim, nlim, a signal or a wall-clock limit, and the reported termination reason is the true one.", "quantifier": "all sequences of proposed time steps, signal arrivals and limits", "why_tests_cant": "unbounded executions and arbitrary signal arrival points", "anchors": ["src/main.c: main", "src/new_dt.c: new_dt", "src/ath_signal.c: ath_sig_act"]}
{"id": "C08", "title": "Output dump numbers are consecutive and schedules advance by exactly dt", "statement": "Over any run, the k-th dump of each output carries number num0+k (no gap, no repeat), each output is written at most once per call, it is written on an unforced call exactly when time has reached its scheduled time, and each on-schedule dump moves its scheduled time by exactly one output interval; consequently the scheduled time is never left behind the simulation time when every step is no longer than the output interval.", "quantifier": "all sequences of data_output calls, all monotone time sequences, any number of outputs", "why_tests_cant": "unbounded histories of calls", "anchors": ["src/output.c: data_output, init_output"]}
{"id": "C09", "title": "Restarting continues the output schedule exactly", "statement": "The output numbers and scheduled times recorded in the parameter database at a restart dump are exactly those the original run holds after completing that data_output call, for ordinary outputs and for the restart output itself, so that a run resumed from the file numbers and schedules its dumps as the original run does.", "quantifier": "all output configurations and all histories before the restart dump", "why_tests_cant": "the crash/restart point can be any call of any history", "anchors": ["src/output.c: data_output, init_output", "src/restart.c: dump_restart"]}
{"id": "C10", "title": "Restart files restore the simulation state", "statement": "For a Cartesian mesh whose Grids on a processor all have more than one zone in the same directions, and a parameter database no line of which starts with <par_end>, reading back a restart file written by dump_restart restores the cycle number, time, time step, the super-time-stepping state, the value of every conserved variable, interface field and scalar in every active zone (and face) of every Grid, in 1D, 2D and 3D, and every live particle with its type table; restored cell-centred fields are the averages of the restored interface fields; exactly the user's problem data are left unread.", "quantifier": "all mesh sizes, all field values, any number of Grids, any number of particles, any bytes in the values", "why_tests_cant": "all states and sizes", "anchors": ["src/restart.c: dump_restart, restart_grids"]}
{"id": "C11", "title": "Buffered restart writing does not change the file contents", "statement": "The bytes written through the fixed-size write buffer of dump_restart are exactly the sequence of values in order, for every buffer capacity and every number of values, and the buffer index never exceeds its capacity.", "quantifier": "all value sequences and all buffer capacities", "why_tests_cant": "off-by-one at buffer boundary only shows at particular sizes", "anchors": ["src/restart.c: dump_restart"]}
{"id": "C12", "title": "Grids tile each Domain exactly", "statement": "The Grids into which a Domain is divided cover every cell of the Domain exactly once: in each direction the Grid sizes sum to the Domain size, displacements are the running sums, sizes differ by at most one with the larger ones first, and every cell belongs to exactly one Grid.", "quantifier": "all Domain sizes and all Grid counts 1 <= NGrid <= Nx per direction", "why_tests_cant": "all sizes/counts", "anchors": ["src/init_mesh.c: init_mesh (step 6)"]}
{"id": "C13", "title": "Automatic domain decomposition is valid, complete and optimal", "statement": "When a processor count is requested, the decomposition chosen uses exactly that many Grids with at least one cell per Grid in every direction; it fails only if no such factorisation exists; and the chosen split minimises the communication cost over all such factorisations.", "quantifier": "all Domain sizes and processor counts", "why_tests_cant": "number-theoretic search over unbounded sizes", "anchors": ["src/init_mesh.c: dom_decomp, dom_decomp_2d, dom_decomp_3d"]}
{"id": "C14", "title": "Processor assignment is balanced and never doubles up within a Domain", "statement": "When init_mesh accepts a configuration, every rank is assigned the same number of Grids, and no rank holds two Grids of the same Domain.", "quantifier": "all numbers of ranks and all lists of per-Domain Grid counts", "why_tests_cant": "unbounded lists of domains", "anchors": ["src/init_mesh.c: init_mesh (step 6), get_myGridIndex"]}
{"id": "C15", "title": "Same-level Domains never overlap or touch", "statement": "A configuration accepted by init_mesh has no two Domains on the same refined level that share a cell or a face, edge or corner.", "quantifier": "all lists of Domains", "why_tests_cant": "all configurations", "anchors": ["src/init_mesh.c: init_mesh (step 4)"]}
{"id": "C16", "title": "Refined Domains are properly nested", "statement": "A configuration accepted by init_mesh has every refined Domain contained in a Domain one level coarser, with at least nghost/2 coarse cells of padding on every side that is not at the edge of the root Domain. (The code checks this only against parents the Domain overlaps or touches, so a Domain away from every parent is accepted: the unrestricted statement is false.)", "quantifier": "all mesh configurations", "why_tests_cant": "all configurations", "anchors": ["src/init_mesh.c: init_mesh (step 5)"]}
{"id": "C17", "title": "Overlap computation returns exactly the shared cells", "statement": "For boxes with at least one cell, checkOverlap reports an overlap exactly when the two index boxes share a cell, and then returns exactly the set of shared cells; checkOverlapTouch reports exactly the pairs of boxes that share at least a corner; both are symmetric in their arguments.", "quantifier": "all pairs of non-empty integer boxes", "why_tests_cant": "all integer boxes", "anchors": ["src/init_grid.c: checkOverlap, checkOverlapTouch"]}
{"id": "C18", "title": "Parent and child agree on the size of every refinement message", "statement": "The number of words a child Grid sends to a parent Grid in restriction and the number it receives in prolongation, computed on the child from its parent-overlap table, equal the numbers computed on the parent from its child-overlap table. (False when a child Grid has an odd displacement or size because of the MPI decomposition.)", "quantifier": "all pairs of child and parent Grids", "why_tests_cant": "all sizes and decompositions", "anchors": ["src/init_grid.c: init_grid (steps 3,4), checkOverlap, checkOverlapTouch"]}
{"id": "C19", "title": "Neighbour tables are mutually consistent", "statement": "If a direction is periodic on both sides or on neither: if Grid A's right (left) neighbour is Grid B then B's left (right) neighbour is A; Grids at a Domain edge have no neighbour there, except that a periodic direction with more than one Grid wraps around. (With a periodic flag on one side only, which is accepted, the tables are inconsistent.)", "quantifier": "all Grid counts, positions and boundary flags", "why_tests_cant": "all decompositions", "anchors": ["src/init_grid.c: init_grid (step 2)", "src/bvals_mhd.c: bvals_mhd_init", "src/init_mesh.c: init_mesh (step 8)"]}
{"id": "C20", "title": "Boundary conditions fill all ghost zones and leave active zones unchanged", "statement": "For every combination of reflecting, outflow, periodic and conducting boundaries, after bvals_mhd on a Grid every zone of the arrays, edges and corners included, holds the prescribed image (mirror image with the odd members reversed, copy of the last active zone, or periodic image), and so does every interface field except at the first face of the array; every image is an active zone; active zones are unchanged, and of the active interface fields only those on a reflecting boundary change (they become zero); applying the boundary conditions twice gives the same result as once. Every Grid must have at least nghost zones (and at least two) in every extended direction.", "quantifier": "all Grid sizes, all field values, all combinations of boundary types", "why_tests_cant": "all sizes and states", "anchors": ["src/bvals_mhd.c: bvals_mhd, reflect_ix1.., outflow_ix1.., periodic_ix1.., conduct_ix1.."]}
{"id": "C21", "title": "MPI ghost exchange delivers the neighbour's zones and fits its buffers", "statement": "Packing on one Grid and unpacking on its neighbour copies exactly the neighbour's nghost layers of active zones (and interface fields) into the ghost zones; the number of words packed, the declared message length and the number unpacked are equal, and never exceed the allocated buffer.", "quantifier": "all Grid sizes and dimensionalities, with and without MHD and scalars", "why_tests_cant": "all sizes", "anchors": ["src/bvals_mhd.c: pack_ix1..ox3, unpack_ix1..ox3, bvals_mhd, bvals_mhd_init"]}
{"id": "C22", "title": "Decomposed and single-Grid runs see the same ghost data", "statement": "On a Domain split into any number of Grids, after bvals_mhd every zone of every Grid, ghost zones and corners included, and every interface field but the first, equals that of the undecomposed Domain after its bvals_mhd, in whatever order messages arrive, provided every Grid has at least nghost zones (and at least two) in each extended direction and a divided direction is periodic on both sides or on none.", "quantifier": "all decompositions, states, message orders and combinations of boundary types", "why_tests_cant": "all decompositions", "anchors": ["src/bvals_mhd.c: bvals_mhd, bvals_mhd_init, pack_ix1..ox3, unpack_ix1..ox3"]}
{"id": "C23", "title": "The time step respects the CFL condition everywhere", "statement": "The time step returned by new_dt satisfies dt*(|v_d|+c_d)/dx_d <= CourNo for every active zone of every Grid on every level and rank and every direction with more than one zone. (False for MHD with negative fields because of a missing absolute value, and for particles.)", "quantifier": "all meshes, all states, all numbers of ranks", "why_tests_cant": "max over unbounded numbers of zones", "anchors": ["src/new_dt.c: new_dt"]}
{"id": "C24", "title": "The time step never more than doubles and never overshoots tlim", "statement": "After the first cycle the new time step is at most twice the previous one, time+dt never exceeds tlim while time < tlim, all ranks obtain the same time step, and enabling diffusion never increases it beyond what the hydrodynamic limit and the diffusion limit (or the super-time-stepping extension) allow.", "quantifier": "all previous steps, times and limits", "why_tests_cant": "all histories", "anchors": ["src/new_dt.c: new_dt", "src/microphysics/new_dt_diff.c"]}
{"id": "C25", "title": "Primitive/conserved conversion round-trips", "statement": "Converting primitive to conserved variables and back is the identity for positive density and pressure at or above the floor; conserved to primitive and back is the identity unless the pressure floor was applied; the pressure returned is never below the floor; mass, momentum, transverse field and scalars are preserved even when it is.", "quantifier": "all states (exact arithmetic), adiabatic/isothermal, hydro/MHD, any number of scalars", "why_tests_cant": "continuum of states", "anchors": ["src/convert_var.c: Cons1D_to_Prim1D, Prim1D_to_Cons1D, Cons_to_Prim, Prim_to_Cons"]}
{"id": "C26", "title": "The fast speed bounds all signal speeds", "statement": "The fast magnetosonic speed returned by cfast/cfast_prim is real and at least as large as the sound speed and the Alfven speed along the slice, is independent of the sign of the field, and equals the sound speed for zero field.", "quantifier": "all physical states", "why_tests_cant": "continuum of states", "anchors": ["src/convert_var.c: cfast, cfast_prim"]}
{"id": "C27", "title": "Restriction conserves mass, momentum, energy and scalars", "statement": "The coarse values stored by restriction equal the average of the covered fine zones, so that the integral over the region of every conserved variable is the same on parent and child.", "quantifier": "all overlap sizes in 1D, 2D, 3D and all states", "why_tests_cant": "all sizes and states", "anchors": ["src/smr.c: RestrictCorrect"]}
{"id": "C28", "title": "Flux correction makes the composite mesh conservative", "statement": "After a step on a parent Grid and its child and the flux correction, the total of each conserved variable over the composite mesh (uncovered coarse zones plus fine zones) changes only by the fluxes through the outer boundary.", "quantifier": "all fluxes, all positions and sizes of the refined region", "why_tests_cant": "all states and sizes", "anchors": ["src/smr.c: RestrictCorrect"]}
{"id": "C29", "title": "Restriction of the face-centred field preserves its divergence", "statement": "The coarse face fields obtained by averaging fine faces give each covered coarse zone a discrete divergence equal to the average divergence of its fine zones; in particular zero if the fine field is divergence-free.", "quantifier": "all fields and overlap sizes", "why_tests_cant": "continuum of states", "anchors": ["src/smr.c: RestrictCorrect"]}
{"id": "C30", "title": "Prolongation conserves and creates no new extrema", "statement": "The 2/4/8 fine values produced by prolongation of density, momenta, fields and scalars average to the coarse value, and each one-dimensional profile stays within the range of the coarse zone and its two neighbours; a uniform coarse state is reproduced exactly.", "quantifier": "all coarse stencils", "why_tests_cant": "continuum of states", "anchors": ["src/smr.c: ProCon, mcd_slope"]}
{"id": "C31", "title": "Prolongation of the face field is divergence-preserving and keeps fine fields", "statement": "The face fields produced by ProFld give all eight fine zones the same discrete divergence, namely that of the block boundary (zero if the coarse field is divergence free), and values already known on fine/coarse boundaries are kept. (The code uses the value 0.0 as 'not set', so a known field that vanishes on one face is overwritten: the unrestricted statement is false.)", "quantifier": "all stencils and zone sizes", "why_tests_cant": "continuum of states", "anchors": ["src/smr.c: ProFld"]}
{"id": "C32", "title": "The integrators conserve mass, momentum, energy and scalars", "statement": "Without source terms one step of any integrator (van Leer or CTU; 1D, 2D or 3D) changes the volume integral of each conserved variable over a Grid by exactly dt/dx times the differences of its fluxes through opposite faces of the Grid; with periodic boundaries the integral over the Domain is exactly constant over any number of steps, however the Domain is divided into Grids.", "quantifier": "all six integrators, all Grid sizes, all states, any Riemann solver and reconstruction, all decompositions and message orders, any number of steps", "why_tests_cant": "all states, unbounded number of steps", "anchors": ["src/integrators/integrate.c: integrate_init", "src/integrators/integrate_1d_vl.c: integrate_1d_vl", "src/integrators/integrate_2d_vl.c: integrate_2d_vl", "src/integrators/integrate_3d_vl.c: integrate_3d_vl", "src/integrators/integrate_1d_ctu.c: integrate_1d_ctu", "src/integrators/integrate_2d_ctu.c: integrate_2d_ctu", "src/integrators/integrate_3d_ctu.c: integrate_3d_ctu"]}
{"id": "C33", "title": "Constrained transport keeps div B = 0", "statement": "A step of any integrator leaves the discrete divergence of the interface fields of every active zone exactly unchanged, whatever the electric fields; so a field that is divergence free initially stays so after any number of steps, in 1D, 2D and 3D, on Domains divided into Grids in any way, unless a boundary is reflecting (there the boundary functions overwrite the field on the wall).", "quantifier": "all six integrators, all EMFs, all fields, all Grid sizes, all decompositions, any number of steps", "why_tests_cant": "continuum of states, unbounded steps", "anchors": ["src/integrators/integrate_3d_vl.c: integrate_3d_vl", "src/integrators/integrate_2d_vl.c: integrate_2d_vl", "src/integrators/integrate_2d_ctu.c: integrate_2d_ctu", "src/integrators/integrate_3d_ctu.c: integrate_3d_ctu", "src/bvals_mhd.c: bvals_mhd"]}
{"id": "C34", "title": "Riemann solvers are consistent and upwind", "statement": "For equal left and right states every approximate Riemann solver (HLLE, HLLC, HLLD, FORCE, two-shock, Roe) and the exact solver return the physical flux; if all waves of its fan move to the right (left) it returns the physical flux of the left (right) state, where the fan contains the fast speeds of both sides; HLLE returns the fan average; inside the fan HLLC, HLLD and two-shock satisfy the jump conditions across every wave with middle states of positive density and HLLC keeps a contact discontinuity exactly; passive scalars are advected with the mass flux from the upwind side. (HLLC: for isothermal gas and gamma >= 5/4; for gamma close to 1 its contact can leave the fan and the upwind clause is false. Roe: the scalar clause is false when all waves of its fan move away from the side whose gas moves towards the interface.) (HLLD: the jump conditions fail at waves that the solver treats as degenerate, or with the density floor; an Alfven wave can be faster than the outer wave on its side.)", "quantifier": "all physical states, all scalars, hydrodynamics and MHD, adiabatic and isothermal", "why_tests_cant": "continuum of states", "anchors": ["src/rsolvers/hlle.c: fluxes", "src/rsolvers/hllc.c: fluxes", "src/rsolvers/force.c: fluxes", "src/rsolvers/two_shock.c: fluxes", "src/rsolvers/roe.c: fluxes", "src/rsolvers/hlld.c: fluxes", "src/rsolvers/exact.c: fluxes"]}
{"id": "C35", "title": "Riemann solvers are mirror symmetric", "statement": "Exchanging and mirroring the left and right states mirrors the flux (HLLE, HLLC, HLLD, two-shock, FORCE, Roe, exact). (False for the FORCE solver in adiabatic MHD, which uses the left magnetic pressure for the central state.) (False for HLLD at a current sheet at rest with a small normal field, and for isothermal HLLD when the density floor acts without a normal field.)", "quantifier": "all physical states", "why_tests_cant": "continuum of states", "anchors": ["src/rsolvers/hlle.c: fluxes", "src/rsolvers/hllc.c: fluxes", "src/rsolvers/force.c: fluxes", "src/rsolvers/two_shock.c: fluxes", "src/rsolvers/roe.c: fluxes", "src/rsolvers/esystem_roe.c", "src/rsolvers/hlld.c: fluxes", "src/rsolvers/exact.c: fluxes"]}
{"id": "C36", "title": "Reconstruction is monotone, exact for uniform and linear data, and local", "statement": "With the van Leer integrator, the states reconstructed at an interface by donor cell, second and third order primitive, PLM, PPM and Koren-limited compact reconstruction lie between the values of the two adjacent zones, variable by variable, so that no new extrema and no negative densities or pressures are created. Uniform data are reproduced (also by the CTU tracing steps). Linear data are reproduced by the second and third order schemes. Donor-cell states are the adjacent zone values. The states depend only on the zones within the order of the scheme from the interface.", "quantifier": "all data, index ranges, previous contents of the work arrays, numbers of scalars and (for the bounds) all eigensystems", "why_tests_cant": "continuum of states; the limiters branch on signs of differences", "anchors": ["src/reconstruction/lr_states_dc.c: lr_states", "src/reconstruction/lr_states_prim2.c: lr_states", "src/reconstruction/lr_states_plm.c: lr_states", "src/reconstruction/lr_states_prim3.c: lr_states", "src/reconstruction/lr_states_ppm.c: lr_states", "src/reconstruction/lr_states_p3c.c: lr_states", "src/reconstruction/esystem_prim.c: esys_prim_adb_hyd, esys_prim_iso_hyd"]}
{"id": "C37", "title": "gcd is correct", "statement": "ath_gcd(a,b) returns the greatest common divisor for all positive arguments; for b = 0 it divides by zero.", "quantifier": "all pairs of non-negative integers", "why_tests_cant": "all integers", "anchors": ["src/utils.c: ath_gcd"]}
{"id": "C38", "title": "Byte swapping is an involution that reverses each word", "statement": "ath_bswap on a buffer of cnt words of len bytes (len = 2, 4, 8) reverses the bytes of each word, leaves other memory unchanged, and applied twice restores the buffer. (For other lengths the code ignores cnt: only the first word is swapped.)", "quantifier": "all buffers, word counts and lengths", "why_tests_cant": "all buffers", "anchors": ["src/utils.c: ath_bswap"]}
{"id": "C39", "title": "LU decomposition solves linear systems and inverts matrices", "statement": "For every n and every nonsingular matrix, ludcmp returns, lubksb returns the solution of A x = b for every right-hand side, the returned sign times the product of the diagonal is the determinant, and InverseMatrix returns the two-sided inverse; MatrixMult returns the product. ludcmp reports an error exactly for a matrix with a zero row, and never uses an unset pivot index. (A singular matrix without a zero row is not reported.)", "quantifier": "all dimensions n, all matrices and all right-hand sides", "why_tests_cant": "The statement ranges over all dimensions and all real matrices, including every pattern of row exchanges.", "anchors": ["src/utils.c: ludcmp, lubksb, InverseMatrix, MatrixMult"]}
{"id": "C40", "title": "Bisection and min/max utilities", "statement": "bisection only returns success when the returned point is within tolerance of a sign change bracketed by the input, and reports failure when the end points do not bracket; minmax1/2/3 return the true minimum and maximum of the whole array.", "quantifier": "all functions, intervals and arrays", "why_tests_cant": "all functions", "anchors": ["src/utils.c: bisection, sign_change, minmax1, minmax2, minmax3"]}
{"id": "C41", "title": "Vector potentials give divergence-free fields", "statement": "The interface fields initialised from an edge vector potential have exactly zero discrete divergence in every zone.", "quantifier": "all vector potentials and mesh sizes", "why_tests_cant": "all functions", "anchors": ["src/utils.c: vecpot2b1i, vecpot2b2i, vecpot2b3i"]}
{"id": "C42", "title": "The I/O baton never admits more than the allowed number of ranks and never deadlocks", "statement": "With baton_start/baton_stop at most Nb ranks are between start and stop at any moment, and in every schedule every rank eventually gets the baton.", "quantifier": "all numbers of ranks, all Nb >= 1, all interleavings", "why_tests_cant": "all schedules", "anchors": ["src/baton.c: baton_start, baton_stop"]}
{"id": "C43", "title": "Signals are never lost and stop the run cleanly", "statement": "A termination signal arriving at any point before the check of a cycle on any rank stops the main loop on all ranks at the end of the same cycle; without signals the loop is not stopped.", "quantifier": "all arrival points and ranks", "why_tests_cant": "all schedules", "anchors": ["src/ath_signal.c: ath_sig_init, ath_sig_act, handler", "src/main.c"]}
{"id": "C44", "title": "Log levels filter exactly", "statement": "A message of level n is emitted exactly when n does not exceed the configured level of its stream, and output/error levels act independently.", "quantifier": "all sequences of configuration and print calls", "why_tests_cant": "all histories", "anchors": ["src/ath_log.c: ath_pout, ath_perr, ath_log_set_level"]}
{"id": "C45", "title": "Output file names are unique and fit their buffer", "statement": "ath_fname produces different names for different (level, domain, dump number, id) and the string always fits in the memory allocated for it.", "quantifier": "all base names, levels, domains, numbers, ids", "why_tests_cant": "all inputs", "anchors": ["src/ath_files.c: ath_fname"]}
{"id": "C46", "title": "Slice specifications select the intended zones", "statement": "Parsing 'l:u', ':', 'l:', ':u' and single values yields the interval written, with the Domain's end as the default for a blank side; reversed bounds are never accepted; on each Grid the output over a range is the arithmetic mean of exactly the zones whose extent meets the range, of which there is at least one, and no data are returned for a range outside the Grid.", "quantifier": "all slice strings, all Grids, with and without ghost zones in the output", "why_tests_cant": "all inputs", "anchors": ["src/output.c: parse_slice, OutData1, OutData2, OutData3"]}
{"id": "C47", "title": "Cell position functions are mutually inverse", "statement": "cc_pos/fc_pos and celli/cellj/cellk agree: the position of a zone centre is mapped back to that zone, and every position in the Grid (active or ghost zones) is mapped to the zone whose faces enclose it; neighbouring Grids' positions agree on the shared face.", "quantifier": "all zones with non-negative index and all positions in the Grid's arrays", "why_tests_cant": "continuum of positions", "anchors": ["src/cc_pos.c: cc_pos, fc_pos, celli, cellj, cellk", "src/init_grid.c: init_grid"]}
{"id": "C48", "title": "Message completion order does not matter in refinement exchanges", "statement": "Mapping the index returned by MPI_Waitany over the compacted list of non-empty messages back to the table of parents/children identifies the matching table entry, and the buffer offset used is that entry's; so results do not depend on the order in which messages complete.", "quantifier": "all tables of message sizes and all completion orders", "why_tests_cant": "all schedules", "anchors": ["src/smr.c: RestrictCorrect, Prolongate"]}
{"id": "C49", "title": "Multi-dimensional arrays never alias and are zero-initialised", "statement": "For dimensions of at least one whose total size fits size_t, calloc_1d/2d/3d_array give distinct memory cells for distinct in-range index tuples, covering a single contiguous zeroed block.", "quantifier": "all sizes >= 1 whose byte count fits in size_t", "why_tests_cant": "all sizes", "anchors": ["src/ath_array.c: calloc_1d_array, calloc_2d_array, calloc_3d_array"]}
{"id": "C50", "title": "Numerical ODE and quadrature helpers are exact on the functions they claim", "statement": "The trapezoidal refinement trapzd computes the composite trapezoid sum with 2^(n-1) intervals for every n; qsimp combines them to Simpson's rule, exact for cubics.", "quantifier": "all functions, intervals and refinement levels", "why_tests_cant": "all functions", "anchors": ["src/utils.c: trapzd, qsimp"]}
{"id": "C51", "title": "Refinement overlap tables are complete", "statement": "The table of child (parent) Grids of a Grid holds every Grid found to overlap or touch exactly once, those on the same rank first and the others after them, each group in search order; the counting pass and the filling pass agree, so no entry is left unset, written twice or written out of range.", "quantifier": "all sequences of candidate Grids", "why_tests_cant": "all configurations and rank assignments", "anchors": ["src/init_grid.c: init_grid (steps 3,4)"]}
{"id": "C52", "title": "Child Grids are addressed by their position in the parent communicator", "statement": "The list of world ranks from which the communicator of a Domain and its children is built has no duplicates and fits its array, and for each child Grid the stored process number in that communicator is the position of the Grid's own world rank in the list. (The last part is false unless the Domain's Grids are on ranks 0,1,2,...: an existing rank is recorded by its world rank instead of its position.)", "quantifier": "all rank assignments", "why_tests_cant": "all decompositions", "anchors": ["src/init_mesh.c: init_mesh (step 9)"]}
{"id": "C53", "title": "Input files produce only well-formed parameters", "statement": "Whatever text the input file contains, if par_open accepts it then every stored parameter name is non-empty, has no surrounding white space and contains no '=', '#' or newline, every stored comment is non-empty and trimmed, and values without '#' are trimmed and free of newlines. (A line whose first non-blank character is '=' makes the parser read before the start of the name: undefined behaviour.)", "quantifier": "every input file without NUL characters, of any length and with any line lengths", "why_tests_cant": "the set of input files is unbounded, including lines longer than the line buffer, which are split", "anchors": ["src/par.c: par_open", "src/par.c: add_par_line", "src/par.c: line_block_name", "src/par.c: str_term"]}
{"id": "C54", "title": "Super-time-stepping sub-steps add up to the time step", "statement": "With super time stepping, the sub-steps taken by the diffusion operators in one cycle add up to exactly the time step of the cycle, there are between 1 and 12 of them and no more than the table requires, the time step is never increased, and the base sub-step exceeds the explicit diffusion limit by at most the rounding of the table.", "quantifier": "all time steps and diffusion limits", "why_tests_cant": "an identity over all real time steps and all numbers of sub-steps", "anchors": ["src/new_dt.c: new_dt, get_N_STS", "src/main.c"]}
{"id": "C55", "title": "The explicit diffusion step is stable", "statement": "The time step allowed by new_dt for conduction, viscosity and resistivity satisfies the stability condition of the explicit scheme, coefficient * dt * (sum over directions of 1/dx^2) <= CourNo/2, for every Grid and every zone, in 1D, 2D and 3D.", "quantifier": "all meshes, spacings, coefficients, numbers of ranks", "why_tests_cant": "all meshes and coefficient fields", "anchors": ["src/microphysics/new_dt_diff.c: new_dt_diff", "src/new_dt.c: new_dt"]}
{"id": "C56", "title": "Every Domain and every output writes its own file", "statement": "Within one call of a dump or output function no two Domains use the same file name, and two outputs of the same type with different ids use different names. (True for the outputs that build the name for each Domain; the dump functions keep the Domain tag of an earlier Domain, and ignore the id, so the unrestricted statement is false for them.)", "quantifier": "all meshes, Domain/Grid placements, level and Domain selections, dump numbers and ids", "why_tests_cant": "all mesh shapes and selections; collisions need particular combinations of levels and Domains", "anchors": ["src/dump_vtk.c: dump_vtk", "src/dump_binary.c: dump_binary", "src/dump_tab.c: dump_tab_cons", "src/output_vtk.c: output_vtk", "src/output_tab.c", "src/ath_files.c: ath_fname"]}
{"id": "C60", "title": "A decomposed run is the single-Grid run, bit for bit", "statement": "Run the integrator selected by integrate_init (van Leer or CTU, one, two or three dimensions) followed by the boundary exchange for any number of cycles on a Domain split into any number of Grids, with any message order and any leftovers in work arrays. Every zone and interface field of every Grid, ghost zones included, equals that of the run on one Grid, in the machine's own arithmetic.", "quantifier": "all six integrators, all decompositions, initial states, Riemann solvers, reconstructions of at most three zones on a side (proved for all six schemes of the code), message orders, numbers of cycles; any arithmetic, so in particular IEEE doubles", "why_tests_cant": "all decompositions and states, unbounded number of steps", "anchors": ["src/integrators/integrate.c: integrate_init", "src/integrators/integrate_3d_vl.c: integrate_3d_vl", "src/integrators/integrate_3d_ctu.c: integrate_3d_ctu", "src/integrators/integrate_2d_ctu.c: integrate_2d_ctu", "src/bvals_mhd.c: bvals_mhd", "src/main.c"]}
{"id": "C61", "title": "Relativistic reconstruction stays below the speed of light", "statement": "If the velocities in all zones are below the speed of light, so are the velocities of the reconstructed interface states in special relativistic hydrodynamics.", "quantifier": "all data", "why_tests_cant": "continuum of states; oblique velocities near the speed of light are rare in tests", "anchors": ["src/reconstruction/lr_states_prim2.c: lr_states"]}
{"id": "C62", "title": "Characteristic tracing and LimO3 create no new extrema", "statement": "Under the CFL condition the states of the CTU tracing step lie between the values of the two adjacent zones for passive scalars and for waves at rest, a constant variable stays constant, and with an HLL-type flux the step advances the interface values by half a time step of the linearised equations; the LimO3-limited compact scheme creates no new extrema.", "quantifier": "all data satisfying the CFL condition, any number of scalars", "why_tests_cant": "continuum of states; waves exactly at rest and several scalars are special cases", "anchors": ["src/reconstruction/lr_states_prim2.c: lr_states", "src/reconstruction/lr_states_plm.c: lr_states", "src/reconstruction/lr_states_prim3.c: lr_states", "src/reconstruction/lr_states_p3c.c: lr_states"]}
{"id": "C63", "title": "EMF correction keeps the divergence outside the refined region", "statement": "After a restriction step with EMF correction the discrete divergence of the face-centred field in every active coarse zone that is not covered by the child is exactly what it was before, so that a divergence-free coarse field stays divergence-free next to refinement boundaries, also at their edges and corners.", "quantifier": "all fields, all EMFs on both Grids, all positions and sizes of the refined region in 2D and 3D", "why_tests_cant": "continuum of fields and all positions, including regions that touch the boundary of the Grid", "anchors": ["src/smr.c: RestrictCorrect"]}
{"id": "C64", "title": "Results do not depend on the names of the axes", "statement": "If the axes of a three-dimensional problem are renamed cyclically (initial data, zone sizes, boundary conditions, decomposition), then after any number of cycles every zone and interface of the new run, ghost zones included, holds the value of the corresponding zone or interface of the old run (in exact arithmetic), for both integrators, any Riemann solver and reconstruction and any decomposition of either run.", "quantifier": "every initial state, sequence of time steps, number of cycles, pair of decompositions, message order, contents of work arrays, boundary condition, Riemann solver and reconstruction", "why_tests_cant": "A test compares a few rotated problems; an index slip in one direction only shows for particular data and boundary conditions.", "anchors": ["src/integrators/integrate_3d_vl.c", "src/integrators/integrate_3d_ctu.c", "src/bvals_mhd.c"]}
{"id": "C65", "title": "Roe's and the HLLD solver keep a single discontinuity exactly", "statement": "The eigensystem used by the Roe solver is a dual pair of bases with ascending speeds whose matrix maps the jump between the two states to the jump between their fluxes; without H-correction the flux is that of the linearised Riemann problem at the interface, replaced by the HLLE flux exactly if the fan straddles the interface and contains a state of non-positive density or negative pressure. Hence a single shock, contact or rotational discontinuity moving with speed s gives the flux of the state on the upwind side of it. (In MHD this fails when both density and transverse field jump and gamma is not 2: a tangential discontinuity at rest is not kept.) The HLLD solver keeps every contact, tangential or rotational discontinuity exactly (isothermal: with equal densities), if the normal field is zero or not small.", "quantifier": "all pairs of physical states, hydrodynamics and MHD, adiabatic and isothermal", "why_tests_cant": "continuum of states; degenerate eigensystems", "anchors": ["src/rsolvers/roe.c: fluxes", "src/rsolvers/esystem_roe.c: esys_roe_iso_hyd, esys_roe_adb_hyd, esys_roe_iso_mhd, esys_roe_adb_mhd", "src/rsolvers/hlld.c: fluxes"]}
{"id": "C66", "title": "The exact Riemann solver solves the Riemann problem", "statement": "The flux returned by the exact solver is the physical flux, at the interface, of the self-similar solution of the Riemann problem: the given states, a left- and a right-going wave that is a compressive shock with the jump conditions or an isentropic rarefaction fan, and a contact with equal velocity and pressure. A contact discontinuity gives exactly the upwind flux. The isothermal solver returns a flux for all physical states; the adiabatic solver returns one unless the gases separate so fast that a vacuum forms, in which case it stops with an error. (False of the code in two ways: the isothermal root finder has an absolute tolerance, so at densities near or below DBL_EPSILON it returns the middle of its bracket; the adiabatic iteration restarts from an absolute pressure 1e-6 and stops with an error for strong rarefactions that do not form a vacuum.)", "quantifier": "all physical left and right states, all passive scalars, isothermal and adiabatic hydrodynamics", "why_tests_cant": "continuum of states; the failures are at extreme densities and separations that no test samples", "anchors": ["src/rsolvers/exact.c: fluxes, rtsafe, srder, guessP, PFunc, PFuncDeriv, getPC"]}
{"id": "C70", "title": "Explicit thermal conduction moves energy from hot to cold, conserves it and keeps a uniform temperature", "statement": "The explicit conduction update changes the energy of active zones only; every total is conserved in a periodic Domain and the divergence of the field is unchanged; a uniform temperature is kept exactly; the isotropic flux through a face has the sign from hot to cold, and the anisotropic flux vanishes across field lines and does not depend on the sign of the field. With the time step the program chooses and a uniform density, the new temperature of a zone lies between the lowest and highest old temperature of the zone and its neighbours. (False of the code in two ways: with a density contrast the program's time step can make the temperature negative; and the two-dimensional anisotropic flux leaves the x3-component out of the field strength, so two-dimensional data evolve differently in a three-dimensional Grid.)", "quantifier": "all zone data, coefficients, Grid sizes, dimensions and contents of the work arrays", "why_tests_cant": "the bound on the temperature must hold for every profile and density; tests use smooth profiles with uniform density", "anchors": ["src/microphysics/conduction.c: conduction, HeatFlux_iso, HeatFlux_aniso, limiter2, limiter4, vanleer", "src/microphysics/new_dt_diff.c: new_dt_diff"]}
{"id": "C72", "title": "Explicit viscosity conserves momentum and energy, heats, and leaves rigid motion alone", "statement": "The explicit viscous update changes only momentum and energy of active zones; every total is conserved in a periodic Domain; for a velocity field that is linear in position and a uniform density the momentum is unchanged and the energy grows at the rate of the Navier-Stokes heating, which is non-negative and zero exactly for rigid rotation plus uniform expansion in three dimensions; a rigidly moving or rotating gas is unchanged; and in a frame moving with a constant velocity the update gives the same velocities and the same internal energy.", "quantifier": "all zone data, coefficients, Grid sizes, dimensions and contents of the work arrays", "why_tests_cant": "must hold for every velocity field and frame", "anchors": ["src/microphysics/viscosity.c: viscosity, ViscStress_iso"]}
{"id": "C71", "title": "Explicit resistivity conserves, keeps div B, heats by eta J^2 and never amplifies the field", "statement": "The explicit resistive update changes nothing but energy and magnetic field of active zones; every total is conserved in a periodic Domain and the divergence of every zone is unchanged; a field without current is left unchanged whatever the diffusivities; in a field that is linear in position with uniform Ohmic diffusivity the field is unchanged and every zone gains exactly dt*eta*J^2; and with the time step the program chooses the energy of the magnetic field in a periodic Domain does not grow (Ohmic diffusion with diffusivities that differ from zone to zone in any number of dimensions, with ambipolar diffusion in one).", "quantifier": "all zone data, diffusivities, Grid sizes, dimensions, Courant numbers up to 1 and contents of the work arrays", "why_tests_cant": "stability must hold for every field and every distribution of diffusivities", "anchors": ["src/microphysics/resistivity.c: resistivity, EField_Ohm, EField_AD", "src/microphysics/get_eta.c: get_eta", "src/microphysics/new_dt_diff.c: new_dt_diff"]}
{"id": "C73", "title": "Runs with conduction, resistivity and viscosity: decomposition, conservation, div B, decay", "statement": "A run whose cycles call the explicit diffusion operators, in any combination and any number of times, and the integrator, each followed by the boundary conditions, gives the same result on every division of the Domain into Grids; on a periodic Domain it conserves mass, momentum, energy, scalars and magnetic flux; without reflecting boundaries the divergence of the field of every zone stays what it was; and no diffusion step with the program's time step increases the magnetic energy of a periodic Domain.", "quantifier": "all runs of any length, integrators, dimensions, decompositions, message orders, initial states, coefficients and contents of the work arrays", "why_tests_cant": "ranges over all runs and decompositions", "anchors": ["src/main.c: main (517-625)", "src/microphysics/integrate_diffusion.c: integrate_diff", "src/microphysics/conduction.c", "src/microphysics/resistivity.c", "src/microphysics/viscosity.c", "src/bvals_mhd.c: bvals_mhd"]}
{"id": "C74", "title": "Restarting a run with resistivity", "statement": "A resistive run that is stopped, written to a restart file and restarted reaches the same states as the run that was not stopped. (False of the code: the diffusivities are not in the file and are only computed by new_dt, which is not called on restart, so the first cycle after a restart has no resistivity.)", "quantifier": "all states, coefficients and cycles at which the run is stopped", "why_tests_cant": "needs a comparison of interrupted and uninterrupted runs at every cycle", "anchors": ["src/main.c: main (339-431, 517-625)", "src/microphysics/new_dt_diff.c: new_dt_diff", "src/init_grid.c: init_grid (188-197)", "src/restart.c: restart_grids"]}
{"id": "C75", "title": "The gravitational potential solves the periodic Poisson equation", "statement": "After the Poisson solver and the boundary functions of the potential have run, the potential of every active zone satisfies the discrete Poisson equation of the gas (the second differences sum to 4 pi G times the excess of the density over its mean), its ghost zones, edges and corners included, are the periodic images, its mean is zero, and it is determined by the density: it does not depend on the previous potential or on the division of the Domain into Grids. (In one dimension only if grav_mean_rho is the mean density; otherwise false.)", "quantifier": "all densities, Grid sizes, zone sizes, values of 4 pi G and, in two and three dimensions, of grav_mean_rho; all decompositions", "why_tests_cant": "ranges over all densities and sizes; the transform and the division by its eigenvalues are only right if every mode is", "anchors": ["src/gravity/selfg_fft.c: selfg_fft_1d, selfg_fft_2d, selfg_fft_3d", "src/gravity/bvals_grav.c: bvals_grav, periodic_Phi_ix1", "src/gravity/selfg.c: selfg_init", "src/main.c: main (441-452, 575-585)"]}
{"id": "C76", "title": "Self-gravity conserves mass and momentum", "statement": "In a run with self-gravity on a periodic Grid the sums of the density and of all three momentum components over the active zones never change, source terms of the integrator and flux correction included; and the momentum a zone gains is the gravitational force on it: exactly density times minus the gradient for every potential that is quadratic in position, and in one dimension for every density.", "quantifier": "all runs of any length, dimensions, time steps, initial states and fluxes of the hydrodynamics that match at opposite ends of the Grid", "why_tests_cant": "ranges over all runs", "anchors": ["src/integrators/integrate_1d_vl.c (334-359)", "src/integrators/integrate_2d_vl.c (994-1060)", "src/integrators/integrate_3d_vl.c (1471-1617)", "src/integrators/integrate_1d_ctu.c (493-511)", "src/integrators/integrate_2d_ctu.c (1785-1851)", "src/integrators/integrate_3d_ctu.c (3015-3149)", "src/gravity/selfg.c: selfg_fc"]}
{"id": "C77", "title": "Self-gravity conserves total energy", "statement": "In a run with self-gravity on a periodic Grid the sum over the active zones of the gas energy plus half the density times the potential never changes. (True in one and three dimensions; false in two, where the flux correction uses the new potential for the old one and every cycle changes the energy by a term that does not vanish.)", "quantifier": "all runs of any length, time steps, initial states and fluxes of the hydrodynamics that match at opposite ends of the Grid", "why_tests_cant": "ranges over all runs; the violation in two dimensions is of the order of the truncation error in any test", "anchors": ["src/gravity/selfg.c: selfg_fc (36-521, in particular 174)", "src/gravity/selfg_fft.c", "src/main.c: main (575-585)"]}
{"id": "C68", "title": "A lower-dimensional run is a higher-dimensional run of the same data", "statement": "Take data that do not depend on one coordinate, and evolve them once on a Domain with one zone in that direction (2D, or 1D) and once on a Domain with several zones in it (3D, or 2D), with the same integrator, Riemann solver, reconstruction, zone sizes and time steps and periodic boundaries, on any decomposition. After any number of cycles the two runs hold the same data in every zone and on every face, ghost zones included; the interface field normal to the extra direction, which the lower-dimensional code does not evolve with the electric field but with the fluxes, equals the zone-centred one.", "quantifier": "all grid sizes, decompositions, message arrival orders, initial data independent of the coordinate, sequences of time steps, numbers of cycles, both Newtonian integrators (van Leer, CTU), every Riemann solver that returns the induction flux for equal states and every reconstruction exact on constants", "why_tests_cant": "the 1D, 2D and 3D integrators are separate source files with separate upwinding of the electric field, separate source terms for the longitudinal field and separate averaging; a test compares them on a few problems and to a tolerance", "anchors": ["src/integrators/integrate_1d_vl.c", "src/integrators/integrate_2d_vl.c", "src/integrators/integrate_3d_vl.c", "src/integrators/integrate_1d_ctu.c", "src/integrators/integrate_2d_ctu.c", "src/integrators/integrate_3d_ctu.c:integrate_emf1_corner, integrate_emf2_corner, integrate_emf3_corner"]}
{"id": "C69", "title": "A uniform flow stays exactly uniform", "statement": "If every active zone and face of a Domain holds the same density, momentum, energy, scalars and field, then after any number of cycles every zone and face, ghost zones included, of every Grid still holds exactly these values, provided the state agrees with the boundary conditions (periodic and outflow always; a reflecting wall needs no velocity and field through it). It does not matter which integrator, Riemann solver, reconstruction or conversion is configured, nor whether thermal conduction, resistivity or viscosity are switched on.", "quantifier": "all uniform states, grid sizes, decompositions, mixtures of boundary conditions, sequences of time steps, numbers of cycles, integrators, dimensions, Riemann solvers, reconstructions, diffusion coefficients", "why_tests_cant": "free-stream preservation fails through a single wrong index or sign in any of six integrators and three diffusion operators, for some boundary mix or grid shape; tests try a few states on a few grids and accept small errors", "anchors": ["src/integrators/integrate_1d_vl.c", "src/integrators/integrate_2d_vl.c", "src/integrators/integrate_3d_vl.c", "src/integrators/integrate_1d_ctu.c", "src/integrators/integrate_2d_ctu.c", "src/integrators/integrate_3d_ctu.c", "src/bvals_mhd.c:bvals_mhd", "src/microphysics/integrate_diffusion.c:integrate_diff"]}
{"id": "C57", "title": "Table dumps can be read back column by column", "statement": "A formatted table written for a Grid has a header line that numbers and names its columns, and one line per zone, in the order x3, x2, x1 slowest to fastest; split at blanks, each line has exactly the header's columns, with the zone's indices, position and variables under the right names.", "quantifier": "all grid sizes, configurations (equation of state, fields, gravity, particles, scalars, ghost zones), formats, contents, conserved and primitive tables", "why_tests_cant": "whether header and lines agree depends on the numbers of zones in each direction and on the number of digits of indices, so a test on one grid shape says nothing on others", "anchors": ["src/dump_tab.c:dump_tab_cons", "src/dump_tab.c:dump_tab_prim"]}
{"id": "C58", "title": "History files hold the volume averages of the documented quantities", "statement": "Each dump adds exactly one line per Domain to its history file, holding time, time step and the volume averages over the whole Domain of the documented quantities, in the order of the labels in the file's header, however the Domain is divided among processes; times the volume given in the file they are the integrals. The number of user-defined columns accepted always fits.", "quantifier": "all Domains, decompositions, process assignments, configurations (also cylindrical coordinates and special relativity), contents, numbers of user-defined columns", "why_tests_cant": "errors show up only for particular combinations of extents, ignorable directions, refined Domains shared between processes in a particular order, or numbers of enrolled columns", "anchors": ["src/dump_history.c:dump_history", "src/dump_history.c:dump_history_enroll"]}
{"id": "C79", "title": "Gas drag on particles is damped stably and accurately", "statement": "In uniform gas with a constant stopping time every particle integrator multiplies the velocity relative to the gas by a factor that agrees with the exact decay to second order; the implicit integrators damp it for every time step (the fully implicit one without overshooting), the explicit one exactly up to two stopping times; a particle moving with the gas keeps its velocity.", "quantifier": "all three integrators, time steps, stopping times, gas velocities, particles, numbers of steps", "why_tests_cant": "stability for arbitrarily stiff drag and arbitrarily many steps cannot be sampled", "anchors": ["src/particles/integrators_particle.c:int_par_fulimp", "src/particles/integrators_particle.c:int_par_semimp", "src/particles/integrators_particle.c:int_par_exp", "src/particles/integrators_particle.c:Integrate_Particles"]}
{"id": "C80", "title": "Particle orbits in the shearing box keep their invariants", "statement": "Without drag the semi-implicit integrator keeps the epicyclic energy (with FARGO) and the canonical momentum of a particle in the shearing box exactly, step after step; particles on the background shear flow stay on it with every integrator.", "quantifier": "all particles, time steps, shear rates, both coordinate conventions, with and without FARGO", "why_tests_cant": "exact invariance over any number of orbits is a statement about all step sizes and states", "anchors": ["src/particles/integrators_particle.c:int_par_semimp", "src/particles/integrators_particle.c:Get_Force"]}
{"id": "C81", "title": "Feedback of particles conserves momentum and energy", "statement": "What the gas receives from a particle is exactly the momentum the particle lost to the drag; gas and particle together keep momentum and, in adiabatic gas, total energy.", "quantifier": "all particles, masses, integrators, gas states, time steps", "why_tests_cant": "exact balance for all states", "anchors": ["src/particles/integrators_particle.c:feedback_corrector", "src/integrators/integrate_1d_ctu.c:integrate_1d_ctu"]}
{"id": "C82", "title": "Interpolation between grid and particles is exact to its order and conservative", "statement": "The interpolation schemes reproduce polynomials of their degree at any particle position, values interpolated with the linear and TSC schemes lie between those of the zones used, and binning a particle onto the grid adds exactly its amount, centred on its position.", "quantifier": "all positions in the Grid, zone sizes, dimensions, the three schemes, all grid data", "why_tests_cant": "quantifies over continuous positions and all grid data", "anchors": ["src/particles/utils_particle.c:getwei_linear", "src/particles/utils_particle.c:getwei_TSC", "src/particles/utils_particle.c:getwei_QP", "src/particles/utils_particle.c:getvalues", "src/particles/utils_particle.c:distrFB_corr", "src/particles/output_particle.c:particle_to_grid"]}
{"id": "C83", "title": "Sorting and deleting particles keeps the others intact", "statement": "Re-sorting the particle array always terminates and gives a rearrangement of it in the storage order of the zones; deleting ghost particles removes exactly them, keeps every other particle once and the counts by type right.", "quantifier": "all particle arrays of any length, including particles that left the Grid", "why_tests_cant": "termination and permutation for all arrays", "anchors": ["src/particles/utils_particle.c:shuffle", "src/particles/utils_particle.c:quicksort_particle", "src/particles/utils_particle.c:compare_gr", "src/particles/integrators_particle.c:Delete_Ghost"]}
{"id": "C84", "title": "No particle is lost or duplicated at boundaries, on any decomposition", "statement": "After the particle boundary conditions every Grid holds exactly the particles lying in it, each once: those that crossed are handed to the neighbour (also diagonally), brought back by the length of a periodic Domain, mirrored at walls or removed at outflow boundaries. Their number is constant without outflow, and the particles do not depend on how the Domain is divided into Grids.", "quantifier": "all decompositions, boundary conditions, particle lists, motions of less than a Grid per step, numbers of steps", "why_tests_cant": "the messages depend on decomposition, order of directions and labels of copies at corners; only some combinations can be tried", "anchors": ["src/particles/bvals_particle.c:bvals_particle", "src/particles/bvals_particle.c:packing_ix1_particle", "src/particles/bvals_particle.c:unpack_particle", "src/particles/bvals_particle.c:update_particle_status", "src/particles/integrators_particle.c:JudgeCrossing", "src/particles/init_particle.c:grid_limit"]}
{"id": "C85", "title": "Particle quantities put on the mesh do not depend on the decomposition and nothing is lost at Grid boundaries", "statement": "When particles are binned onto zones (for output, or as feedback on the gas), every zone of the Domain ends with exactly the contributions of all particles of the Domain, each times the share the interpolation shape gives the zone and its periodic or mirror images; contributions falling on ghost zones are returned to the zone they stand for, once; without outflow boundaries the total is conserved; after the predictor step ghost zones hold the value of the zone they stand for; the result is the same for every division of the Domain into Grids.", "quantifier": "all decompositions in up to three directions, all numbers of zones per Grid, all boundary types (periodic, reflecting, outflow), all interpolation schemes, all particle lists, all binned values", "why_tests_cant": "A test compares a few decompositions with a few particles; whether something is lost or doubled depends on which ghost zones (faces, edges, corners) are hit and on the combination of boundaries in the three directions.", "anchors": ["src/particles/exchange.c:exchange_gpcouple", "src/particles/exchange.c:reflect_ix1_exchange", "src/particles/output_particle.c:particle_to_grid", "src/particles/utils_particle.c:distrFB_pred", "src/particles/integrators_particle.c:feedback_predictor"]}
{"id": "C86", "title": "The shearing-sheet boundary continues the flow", "statement": "In a shearing box every ghost zone beyond an x1 edge receives the state of the zone it is the image of: moved along x2 by the distance the neighbouring box has sheared, with the velocity offset of the edge and the energy that goes with it. The routine ends whatever the time and the decomposition along x2, the result does not depend on the decomposition, sums along x2 are kept, whole zones and uniform, linear and (third order) parabolic rows are moved exactly, the background shear flow goes on through the edge; density and pressure stay positive, the field in the ghost zones stays divergence-free.", "quantifier": "all times, shear rates, box sizes, numbers of Grids along x2, states, both edges, both remap orders, with and without FARGO", "why_tests_cant": "the offset between the boxes takes a continuum of values over a run, for every decomposition and every state", "anchors": ["src/bvals_shear.c:ShearingSheet_ix1", "src/bvals_shear.c:ShearingSheet_ox1", "src/bvals_shear.c:RemapFlux", "src/bvals_shear.c:bvals_shear_init"]}
{"id": "C87", "title": "Totals are conserved in the shearing box", "statement": "In a three-dimensional shearing box, whatever fluxes the integrator computes at the two x1 edges, the fluxes it uses carry out through one edge what they carry in through the other: total mass, and but for source terms the momenta along x1 and x3, are the same after a step, the momentum along x2 changes by the velocity offset times the mass carried through, and the net magnetic field along x3 is kept; passive scalars and mass are treated alike; edges which are not periodic use their own fluxes.", "quantifier": "all fluxes, times, shear rates, box sizes, numbers of Grids along x2, both remap orders, with and without FARGO", "why_tests_cant": "conservation to round-off must hold in every step for every state and offset", "anchors": ["src/bvals_shear.c:RemapFlx_ix1", "src/bvals_shear.c:RemapFlx_ox1", "src/integrators/integrate_3d_ctu.c:integrate_3d_ctu", "src/integrators/integrate_3d_vl.c:integrate_3d_vl"]}
{"id": "C88", "title": "Particle motion does not depend on the units", "statement": "The same particle in the same gas and forces, described in other units of length and time, ends a step in the same place with the same velocity.", "quantifier": "all particles, gas states, forces, time steps, units, the three integrators, boxes with and without rotation and FARGO", "why_tests_cant": "a term with wrong dimensions is invisible to a test in the units in which its missing factor is one", "anchors": ["src/particles/integrators_particle.c:int_par_exp", "src/particles/integrators_particle.c:int_par_semimp", "src/particles/integrators_particle.c:int_par_fulimp", "src/particles/integrators_particle.c:Get_Force"]}
{"id": "C89", "title": "Orbital advection moves the gas with the background shear", "statement": "Orbital advection (FARGO) moves every row along x2 by the distance the background shear carries it, whatever the number of Grids along x2: the result does not depend on the decomposition, totals along each row are kept but for the work of the shear on the energy, whole-zone shifts are exact, at second order no new extrema appear, the magnetic field is induced consistently and keeps its divergence, a uniform state stays uniform with the field stretched at the shear rate; and any time step the Courant condition allows fits into the extra ghost zones it sets aside.", "quantifier": "all states, time steps, shear rates, cuts of the Domain along x2, both remap orders, two and three dimensions, hydro and MHD", "why_tests_cant": "every offset, sign of shear and decomposition takes its own path through the index arithmetic", "anchors": ["src/bvals_shear.c:Fargo", "src/bvals_shear.c:bvals_shear_init", "src/bvals_shear.c:RemapFlux"]}
{"id": "C90", "title": "Rolling to the nearest periodic point", "statement": "Before the gravity solve the density in a shearing box is rolled along x2 to the time at which the box is periodic, and the potential is rolled back: every column, in either direction, on any decomposition along x2, is slid by the distance its shear requires, no mass is lost, and whole-zone rolls undo each other exactly.", "quantifier": "all times, columns, box sizes, shear rates, cuts of the Domain along x2, both remap orders", "why_tests_cant": "the offset runs through all values during a run, and each decomposition splits the messages differently", "anchors": ["src/bvals_shear.c:RemapVar", "src/gravity/selfg_fft.c:selfg_fft_2d", "src/gravity/selfg_fft.c:selfg_fft_3d"]}
{"id": "C59", "title": "First-order flux correction repairs zones without creating or destroying anything", "statement": "With --enable-fofc, after a van Leer step in which zones came out with negative density or pressure: the contents of the Grid are still exactly what a conservative update makes of the state before the step with one set of fluxes and edge electric fields, each of them either the second-order or the first-order value; so totals of all conserved variables and the divergence of the field in every zone are as without the correction, Grids that share a boundary still agree on the field there, a zone found bad ends exactly as the first-order step makes it, zones with no bad zone near are left alone, and a step without bad zones is not changed.", "quantifier": "all states, fluxes, potentials, grid sizes, criteria for a bad zone and sets of bad zones, in 2D and 3D", "why_tests_cant": "corrections of neighbouring bad zones overlap in every possible pattern, on the boundary of a Grid and inside; a test has a few bad zones.", "anchors": ["src/integrators/integrate_3d_vl.c: FixCell, ApplyCorr, Step 14", "src/integrators/integrate_2d_vl.c: FixCell, ApplyCorr, Step 14"]}
{"id": "C78", "title": "A static gravitational potential conserves total energy", "statement": "With a user-supplied static potential in Cartesian coordinates, every integrator changes the Grid's totals of mass, of energy plus potential energy (density times the potential at zone centres), of passive scalars, and of the momentum components along which the potential is constant, only by what flows through the sides of the Grid, in 1D, 2D and 3D.", "quantifier": "every potential function, time step, Grid size, state, half-step density and set of fluxes", "why_tests_cant": "The balance must hold for every potential and every flow; a test run checks one potential to truncation error.", "anchors": ["src/integrators/integrate_3d_vl.c: step 12a", "src/integrators/integrate_2d_vl.c: step 12a", "src/integrators/integrate_1d_vl.c: step 12a", "src/integrators/integrate_3d_ctu.c: step 11a", "src/integrators/integrate_2d_ctu.c: step 11a", "src/integrators/integrate_1d_ctu.c: step 11b"]}
{"id": "C91", "title": "Cylindrical coordinates: conservation, divergence-free fields and equilibrium", "statement": "In cylindrical coordinates a 3D step changes the volume-weighted totals of mass, angular momentum about the axis, vertical momentum, energy (with potential energy) and scalars only by what flows through the sides of the Grid; the face-weighted divergence of the magnetic field of each zone does not change; a uniform medium at rest with a vertical field stays exactly as it is; data independent of height stay so; half-step states are the flux divergence of the zone; and this holds in rotating frames, with Coriolis forces everywhere.", "quantifier": "every wedge outside the axis, time step, potential, equation of state, state, Riemann solver and reconstruction", "why_tests_cant": "The geometric factors must cancel for every radius, zone size and state; test problems use a few grids and compare to truncation error.", "anchors": ["src/integrators/integrate_3d_vl.c: CYLINDRICAL blocks", "src/integrators/integrate_3d_ctu.c: CYLINDRICAL blocks, ROTATING_FRAME", "src/init_grid.c: ri, r"]}
{"id": "C92", "title": "Work arrays of the CTU integrators are allocated before they are used", "statement": "No combination of configure options, static potential and cooling function makes the CTU integrators read or write a half-step array that was not allocated at start-up.", "quantifier": "every combination of coordinates, MHD, particles, equation of state, potential and cooling accepted by configure, in 1D, 2D and 3D", "why_tests_cant": "Each configuration is a separate build; the regression tests build only a few of them.", "anchors": ["src/integrators/integrate_1d_ctu.c: integrate_init_1d, integrate_1d_ctu", "src/integrators/integrate_2d_ctu.c: integrate_init_2d, integrate_2d_ctu", "src/integrators/integrate_3d_ctu.c: integrate_init_3d, integrate_3d_ctu"]}
{"id": "C93", "title": "Joining the per-process VTK files gives the file of a single-process run", "statement": "Running join_vtk on the VTK dumps written by all processes of a run gives one VTK file which holds, for every variable, the same data in the same order as the dump of the same run on one process, with the same comment, origin, spacing, number of zones and dimensions; whatever the order of the files on the command line, whatever the decomposition of the Domain into Grids, and whatever the bytes of the data are (also bytes that look like white space).", "quantifier": "every number of Grids along each direction, all Grid sizes, every list of scalar and vector variables with any names, every value of every byte, every order of the files, every behaviour of qsort on equal keys", "why_tests_cant": "a test joins a few files in one order with one data set; whether data bytes are swallowed as white space depends on the values, and whether the order of Grids is recovered depends on how the origins print", "anchors": ["vis/vtk/join_vtk.c:init_domain_1d", "vis/vtk/join_vtk.c:sort_domain_1d", "vis/vtk/join_vtk.c:read_write_scalar", "vis/vtk/join_vtk.c:read_write_vector", "vis/vtk/join_vtk.c:write_joined_vtk", "src/dump_vtk.c:dump_vtk"]}
{"id": "C94", "title": "Eigensystems of the reconstruction are complete and consist of waves of the equations", "statement": "For every zone with positive density (and pressure) and every magnetic field, including states in which fast, slow, Alfven or sound speeds coincide or vanish, the eigenvalues used by characteristic limiting and tracing are finite and in increasing order, the matrices of left and right eigenvectors are inverse to each other, and each right eigenvector is a direction in which a small disturbance of the equations of (isothermal or adiabatic, hydro or MHD) gas dynamics moves with the corresponding eigenvalue. Consequently PLM and PPM reproduce linear profiles also in MHD.", "quantifier": "all densities, velocities, pressures and fields; all adiabatic indices above 1 or sound speeds", "why_tests_cant": "continuum of states with measure-zero degeneracies (no transverse field, no normal field, equal speeds) that select different branches", "anchors": ["src/reconstruction/esystem_prim.c: esys_prim_iso_hyd, esys_prim_adb_hyd, esys_prim_iso_mhd, esys_prim_adb_mhd", "src/reconstruction/lr_states_plm.c: lr_states", "src/reconstruction/lr_states_ppm.c: lr_states"]}
{"id": "C96", "title": "The distribution file describes the data of the Domain", "statement": "A pdf output holds, for each Domain, the minimum, maximum, mean, variance, standard deviation, mean absolute deviation, skewness and kurtosis of the values of the variable on the zones of that Domain, and the fraction of zones in each of the square-root-of-N equal bins between minimum and maximum divided by the width of the bin, so that the distribution integrates to one; no value is lost or counted twice, and the file does not depend on how the Domain is divided among processes.", "quantifier": "all values on all zones, all numbers of zones and Domains, every decomposition of a Domain into Grids", "why_tests_cant": "the histogram is a partition of a continuum of values (the maximum falls on the closed end of the last bin), and independence of the decomposition ranges over all divisions of the zones", "anchors": ["src/output_pdf.c: output_pdf"]}
{"id": "C95", "title": "Images show the data", "statement": "A pgm or ppm output of a two-dimensional array holds one pixel for each zone, the row of largest x2 (or x3) first. In a gray image scaled to the data the least value is black, the greatest white, greater values are not darker, and the byte tells the value to within one 256th of the range; with a scale from the input file values outside it get the colour of the nearer end. In a colour image each of red, green and blue is the colour of the palette interpolated at the position of the value in the scale. Bytes lie between 0 and 255 for every palette; constant data give a uniform image; an unknown palette stops the run.", "quantifier": "all arrays of all sizes, all values, all scales, all palettes", "why_tests_cant": "continuum of values and scales; off-by-one at the ends of the scale and of the table shows only for particular values", "anchors": ["src/output_pgm.c: output_pgm", "src/output_ppm.c: output_ppm, compute_rgb", "src/output.c: init_output, getRGB", "src/palette.h", "src/utils.c: minmax2"]}
{"id": "C97", "title": "Cooling", "statement": "A step of operator-split cooling changes nothing but the energy. Each zone ends at the temperature of a converged Newton iteration of the implicit equation with the cooling function and its true derivative, at least 10 K and within ten per cent of the temperature before; gas in thermal equilibrium is not changed. All Grids are cooled for, and then advanced by, one and the same time step, which has not grown and is at most 0.8 of every zone's cooling time. The Koyama-Inutsuka function used explicitly by problems never makes the pressure negative, whatever the time step.", "quantifier": "all states of positive density, all time steps, heating rates and units, any number of zones, Grids and processes", "why_tests_cant": "eight-piece cooling curve over a continuum of densities, temperatures and time steps, with data-dependent halving of the step shared between zones and Grids", "anchors": ["src/microphysics/cool.c: KoyInut", "src/microphysics/cool_solver.c: cooling_solver, temp_next, Lam, dLam", "src/microphysics/integrate_cooling.c: integrate_cooling"]}
{"id": "C67", "title": "A run on mirrored data is the mirror image of the run", "statement": "If initial data and boundary conditions are reversed in one direction (zones and interfaces in opposite order, momentum and magnetic field in that direction with the opposite sign, the boundary conditions of the two ends exchanged), then after any number of cycles every zone and interface of the new run, ghost zones included, holds the image of what the old run holds in the mirrored place (in exact arithmetic): for both integrators in one, two and three dimensions, every direction (also one with a single zone) and any decomposition of either run, whenever Riemann solver and reconstruction do not distinguish left from right. In particular symmetric data stay symmetric. (False with outflow boundaries: the inner boundary continues the normal field of the interface on the boundary, the outer boundary that of the interface before it.)", "quantifier": "every initial state, sequence of time steps, number of cycles, pair of decompositions, message order, contents of work arrays, direction and mirror-symmetric Riemann solver and reconstruction", "why_tests_cant": "A symmetric test problem shows asymmetry only where its data excite it; an off-by-one in a sweep or boundary condition can be invisible for given data.", "anchors": ["src/integrators/integrate_1d_vl.c", "src/integrators/integrate_2d_vl.c", "src/integrators/integrate_3d_vl.c", "src/integrators/integrate_1d_ctu.c", "src/integrators/integrate_2d_ctu.c", "src/integrators/integrate_3d_ctu.c", "src/bvals_mhd.c: outflow_ix1, outflow_ox1, reflect_ix1, conduct_ox1, periodic_ix1"]}
{"id": "C98", "title": "A reflecting wall does what the mirrored fluid would do", "statement": "A run of a Domain that begins with a reflecting boundary gives, after any number of cycles, in every zone and interface (ghost zones included) exactly what a run of twice the Domain, with the initial data continued symmetrically behind the boundary, gives in its upper half (in exact arithmetic): for both integrators, every number of dimensions and direction, any decomposition of the two runs, whenever Riemann solver and reconstruction do not distinguish left from right and the far end is reflecting or conducting.", "quantifier": "every initial state (with vanishing normal field on the wall), sequence of time steps, number of cycles, pair of decompositions, message order, direction, mirror-symmetric solver and reconstruction", "why_tests_cant": "A test of a wall compares one problem; the claim is for every flow that reaches the wall at whatever time and angle.", "anchors": ["src/bvals_mhd.c: reflect_ix1, reflect_ix2, reflect_ix3", "src/integrators/integrate_3d_ctu.c", "src/integrators/integrate_3d_vl.c"]}
{"id": "C99", "title": "Relativistic gas: primitive variables come back unchanged", "statement": "In special-relativistic hydrodynamics with 1 < Gamma <= 2, converting a primitive state (positive density, non-negative pressure, speed below light) to conserved variables and back returns the state exactly (in exact arithmetic), if it is at rest or has momentum of at least 1e-20 and speed of at most 1 - 1e-15; a conserved state has a primitive state exactly if D > 0 and E is positive with E^2 >= D^2 + M^2, only one, and converting to primitive and back returns it. (A state with smaller momentum loses its velocity.)", "quantifier": "every adiabatic index in (1,2], every physical primitive state, every admissible conserved state", "why_tests_cant": "The closed form selects one of four roots of a quartic through a cubic resolvent; samples say nothing about which sign conditions hold over the whole state space.", "anchors": ["src/convert_var.c: Cons1D_to_Prim1D, Prim1D_to_Cons1D"]}
{"id": "C100", "title": "Relativistic gas: recovered speed is below light for any input", "statement": "Whatever the conserved variables (also inconsistent ones), the conversion to primitive variables of special-relativistic hydrodynamics returns a speed of at most 1 - 1e-15, and a density between zero and the conserved density if that is positive.", "quantifier": "every adiabatic index and every conserved state", "why_tests_cant": "The claim is about every input including unphysical ones for which the quartic has no admissible root.", "anchors": ["src/convert_var.c: Cons1D_to_Prim1D"]}
{"id": "C101", "title": "Relativistic MHD: the equation solved has one physical root, and it is the state", "statement": "In special-relativistic MHD with 1 < Gamma <= 2 the conversion to primitive variables of the conserved variables made from any physical state with density at least 1e-4 and pressure at least 1e-5, with any field, returns that state (in exact arithmetic, within the tolerance of the iteration): the one-dimensional equation solved has exactly one root in the physical range, the starting guess lies in that range, the variables computed from the root are those of the state, and a residual bounds the error.", "quantifier": "every adiabatic index in (1,2], every physical primitive state and magnetic field", "why_tests_cant": "Uniqueness of the root of a nonlinear equation over a six-dimensional family of coefficients cannot be sampled.", "anchors": ["src/convert_var.c: Cons1D_to_Prim1D, calc_func, calc_vsq, calc_chi, Prim1D_to_Cons1D"]}
{"id": "C102", "title": "Relativistic MHD: conversion marks failure or returns an admissible state", "statement": "Whatever the conserved variables, the conversion to primitive variables of special-relativistic MHD returns the transverse field unchanged and either a negative density, the mark of failure, or density at least 1e-4, pressure at least 1e-5 and speed at most that of light (unless it returns NaNs).", "quantifier": "every adiabatic index, conserved state and field", "why_tests_cant": "Covers every input on which a Newton iteration may diverge, cycle or converge to an unphysical root.", "anchors": ["src/convert_var.c: Cons1D_to_Prim1D"]}
{"id": "C103", "title": "Relativistic MHD: Newton steps use the true derivative", "statement": "The derivative used in each Newton step of the conversion to primitive variables in special-relativistic MHD is the derivative of the function whose root is sought, at every trial value in the physical range; for the energy equation and for the entropy equation. (False for the entropy equation.)", "quantifier": "every adiabatic index, coefficients and trial value with V^2 < 1", "why_tests_cant": "A wrong derivative only slows or spoils convergence for some states; results of tests that converge do not reveal it.", "anchors": ["src/convert_var.c: calc_dfunc, calc_ent_dfunc, calc_func, calc_ent_func"]}
{"id": "C104", "title": "Relativistic HLLC flux: true signal speeds, no NaN, exact in the cases that decide it", "statement": "For an ideal gas with 1 < Gamma <= 2 and states of positive density and pressure moving slower than light, the special-relativistic HLLC solver takes as bounding speeds exactly the sound characteristics of the gas (the relativistic sum of velocity and sound speed), which lie within the light cone; it never divides by zero or takes the root of a negative number; equal states return the physical flux; if all signals go one way it returns the upwind flux; a contact discontinuity is resolved exactly; and reflected states return the reflected flux.", "quantifier": "every adiabatic index in (1,2] and every pair of admissible states", "why_tests_cant": "The claims are about all pairs of states, including the quadratic for the contact speed whose discriminant could vanish for some pair only.", "anchors": ["src/rsolvers/hllc_sr.c: fluxes"]}
{"id": "C105", "title": "Relativistic HLLC fan is ordered and its states are physical", "statement": "For admissible states the speeds of the special-relativistic HLLC solver are ordered (left signal < contact < right signal, all slower than light), both intermediate states are physical (positive density, energy greater than the norm of momentum and rest mass), the jump conditions hold across each of the three waves, and the flux returned is that of the region containing the face.", "quantifier": "every adiabatic index in (1,2] and every pair of admissible states", "why_tests_cant": "Positivity of the intermediate states must hold for the whole 10-dimensional space of pairs, strong shocks and near-vacua included.", "anchors": ["src/rsolvers/hllc_sr.c: fluxes"]}
{"id": "C106", "title": "First-order relativistic step keeps the gas physical", "statement": "One step of the first-order scheme with the special-relativistic HLLC flux, and hence the predictor step of the relativistic van Leer integrator in 1D, turns physical cells into physical cells (positive density, subluminal velocity, positive pressure) whenever the step it takes is at most half the light-crossing time of a cell; the predictor thus never falls back on its emergency path.", "quantifier": "every Grid, every field of admissible states, every time step within the bound", "why_tests_cant": "One cell of one unusual run that leaves the admissible set ends the simulation; only a proof covers all states.", "anchors": ["src/integrators/integrate_1d_vl_sr.c: integrate_1d_vl", "src/rsolvers/hllc_sr.c: fluxes"]}
{"id": "C107", "title": "Relativistic first-order repair: bad zones become physical, totals are kept", "statement": "When a corrector step of the special-relativistic van Leer integrators leaves a zone without positive density, positive pressure or subluminal velocity, the repair replaces its update by the first-order update, adjusts the neighbours so that totals change only by the end-face fluxes, leaves all other zones alone, and the repaired zone is physical again. (False for adjacent bad zones in 1D, and for every bad zone in 3D.)", "quantifier": "every Grid length, check, field of states, high-order and first-order fluxes", "why_tests_cant": "The repair only runs in rare zones of extreme flows, and its errors are visible only when two such zones touch or in 3D.", "anchors": ["src/integrators/integrate_1d_vl_sr.c: FixCell", "src/integrators/integrate_2d_vl_sr.c: FixCell", "src/integrators/integrate_3d_vl_sr.c: FixCell"]}
{"id": "C108", "title": "Relativistic MHD signal speeds bound the magnetosonic waves", "statement": "The signal speeds of the special-relativistic MHD Riemann solver are the outermost roots of the magnetosonic dispersion relation of the state, lie within the light cone, and do not depend on the sign of the magnetic field. (False for states whose field points to negative x: the test for a vanishing normal field lacks the absolute value.)", "quantifier": "every adiabatic index in (1,2], every admissible state and field", "why_tests_cant": "The quartic is solved in closed form with special cases; a wrong case shows only as too little or too much dissipation for some states.", "anchors": ["src/rsolvers/hlle_sr.c: getVChar_pluto, getMaxSignalSpeeds_pluto", "src/rsolvers/hllc_sr.c: getVChar_pluto", "src/rsolvers/hlld_sr.c: getVChar_pluto"]}
{"id": "C109", "title": "Closed-form cubic and quartic solvers return the roots", "statement": "The cubic solver returns the three real roots in increasing order of the (slightly shifted) cubic whenever all of them are real; the quartic solver, given the roots of its resolvent, returns all four roots with multiplicity; and whatever the coefficients, values it accepts satisfy the quartic to 1e-6.", "quantifier": "every real coefficient", "why_tests_cant": "Trigonometric formulas with sign conventions have to be right for all coefficients; samples miss the degenerate ones.", "anchors": ["src/rsolvers/hlle_sr.c: CUBIC, QUARTIC"]}
{"id": "C110", "title": "Relativistic HLLE flux: causal, consistent, conservative", "statement": "For any two states the edges of the fan of the special-relativistic MHD HLLE solver stay in the light cone, NaN speeds included; equal states return the flux of relativistic MHD; the flux is upwind if all signals go one way and otherwise belongs to one intermediate state that satisfies the jump conditions at both edges; and reversing the magnetic field reverses only the fluxes of the field when the normal field vanishes.", "quantifier": "every adiabatic index and every pair of states", "why_tests_cant": "The claims are about all pairs of states and both estimates of the wave speeds with their fallbacks.", "anchors": ["src/rsolvers/hlle_sr.c: fluxes, flux_LR, entropy_flux"]}
{"id": "C111", "title": "Redistribution of a decomposed array", "statement": "Moving a block-decomposed array from one set of boxes to another, with or without a change of the storage order, leaves on every process exactly the elements of its new box, each at its place; every receive is met by one message of its length and no message is sent that nobody expects; the receive buffers do not overlap and fit the scratch space; input and output may be the same memory; nothing outside the box's own part of the output is written.", "quantifier": "every number of processes, every old and new boxes (empty ones included), every number of values per element, all three storage orders, every order of arrival of the messages, whatever the memory contained before", "why_tests_cant": "The claim is about all decompositions and all message schedules; an index or stride error shows only for particular overlaps and storage orders.", "anchors": ["src/fftsrc/remap_3d.c: remap_3d, remap_3d_create_plan, remap_3d_collide", "src/fftsrc/pack_3d.c: pack_3d, unpack_3d, unpack_3d_permute1_*, unpack_3d_permute2_*"]}
{"id": "C112", "title": "The Fourier transform does not depend on the decomposition", "statement": "The 3D transform of a block-decomposed array gives on every process its part of the transform of the whole array, the same coefficients as on one process, and every intermediate result fits the array it is put into.", "quantifier": "every size of the data set, number of processes, decomposition, message schedule, and both directions", "why_tests_cant": "Which plans are shared and how lines are divided among processes depends on the sizes; power-of-two tests never meet the bad cases.", "anchors": ["src/fftsrc/fft_3d.c: fft_3d, fft_3d_create_plan", "src/fftsrc/factor.c: bifactor", "src/fftsrc/ath_fft.c: ath_3d_fft, ath_3d_fft_create_plan"]}
{"id": "C113", "title": "The multigrid gravity solver returns for every Grid", "statement": "A call of the multigrid solver for the gravitational potential returns for every three-dimensional Grid the code accepts. (False: it returns exactly if halving one of the three numbers of zones again and again, rounding down, reaches 4; for 24 zones in every direction the recursion never ends.)", "quantifier": "all numbers of zones, densities and potentials", "why_tests_cant": "ranges over all numbers of zones; non-termination cannot be observed by a test", "anchors": ["src/gravity/selfg_multigrid.c: selfg_multig_3d, multig_3d"]}
{"id": "C114", "title": "The multigrid gravity solver keeps the exact potential", "statement": "If the potential of a Grid already satisfies the seven-point difference form of Poisson's equation, with the values the solver puts into the ghost zones, a call of the multigrid solver leaves it unchanged, and a call never takes the potential further from that solution. (False for positive densities whenever the numbers of zones are halved once: the call lowers the exact potential in every zone, because the coarse level starts from the averaged potential instead of zero. True if a direction has exactly 4 zones.)", "quantifier": "all densities, potentials, zone sizes and numbers of zones", "why_tests_cant": "ranges over all densities and sizes; the exact solution has to be compared", "anchors": ["src/gravity/selfg_multigrid.c: selfg_multig_3d, multig_3d, Restriction_3d, Prolongation_3d, Jacobi"]}
{"id": "C115", "title": "Jacobi sweeps of the multigrid solver converge to the only solution", "statement": "For all densities and all values in the ghost zones exactly one potential satisfies the seven-point difference form of Poisson's equation; a Jacobi sweep leaves a potential unchanged exactly if it is that solution, no number of sweeps increases the largest error, and the error after n sweeps is at most a constant times the n-th power of a number less than 1 that depends only on the numbers and sizes of the zones.", "quantifier": "all three-dimensional numbers of zones, zone sizes, right-hand sides, ghost values, initial potentials and numbers of sweeps", "why_tests_cant": "ranges over all right-hand sides and an unbounded number of sweeps", "anchors": ["src/gravity/selfg_multigrid.c: Jacobi"]}
{"id": "C116", "title": "Ghost zones of a refined Grid hold the interpolation of the parent", "statement": "After prolongation every ghost zone of a refined Grid beyond a boundary between levels, edges and corners included, holds the interpolation of the parent Grid's zone that contains it, from that zone and its six neighbours; every other zone, in particular every active zone, keeps its state; the ghost zones in a zone of the parent average to it, a uniform state stays uniform and linear states are reproduced.", "quantifier": "every overlap of a parent and a child Grid in one, two and three dimensions, every choice of which of its boundaries are boundaries between levels, every contents of both Grids and of the scratch arrays, every zone", "why_tests_cant": "The message layout, the index offsets of two levels and the six overlapping loops depend on the shape of the overlap and on which boundaries are shared; a test sees a few shapes", "anchors": ["src/smr.c: Prolongate, ProCon", "src/defs.h.in: nghost"]}
{"id": "C117", "title": "Field in the ghost zones of a refined Grid", "statement": "With MHD, prolongation gives every ghost zone beyond a boundary between levels the face-centred field that the prolongation operator computes for its block of zones from the parent's field and from the child's own field on the faces of the block that border on zones not set; the cell-centred field is the average of the faces; the faces on the boundary between the levels and everything else are left alone, in whatever order the boundaries overlap at edges and corners.", "quantifier": "every overlap in two and three dimensions, every choice of which boundaries are boundaries between levels, every field on both Grids, every zone", "why_tests_cant": "At edges and corners up to three of the six loops write the same zones, each with its own rule for which faces are known; all combinations of boundaries and positions matter", "anchors": ["src/smr.c: Prolongate, ProFld"]}
{"id": "C118", "title": "Prolongation creates no divergence", "statement": "If on the boundary between the levels the parent's field is the mean of the child's, every ghost zone filled by prolongation has the discrete divergence of the zone of the parent that contains it: a field free of divergence on the parent is free of divergence in the ghost zones of the child, also across the boundary between the levels.", "quantifier": "every overlap in two and three dimensions, every field on both Grids that match on the boundary, every ghost zone whose upper faces are stored", "why_tests_cant": "Divergence at blocks that touch active zones on one to three sides depends on all values of the field, including exact zeros", "anchors": ["src/smr.c: Prolongate, ProFld"]}
{"id": "C119", "title": "Disk gravity satisfies Poisson's equation", "statement": "With the disk gravity solver (periodic in the plane, open in the last direction) the potential in every active zone satisfies the difference form of Poisson's equation with the density of that zone as the source, using the ghost zones the code fills. (True away from the lowest and the highest plane, in two and three dimensions, and in all zones in one dimension for the ghost zones the solver sets. False in the outermost planes: the ghost zones are filled by linear extrapolation, or by the walls of the gas in one dimension.)", "quantifier": "all densities, zone sizes, numbers of zones, heights of the Domain, numbers of ghost zones", "why_tests_cant": "ranges over all densities and numbers of zones; the error appears only in the outermost planes", "anchors": ["src/gravity/selfg_fft_disk.c: selfg_fft_disk_1d, selfg_fft_disk_2d, selfg_fft_disk_3d", "src/gravity/bvals_grav.c: obc_fft_Phi_ix3, obc_fft_Phi_ox3, reflect_Phi_ix1"]}
{"id": "C120", "title": "Disk gravity is that of an isolated disk", "statement": "The disk gravity solver returns, up to a constant, the potential of the gas in otherwise empty space above and below: adding empty zones above the gas does not change the gravity in it. (True for the average over each plane, which is exactly the potential of infinite sheets, and in one dimension. False for a density that varies in the plane: one empty plane more changes the gravity along the plane, because the factors of the solver are those of the continuous equation and not of the difference equation it solves.)", "quantifier": "all densities, zone sizes, numbers of zones and planes", "why_tests_cant": "ranges over all densities and heights of the Domain; compares two runs with different Domains", "anchors": ["src/gravity/selfg_fft_disk.c: selfg_fft_disk_1d, selfg_fft_disk_2d, selfg_fft_disk_3d"]}
{"id": "C121", "title": "Open-boundary gravity satisfies Poisson's equation", "statement": "With the gravity solver for open boundaries the potential in every interior zone satisfies the seven-point difference form of Poisson's equation with the density of the zone as the source, and is the sum over all zones of their mass times a kernel that depends on the distance only. (The kernel exists and is even, but the equation is false in every interior zone unless the total mass is zero: the solver is the periodic one in a Domain of twice the size, so that one eighth of the mean density is subtracted.)", "quantifier": "all densities, zone sizes, numbers of zones and decompositions into Grids", "why_tests_cant": "ranges over all densities and decompositions; the missing source is a small constant that converges to nothing visible in a picture", "anchors": ["src/gravity/selfg_fft_obc.c: selfg_fft_obc_3d"]}
{"id": "C122", "title": "Transfers between multigrid levels conserve the residual and keep linear potentials", "statement": "In the multigrid gravity solver the restriction to the coarse level conserves the volume integral of the residual and takes a linear potential to its values at the coarse zone centres, and the prolongation adds a linear correction with its values at the fine zone centres.", "quantifier": "all potentials, densities, zone sizes and even numbers of zones", "why_tests_cant": "ranges over all potentials and residuals on all sizes", "anchors": ["src/gravity/selfg_multigrid.c: Restriction_3d, Prolongation_3d"]}
{"id": "C123", "title": "Multigrid boundary values are those of the mass of the gas", "statement": "The multigrid gravity solver sets all ghost zones to the potential of the total mass at the centre of mass of the gas, wherever the origin of the coordinates is. (The total mass is right in all ghost zones, edges and corners included, but it is put at the origin: moving the gas and the Grid together changes the boundary values.)", "quantifier": "all densities, zone positions, numbers of zones and ghost zones", "why_tests_cant": "ranges over all densities and positions of the Grid; the usual tests centre the gas at the origin", "anchors": ["src/gravity/selfg_multigrid.c: selfg_multig_3d"]}
{"id": "C124", "title": "Positive density and pressure in the first-order steps", "statement": "Hydrodynamics with the HLLE solver: if before the step every zone has positive density (and, adiabatic, positive pressure) and the time step satisfies the Courant condition, then the time-centred states computed by the predictor of the van Leer integrator in 1D, 2D and 3D, and the states after a first-order CTU step in 1D, have positive density and pressure; and the concentration of every scalar stays within the bounds it had before.", "quantifier": "all states, grids, time steps, adiabatic indices up to 5/3 or isothermal sound speeds, numbers of scalars", "why_tests_cant": "holds for every flow with arbitrary jumps between neighbouring zones; tests run a few flows", "anchors": ["src/integrators/integrate_1d_vl.c: integrate_1d_vl", "src/integrators/integrate_2d_vl.c: integrate_2d_vl", "src/integrators/integrate_3d_vl.c: integrate_3d_vl", "src/integrators/integrate_1d_ctu.c: integrate_1d_ctu", "src/rsolvers/hlle.c: fluxes", "src/rsolvers/esystem_roe.c: esys_roe_adb_hyd", "src/new_dt.c: new_dt"]}
{"id": "C125", "title": "Coriolis force and tide of the shearing box", "statement": "In the shearing box, whatever the fluxes, the state and the time step, the momenta after a step of the 2D and 3D integrators solve exactly the Crank-Nicholson equations of motion, in which Coriolis force and tide act on the mean of the old and new momenta relative to the shear, with and without FARGO, in 3D and in both 2D planes. Hence the background shear is an exact equilibrium; the epicyclic energy (2-q)M1^2 + 2 dM^2 of a zone in balance, and of the whole box without net flow of momentum through its sides, is kept exactly over any number of steps of any size; the totals of mass, momentum along the axis, scalars and energy including that in the potential change by the flow through the sides only; the predictor of the van Leer integrators applies the same forces; and correcting a bad zone with first-order fluxes gives exactly the step with the replaced fluxes.", "quantifier": "all states, fluxes, potentials, time steps and sequences of them, shear rates up to 2, grid sizes, planes, with and without FARGO, any feedback of particles", "why_tests_cant": "exact balance for every flow and every sequence of time steps; a test follows one epicycle to some tolerance", "anchors": ["src/integrators/integrate_3d_vl.c: integrate_3d_vl, ApplyCorr", "src/integrators/integrate_3d_ctu.c: integrate_3d_ctu", "src/integrators/integrate_2d_vl.c: integrate_2d_vl, ApplyCorr", "src/integrators/integrate_2d_ctu.c: integrate_2d_ctu"]}
{"id": "C126", "title": "A potential set for the shearing box acts on the gas", "statement": "The potential a problem sets as ShearingBoxPot acts on the gas with the force -rho grad Phi, so that gas in hydrostatic balance with it stays at rest, and it need not be set.", "quantifier": "all potentials (or none), states and fluxes, with and without FARGO, 2D and 3D", "why_tests_cant": "quantifies over all potentials a user may enroll; the test problems of the unstratified disk only use the tide", "anchors": ["src/integrators/integrate_3d_vl.c: integrate_3d_vl", "src/integrators/integrate_3d_ctu.c: integrate_3d_ctu", "src/integrators/integrate_2d_vl.c: integrate_2d_vl", "src/integrators/integrate_2d_ctu.c: integrate_2d_ctu", "src/prob/par_strat3d.c: StratifiedDisk", "src/globals.h: ShearingBoxPot"]}
{"id": "C127", "title": "Test problems start with a divergence-free magnetic field", "statement": "The problem generators for the field loop, the linear and the circularly polarised Alfven waves, the Orszag-Tang vortex, the rotor, the blast wave and the current sheet set face fields with zero net flux out of every active zone; the field of a face depends on its position only, so that two Grids that share a face give it the same field; and they write inside the arrays of the Grid.", "quantifier": "every Grid (size, position, number of dimensions the generator accepts), every value of the parameters of the problem, every active zone and face", "why_tests_cant": "A run of a problem checks one set of parameters and one resolution; the field loop and the waves have a divergence only in two dimensions for planes or angles the test inputs do not use.", "anchors": ["src/prob/field_loop.c:problem", "src/prob/linear_wave.c:problem", "src/prob/cpaw.c:problem", "src/prob/orszag-tang.c:problem", "src/prob/rotor.c:problem", "src/prob/blast.c:problem", "src/prob/current_sheet.c:problem", "src/cc_pos.c:cc_pos"]}
{"id": "C128", "title": "Test problems start with the pressure and density asked for", "statement": "With an adiabatic equation of state the initial total energy is such that the gas pressure of every zone is the one the input file asks for, whatever the field and the flow; the density is positive if the densities asked for are; the speed of the circularly polarised wave is uniform for every direction of the wave.", "quantifier": "every Grid, all values of the parameters, every active zone", "why_tests_cant": "The kinetic and magnetic terms of the energy depend on all parameters and on the position of the zone.", "anchors": ["src/prob/field_loop.c:problem", "src/prob/cpaw.c:problem", "src/prob/orszag-tang.c:problem", "src/prob/rotor.c:problem", "src/prob/blast.c:problem", "src/prob/current_sheet.c:problem"]}
{"id": "C129", "title": "Waves and rotated loops fit a periodic Domain", "statement": "If the angles of the wave are not given, the linear wave and the circularly polarised wave have exactly one wavelength along each side of the root Domain, the initial state repeats with the sides of the Domain and the field through opposite sides agrees; the rotated field loop has the periods of the Domain along its first and third side.", "quantifier": "every shape of the root Domain, every Grid, all amplitudes", "why_tests_cant": "The wave vector is computed from the sizes of the Domain by inverse tangents; a test fixes one shape.", "anchors": ["src/prob/linear_wave.c:problem", "src/prob/cpaw.c:problem", "src/prob/field_loop.c:problem"]}
{"id": "C130", "title": "A run does not depend on the choice of units", "statement": "If the same problem is set up in other units of density, speed and length (initial values, speed of sound, density floor, size of the zones and time steps all converted), every value of every variable in every zone and on every face, ghost zones included, is after any number of cycles the converted value of the original run; the time step chosen by the code is the converted time step.", "quantifier": "all units, all initial states, every integrator and dimension, every division into Grids, every number of cycles, every zone", "why_tests_cant": "A constant with a hidden dimension shows only for values near it; a test runs one set of units.", "anchors": ["src/integrators/integrate_3d_ctu.c:integrate_3d_ctu", "src/integrators/integrate_3d_vl.c:integrate_3d_vl", "src/reconstruction/lr_states_ppm.c:lr_states", "src/reconstruction/lr_states_prim3c.c:lr_states", "src/rsolvers/hlle.c:fluxes", "src/convert_var.c:Cons1D_to_Prim1D", "src/new_dt.c:new_dt"]}
{"id": "C131", "title": "Reversing the magnetic field reverses it for ever", "statement": "Two runs whose initial states differ in the sign of the magnetic field alone choose the same time steps and differ after any number of cycles in the sign of the magnetic field alone.", "quantifier": "all initial states, both equations of state, every reconstruction, integrator and dimension, every division into Grids, every number of cycles, every zone", "why_tests_cant": "Every branch on a field component in the reconstruction, eigensystems, Riemann solver and electric fields must respect the sign; a test covers the branches its states happen to reach.", "anchors": ["src/integrators/integrate_3d_ctu.c:integrate_3d_ctu", "src/integrators/integrate_3d_vl.c:integrate_3d_vl", "src/reconstruction/esystem_prim.c:esys_prim_adb_mhd", "src/rsolvers/hlle.c:fluxes", "src/new_dt.c:new_dt"]}
{"id": "C132", "title": "Random perturbations lie between 0 and 1 and differ between processes", "statement": "However many numbers a problem generator draws from ran2 after seeding it with a number of 31 bits, no call overflows or leaves its table and every number lies strictly between 0 and 1 (so a perturbation amp*(ran2-0.5) is below amp/2). Processes with different negative seeds never coincide in the state of the first generator. Grids at different positions of a Domain of fewer than 2^31 zones get different seeds.", "quantifier": "every seed, every number of calls, every width of long of at least 32 bits, every pair of seeds, every Domain size and every pair of Grid positions", "why_tests_cant": "Overflow in Schrage's method, an index one past the table or two processes with the same perturbations only show for particular seeds and after many calls; no test visits all seeds.", "anchors": ["src/prob/kh.c: ran2", "src/prob/hgb.c: problem (iseed)", "src/prob/rt.c: problem (iseed)", "src/prob/strat.c: problem (iseed)", "src/prob/par_strat3d.c: problem (iseed)", "src/prob/streaming3d_multi.c: problem (iseed)"]}
{"id": "C133", "title": "The particle history holds the averages over all particles", "statement": "The numbers that dump_particle_history writes are: the largest particle density, the largest stiffness, mass, momentum and kinetic energy of all particles divided by the number of zones, and for every type mean and standard deviation of position and velocity over the particles inside the Grids of all processes (zero for none). They do not depend on which process holds which particle; in a moving frame mean velocities shift and deviations stay. User functions are averaged alike; at most ten can be enrolled.", "quantifier": "every number of processes, every distribution of particles and zones over them, every number of types, every set of user functions", "why_tests_cant": "The reduction packs rows by type and the deviations use global means; a slip shows only for particular numbers of types and distributions of particles over processes.", "anchors": ["src/particles/dump_particle_history.c: dump_particle_history", "src/particles/dump_particle_history.c: dump_parhistory_enroll"]}
{"id": "C134", "title": "Physical constants in code units are consistent for every choice of units", "statement": "After the user sets the code's units of length, mass and time and calls init_units, every physical constant equals its cgs value divided by the code unit of its dimension. So every dimensionless combination of constants and of quantities given in code units has the same value in all units, and units of velocity, density, force and energy are those derived from the base units.", "quantifier": "all positive units of length, mass and time; all products of integer powers of constants and other quantities", "why_tests_cant": "A wrong power in one conversion is invisible when a unit is one; the claim ranges over all units and all combinations.", "anchors": ["src/units.c: init_units", "src/units.c: init_consts"]}
{"id": "C135", "title": "The two-dimensional Fourier transform does not depend on the decomposition", "statement": "The 2D transform of a block-decomposed array gives on every process its part of the transform of the whole array, the same coefficients as on one process; messages match and every intermediate result fits the array it is put into. (True when the two lengths differ, when a Grid does not span x2, or when the boxes divide evenly; false otherwise.)", "quantifier": "every size of the data set, number of processes, decomposition, message schedule, and both directions", "why_tests_cant": "Whether a plan is shared and how many lines each process owns depends on sizes and decomposition; tests with powers of two never meet the bad cases.", "anchors": ["src/fftsrc/fft_2d.c: fft_2d, fft_2d_create_plan", "src/fftsrc/remap_2d.c: remap_2d, remap_2d_create_plan, remap_2d_collide", "src/fftsrc/pack_2d.c: pack_2d, unpack_2d, unpack_2d_permute_1, unpack_2d_permute_2, unpack_2d_permute_n", "src/fftsrc/ath_fft.c: ath_2d_fft, ath_2d_fft_create_plan"]}
{"id": "C136", "title": "Self-gravity with periodic boundaries does not depend on how the Domain is divided among processes", "statement": "With the FFT solver in two or three dimensions, every process obtains, in each of its zones, the value of one and the same solution of the discrete Poisson equation (periodic, zero mean), which depends on the density of the Domain alone: not on the number of processes, the shape of their Grids, the order in which messages arrive or earlier contents of work arrays - where each process transforms as many lines as it owns (C112, C135).", "quantifier": "every density, number of zones, number of processes, division into Grids, arrival order of messages and contents of work arrays before the call", "why_tests_cant": "Tests compare a few decompositions of one problem; divisions, message orders and sizes are unbounded and the transform is wrong for some of them.", "anchors": ["src/gravity/selfg_fft.c:selfg_fft_2d", "src/gravity/selfg_fft.c:selfg_fft_3d", "src/fftsrc/ath_fft.c:ath_2d_fft", "src/fftsrc/ath_fft.c:ath_3d_fft", "src/fftsrc/prototypes.h:F3DI"]}
{"id": "C137", "title": "Ghost zones of the gravitational potential are the periodic images, on any number of Grids", "statement": "On a periodic Domain divided among any number of Grids, the exchange of the potential succeeds on every Grid (every message fits its buffers, is expected by its receiver and has the length expected) and leaves in every zone of every Grid, ghost zones, edges and corners included, the potential of the zone of the Domain it is an image of.", "quantifier": "every number of ghost zones, size and division of the Domain into Grids with at least nghost zones, every set of Domains sharing the buffers, every potential with the period of the Domain and every order in which messages arrive", "why_tests_cant": "Corners depend on the order of the three exchanges and on the ranges packed in each; only runs with particular decompositions and message orders would be seen by a test.", "anchors": ["src/gravity/bvals_grav.c:bvals_grav", "src/gravity/bvals_grav.c:bvals_grav_init", "src/gravity/bvals_grav.c:pack_Phi_ix1", "src/gravity/bvals_grav.c:unpack_Phi_ox3", "src/gravity/bvals_grav.c:periodic_Phi_ix1"]}
{"id": "C138", "title": "Joined and sorted particle lists hold every particle once and do not depend on the decomposition", "statement": "join_lis finds the particle list of every process under the name it was written with and makes one list with the limits of the root Domain, the right number of particles and the particles of all processes; sort_lis, for every list that is not empty, returns and writes the same particles, each exactly once, ordered by process of origin and number. Two runs with the same particles distributed in any way among any numbers of processes give the same file. (A list of no particles is undefined behaviour in sort_lis.)", "quantifier": "every number of processes, distribution of particles, selection function, number of types and every order of the particles in memory", "why_tests_cant": "The in-place quicksort must work for every order and for equal keys, and the distribution of particles among processes is arbitrary; tests see a few lists.", "anchors": ["src/particles/output_particle.c:dump_particle_binary", "vis/particle/join_lis.c:main", "vis/particle/sort_lis.c:main", "vis/particle/sort_lis.c:quicksort"]}
{"id": "C139", "title": "Joining the per-process binary dumps gives the file of a single-process run", "statement": "Given the binary dumps of all processes of a run in any order, join_bin writes the file that one process would have written: header, coordinates of the whole Domain and every variable on the whole Domain in order; files that do not belong together are refused. (Both fail in part: the potential of a run with self-gravity is lost, and the consistency check accepts everything.)", "quantifier": "every decomposition into Grids of any sizes, order of the files, treatment of equal keys by qsort, number of variables and values", "why_tests_cant": "The order of the files and the interleaving of rows depend on the decomposition, which is unbounded; tests join a few runs.", "anchors": ["src/dump_binary.c:dump_binary", "vis/matlab/join_bin/join_bin.c:init_domain_1d", "vis/matlab/join_bin/join_bin.c:chek_domain_3d", "vis/matlab/join_bin/join_bin.c:sort_domain_1d", "vis/matlab/join_bin/join_bin.c:write_joined_bin"]}
{"id": "C140", "title": "The inclined shock tube starts from the exact cell averages and keeps its symmetry at the boundaries", "statement": "For every grid the generator accepts, every conserved quantity of a zone is initialised to the average over the zone of the two states on either side of an interface along the diagonal of the Domain; the face-centred field is the average over the face and is free of divergence at every level of refinement; the state repeats along the interface; Grids agree where they overlap; and the boundary functions give the ghost zones the continuation of a solution that repeats in this way.", "quantifier": "all resolutions, zone sizes, left and right states, levels, positions of the Grid, zones and faces; all numbers of ghost zones and all arrays for the boundary functions", "why_tests_cant": "The cases depend on the ratio of the two resolutions and on where the interface meets each zone; the usual test has equal sides, where the wrong case does not occur.", "anchors": ["src/prob/shkset2d.c:problem", "src/prob/shkset2d.c:shkset2d_iib", "src/prob/shkset2d.c:shkset2d_oib", "src/prob/shkset2d.c:shkset2d_ijb", "src/prob/shkset2d.c:shkset2d_ojb"]}
{"id": "C141", "title": "A restarted run solves the same problem as the run it continues", "statement": "After a restart the physical constants, the gravitational potentials, the boundary function used at every side of every Domain, and the columns of the history file are those of the run that wrote the restart file.", "quantifier": "all compile options and input parameters, all sets of Domains on a process (refined or not), all boundary flags; for the generators modelled", "why_tests_cant": "The restart file holds only the solution; what is set by function pointer or global variable depends on the generator, on compile options and on where a Domain lies, and a run continued with other boundary conditions gives no error.", "anchors": ["src/main.c:main", "src/restart.c:restart_grids", "src/bvals_mhd.c:bvals_mhd_init", "src/gravity/selfg.c:selfg_init", "src/prob/*.c:problem", "src/prob/*.c:problem_read_restart"]}
{"id": "C142", "title": "The jet enters where and as the input says, before and after a restart", "statement": "Before every step each ghost zone beyond the inner x1 boundary whose centre lies within rjet of the axis of the root Domain holds the density, velocity, pressure and field of the jet given in the input; every other one is the mirror image of the zone as far inside, fields of the faces included, so that no monopole enters; nothing else is changed; the same holds after a restart.", "quantifier": "all inputs, all Grids and ghost zones, all states of the Grid, all positions of the root Domain", "why_tests_cant": "The nozzle depends on the position of the Domain and of each zone; a restart in a test is made with a Domain centred at the origin, where an axis that is not restored is not noticed.", "anchors": ["src/prob/jet.c:jet_iib", "src/prob/jet.c:problem", "src/prob/jet.c:problem_read_restart", "src/convert_var.c:Prim1D_to_Cons1D"]}
{"id": "C143", "title": "The double Mach reflection starts and is driven by an exact plane shock", "statement": "The initial state and the ghost zones at the left and above are those of one plane shock of Mach number 10 at 60 degrees to the wall that satisfies the jump conditions and starts at the foot of the wall; the ghost zones below mirror the flow along the wall; runs that are not two-dimensional stop.", "quantifier": "all Grids, zones, times, values of gamma", "why_tests_cant": "The moving boundary state has to follow the shock at every time and in every zone, for every resolution; an image of the result hides small displacements.", "anchors": ["src/prob/dmr.c:problem", "src/prob/dmr.c:dmrbv_iib", "src/prob/dmr.c:dmrbv_ijb", "src/prob/dmr.c:dmrbv_ojb"]}
{"id": "C144", "title": "The Noh problem is driven by the exact inflow", "statement": "The initial state is a gas of density 1 and pressure 1e-6 that falls with speed 1 to the axis (2D) or centre (3D); at every time the ghost zones at the right, corners included, hold the solution ahead of the shock: density from conservation of mass, unit speed, pressure from conservation of entropy.", "quantifier": "all zones, times, gamma, two and three dimensions", "why_tests_cant": "The boundary state is a function of position and time; errors in its pressure are hidden behind the cold inflow.", "anchors": ["src/prob/noh.c:problem", "src/prob/noh.c:noh3d_oib", "src/prob/noh.c:noh3d_ojb", "src/prob/noh.c:noh3d_okb"]}
{"id": "C145", "title": "The shock-cloud problem starts from, and is fed by, an exact shock", "statement": "The initial state is a shock of the Mach number of the input at x1 = -2 that satisfies the jump conditions, running into gas at rest with density and sound speed 1, and a ball of radius 1 at the origin of the density of the input, at rest in equilibrium of pressure, which is all of the labelled material; before every step all ghost zones at the left, and no active zone, are set to the state behind the shock; with MHD the field has the strength given by beta.", "quantifier": "all gamma > 1, Mach > 1, density ratios, zones, numbers of ghost zones", "why_tests_cant": "A boundary function that is off by one zone still gives a plausible inflow; the jump conditions have to hold for every Mach number.", "anchors": ["src/prob/shk_cloud.c:problem", "src/prob/shk_cloud.c:shk_cloud_iib"]}
{"id": "C146", "title": "The carbuncle and Shu-Osher problems start from exact shocks", "statement": "The carbuncle test starts from a shock at rest that satisfies the jump conditions, with gas flowing in at the Mach number of the input and leaving it slower than sound; ahead of it neighbouring zones have opposite transverse momenta, whatever the decomposition; the state of the Shu-Osher problem is that behind a Mach 3 shock to the digits given.", "quantifier": "all gamma > 1, Mach > 1, amplitudes, zones, decompositions", "why_tests_cant": "A small error in the jump gives only a weak additional wave; the sign of the perturbation at a place must not depend on the number of processes.", "anchors": ["src/prob/carbuncle.c:problem", "src/prob/carbuncle.c:initialize_states", "src/prob/shu-osher.c:problem"]}
{"id": "C147", "title": "A shock tube along any axis is the same problem, and its reported error is meaningful", "statement": "The shock-tube generator gives the left state of the input where the coordinate along the chosen axis is not positive and the right state elsewhere; choosing another axis only turns momenta, fields and positions, in the initial state and in the reference solution alike; the field has no divergence; unequal normal fields end the run with a message. The reference solution equals the initial state at time zero, its discontinuities satisfy the jump conditions to the digits given, and its rarefaction has one entropy. The error printed at the end compares each zone of the root Domain with the solution at its position, does not depend on the decomposition, is zero only for the exact solution, and is available with refinement and after a restart.", "quantifier": "all left and right states, axes, positions, times, decompositions, sets of Domains", "why_tests_cant": "The regression test runs one input, without refinement, from the start; an error in the reference data is only seen as a slightly larger number.", "anchors": ["src/prob/shkset1d.c:problem", "src/prob/shkset1d.c:Userwork_after_loop", "src/convert_var.c:Prim1D_to_Cons1D", "src/utils.c:ath_error"]}
{"id": "C148", "title": "The square implosion starts symmetric about the diagonal, whatever the decomposition", "statement": "The implosion test puts the inner gas at rest in the corner below the line x1 + x2 = half the extent of the root Domain, to within one zone, and the outer gas elsewhere; the state of a zone does not depend on how the Domain is split into Grids, nor does the line depend on the level; the expression diff_d is zero in all zones exactly if the density is symmetric about the diagonal.", "quantifier": "all inputs, numbers of zones, levels, decompositions, zones", "why_tests_cant": "The test is run on one process; with several the run completes, with another initial state.", "anchors": ["src/prob/lw_implode.c:problem", "src/prob/lw_implode.c:expr_diff_d"]}
{"id": "C149", "title": "The flow in a periodic potential starts steady, on the chosen branch, whatever the decomposition", "statement": "Every zone the steady-flow problem generator fills has the mass flux and the entropy given in the input and a density within the tolerance of one at which the Bernoulli constant is that of the input; the flow is subsonic or supersonic as asked; the solution is found wherever it exists, and the root finder reports success only next to a zero. The potential and the initial state do not depend on how the Domain is divided.", "quantifier": "every adiabatic index above one, density, pressure, velocity, field strength, position, continuous function and bracket, number of bisections, division into Grids", "why_tests_cant": "The bracket and the tolerance have to work for all inputs; a test runs one input, and the decomposition it was run with.", "anchors": ["src/prob/pgflow.c: problem, rtbis, grav_pot, Bfunc"]}
{"id": "C150", "title": "The rotor has the radii, the rim velocity and the taper of the input", "statement": "The rotor problem generator starts gas ten times denser than its surroundings turning rigidly with the rim velocity of the input within the inner radius of the input, with density and momentum falling linearly to those of the surroundings at the outer radius; the density is between 1 and 10, the pressure and the field are uniform, and the state has no preferred direction.", "quantifier": "every position, inner and outer radius, velocity, pressure, field and adiabatic index", "why_tests_cant": "The test problem uses one pair of radii, for which constants in the code happen to be right.", "anchors": ["src/prob/rotor.c: problem"]}
{"id": "C151", "title": "The current sheets start divergence-free and in pressure balance on every Grid", "statement": "After the current-sheet problem generator every active zone holds the field along x2 reversed between 0.5 and 1.5, equal to the mean of its faces, with no divergence, a uniform total pressure and the sheared velocity of the input, and nothing is stored outside the arrays.", "quantifier": "every Grid, position of the zones, order in which they are visited, previous contents of the arrays, velocity, pressure and adiabatic index", "why_tests_cant": "A face left out shows only on the Grid, the edge or the dimension where it is missing.", "anchors": ["src/prob/current_sheet.c: problem", "src/init_grid.c: init_grid", "src/convert_var.c: Prim1D_to_Cons1D"]}
{"id": "C152", "title": "The rotating flow starts in balance and a restart continues it", "statement": "In the cylindrical rotating-flow problem gravity supplies exactly the centripetal acceleration, the azimuthal field exerts no net force, the shear handed to orbital advection is the logarithmic derivative of the rotation, angular momentum grows outward exactly below exponent two, and a restarted run has the same potential, boundary functions and rotation profiles as the run it continues.", "quantifier": "every radius, exponent (including one), angular velocity, density, pressure and field", "why_tests_cant": "The balance is an identity between derivatives at all radii and exponents; drifts caused by a wrong potential look like truncation error, and a test rarely restarts.", "anchors": ["src/prob/cylrayleigh.c: problem, problem_read_restart, Omega, Shear, vphi, grav_pot"]}
