# Formal model of Athena (C version): design

The model is written in Lean 4 (4.33.0, single Mathlib modules) under `lean/Verif/`.
It is a hand translation of the C sources in /repo/src read as text; nothing was compiled or run.

## Method

* Every definition carries a comment with the C file and lines it models and says where it simplifies.
* Loops become structural recursion or folds; pointers and arrays become lists or index functions;
  mutation becomes returning a new value.
* `Athena.Res` (`Base.lean`) has three outcomes: `ok`, `fatal` (the code calls `ath_error`) and `ub` (undefined
  behaviour in C: out-of-range write, uninitialised read, mismatched format). Float operations that C leaves without a
  usable value (division by zero, square root of a negative number) are `none` in `Option ℝ`.
* `Real` (C double) is modelled by exact arithmetic: an arbitrary type with the operations of the code (`Num`, no laws
  at all) where the property is bit-for-bit equality, an arbitrary (ordered) field where laws are needed, and the real
  numbers where `sqrt` occurs. Rounding, overflow, NaN and infinities are outside the model, except that the
  bit-for-bit theorems (C22, C60) use no law of arithmetic and hence hold for floating point as well.
* C `int` is modelled by unbounded `Nat`/`Int` unless a property is about overflow.
* MPI is modelled at the message level: a message is a list of words, sends match receives by (source, tag).
* Property theorems live in `*Props.lean` files or at the end of a module, apart from models and helper lemmas. Beside
  each one an `example` shows that a concrete non-trivial case meets the hypotheses.
* Where the code violates the property, the negation is proved for a concrete witness (suffix `_false`) and the
  strongest true part is proved under the suffix `_partial`.
* The theorems are tested by editing the model as a bug would; `seeded/LOG.jsonl` has one line per attempt.

## Trusted base

* Lean's kernel.
* The axioms `propext`, `Classical.choice`, `Quot.sound`; every theorem named in `MANIFEST.json` depends on a subset of
  these (`#print axioms`). No other axioms, no `sorry`, no `native_decide`, no `bv_decide`.
* The faithfulness of the hand translation to the C text, in the configuration stated in each comment.
* Mathlib's definitions (real numbers, finite sums, integer intervals).

## What is modelled

| Area | Source | Lean modules |
|---|---|---|
| Parameter database, parser, dump, command line, MPI distribution | par.c | `Par/*` |
| Main loop, signals, termination messages | main.c, ath_signal.c | `Run/Main*` |
| Time step | new_dt.c, microphysics/new_dt_diff.c, main.c STS part | `Run/Cfl*`, `Run/StsProps` |
| Output scheduling, output blocks | output.c | `Run/Output*` |
| Restart files (write, buffered write, read) | restart.c, dump/read loops at field level | `Run/Restart*` |
| Domain decomposition, ranks, neighbours, nesting | init_mesh.c | `Mesh/Decomp*`, `Mesh/Nest*` |
| Grid overlap tables, message sizes | init_grid.c | `Mesh/Overlap*` |
| Positions | cc_pos.c | `Mesh/Pos` |
| Boundary conditions, pack/unpack, exchange | bvals_mhd.c (reflect, outflow, periodic, conduct, MPI) | `Bvals/*` |
| State vectors, conversions, fast speed | convert_var.c (Newtonian) | `Hydro/State*` |
| Special-relativistic conversions | convert_var.c (SPECIAL_RELATIVITY) | `Rel/{Quartic,Convert,Speed,HydroProps,Mhd*}` |
| Special-relativistic HLLC, 1D predictor | hllc_sr.c (hydro), integrate_1d_vl_sr.c (Steps 1-5) | `Rel/Hllc*` |
| Special-relativistic repair | integrate_{1d,2d,3d}_vl_sr.c (Step 14, FixCell) | `Rel/Fix*` |
| Special-relativistic MHD HLLE | hlle_sr.c (MHD) | `Rel/Hlle*` |
| Riemann solvers | rsolvers/{hlle,hllc,hlld,force,two_shock,roe,esystem_roe,exact}.c | `Hydro/Rsolve*`, `Hydro/HllcProps`, `Hydro/Roe*`, `Hydro/Hlld*`, `Hydro/Exact*` |
| Reconstruction | reconstruction/lr_states_{dc,prim2,plm,prim3,ppm,p3c}.c, esystem_prim.c | `Recon/*` |
| Integrators | integrators/integrate_{1,2,3}d_{vl,ctu}.c, integrate.c (Newtonian, Cartesian, no source terms) | `Integr/*` |
| Mesh refinement exchange | smr.c: RestrictCorrect, Prolongate, ProCon, ProFld, mcd_slope, Waitany bookkeeping | `Smr/*` |
| Explicit diffusion | microphysics/{conduction,viscosity,resistivity,integrate_diffusion}.c (isotropic and anisotropic conduction, isotropic viscosity, Ohmic and ambipolar resistivity); cool.c, cool_solver.c, integrate_cooling.c | `Micro/*` |
| Decomposed FFT | fftsrc/{pack_2d,remap_2d,fft_2d,pack_3d,remap_3d,fft_3d,factor,ath_fft}.c | `Fft/*` |
| Self-gravity, periodic | gravity/selfg_fft.c, selfg.c, bvals_grav.c (one Grid; all Grids of a periodic Domain), selfg_fft_2d/3d on all processes, source terms of the integrators | `Grav/*`, `Bvals/Phi` |
| First-order flux correction | integrate_3d_vl.c, integrate_2d_vl.c (Step 5d, Step 14, FixCell, ApplyCorr) | `Fofc/*` |
| Joining VTK files | vis/vtk/join_vtk.c, src/dump_vtk.c | `Join/*` |
| Cylindrical coordinates | integrate_3d_vl.c (CYLINDRICAL), integrate_3d_ctu.c (steps 8b, 10b-12d; work arrays), integrate_1d/2d_ctu.c (work arrays), init_grid.c (radii) | `Cyl/*` |
| Self-gravity, disks and open boundaries | gravity/selfg_fft_disk.c, selfg_fft_obc.c (Cartesian, whole Domain), open boundaries of bvals_grav.c | `Grav/Open`, `Grav/OpenDft`, `Grav/Obc`, `Grav/Disk*` |
| Self-gravity by multigrid | gravity/selfg_multigrid.c (one Grid) | `Mg/*` |
| Static potential | integrate_{1d,2d,3d}_{vl,ctu}.c (StaticGravPot in the last steps) | `Static/Pot` |
| Shearing box | bvals_shear.c (ShearingSheet_ix1/ox1, ShearingSheet_grav_ix1/ox1, RemapFlx_ix1/ox1, RemapEy_ix1/ox1, RemapJy_ix1/ox1, RemapFlux, RemapVar, Fargo, buffers), averaging of edge fluxes in the 3D integrators; Coriolis and tidal source terms of the 2D and 3D integrators | `Shear/*` |
| Initial states of test problems | prob/{field_loop,linear_wave,cpaw,orszag-tang,rotor,blast,current_sheet}.c (problem) | `Prob/*` |
| Particle history | particles/dump_particle_history.c | `Part/History` |
| Physical constants | units.c | `Run/CodeUnits` |
| Random numbers of the problem generators | prob/{kh,hgb,rt,strat,msa,hb3,firehose,ti_test,par_strat*,streaming*}.c (ran2, seeds) | `Prob/Ran2` |
| Units and reversal of the field | all six integrators, lr_states_{dc,plm,ppm,prim3c}.c, esystem_prim.c, hlle.c, convert_var.c, new_dt.c | `Integr/Scale*`, `Recon/Scale*`, `Hydro/Units`, `Run/CflUnits` |
| Joining binary dumps | dump_binary.c, vis/matlab/join_bin/join_bin.c | `Join/Bin` |
| Shock tube at an angle | prob/shkset2d.c (initial state, boundary functions) | `Prob/Shk2d` |
| Set-up of a restarted run | main.c:361-442, restart.c:469, bvals_mhd.c (bvals_mhd_init, bvals_mhd_fun), prob/{jet,dmr,noh,shk_cloud,shkset2d,cylwind,pgflow,rt,jeans,linear_wave,collapse3d,blast,field_loop,kh,strat,hgb,hb3}.c (what `problem` and `problem_read_restart` enroll) | `Run/Setup` |
| Jet, double Mach reflection, Noh problem, shock and cloud, carbuncle, Shu-Osher (state behind the shock), shock tubes, implosion, steady flow, rotor, current sheets, rotating flow | prob/jet.c (jet_iib), prob/dmr.c, prob/noh.c, prob/shk_cloud.c, prob/carbuncle.c, prob/shu-osher.c, prob/shkset1d.c, prob/lw_implode.c, prob/pgflow.c, prob/rotor.c, prob/current_sheet.c, prob/cylrayleigh.c | `Prob/Jet`, `Prob/Dmr`, `Prob/Noh`, `Prob/ShkCloud`, `Prob/Carbuncle`, `Prob/Shk1d`, `Prob/Rj2a`, `Prob/Implode`, `Prob/Pgflow`, `Prob/Rotor`, `Prob/Sheet`, `Prob/Rayleigh` |
| Particle lists | particles/output_particle.c (dump_particle_binary), vis/particle/join_lis.c, sort_lis.c | `Join/Lis` |
| Particles | particles/{integrators_particle,utils_particle,bvals_particle,init_particle,output_particle,exchange}.c (drag, forces, interpolation, binning, sorting, boundary conditions, exchange of binned quantities) | `Part/*` |
| Messages to log files, file names, dump names, slices, I/O baton, table and history dumps, distributions, images | ath_log.c, ath_files.c, dump_*.c, output_*.c (naming), output.c slices, baton.c, dump_tab.c, dump_history.c, output_pdf.c, output_pgm.c, output_ppm.c, palette.h | `Io/*` |
| Arrays, gcd, byte swap, min/max, bisection, quadrature, LU, vector potential, div B | ath_array.c, utils.c | `Utils/*` |

## Plan per property

Each line: what is modelled and how it is proved. The theorem names and what is missing from partial claims are in
`MANIFEST.json`.

* **C01 Parameter reads return the latest write** - Par: association-list model of the block/parameter lists over `List Char`; a read returns the last write, by induction over write sequences.
* **C02 Defaulted reads never overwrite and always register** - Par: defaulted reads as state transitions; postcondition and frame. Doubles (Par/Float.lean) are rationals; `%.15e` and `atof` are modelled as strings with correct rounding, exponent range unbounded.
* **C03 No duplicate blocks or parameters** - Par: invariant (no duplicate keys) preserved by every operation and by every input line.
* **C04 par_dump (restart mode) then par_open reproduces the database** - Par: character-level model of par_dump and of the line parser; round trip for clean databases, negation witnesses for the two shapes that do not survive.
* **C05 Command-line overrides touch only existing parameters** - Par: par_cmdline as a fold over arguments; frame, effect and error theorems.
* **C06 MPI distribution gives every rank the same database** - Par: the broadcast line sequence as a list of strings, the child as a fold; equality for clean databases; overflow witness.
* **C07 The main loop stops at the time and step limits and counts steps correctly** - Main: state machine over ranks, signals and steps; invariants by induction; witnesses for restart overshoot and the SIGTERM message.
* **C08 Output dump numbers are consecutive and schedules advance by exactly dt** - Output: data_output as a step function over outputs; induction over call lists; overflow of dump_flag as `ub`.
* **C09 Restarting continues the output schedule exactly** - Output + RestartFile: recorded numbers/times against the post-state of the same call; the number format is a parameter with its round trip as hypothesis.
* **C10 Restart files restore the simulation state** - RestartFile: writer to and reader from a word stream with text markers; round trip over all arrays of all Grids.
* **C100 Relativistic gas: recovered speed is below light for any input** - `Rel/HydroProps.lean`: case analysis of the clamp with NaN as a distinct value.
* **C101 Relativistic MHD: the equation solved has one physical root, and it is the state** - `Rel/Mhd.lean`, `Rel/MhdFun.lean`, `Rel/MhdProps.lean`: derivative of the function is at least (1-V^2)/Gamma on the physical range, hence unique root; algebra identifies the state; starting guess bounded below by the solution of a quadratic.
* **C102 Relativistic MHD: conversion marks failure or returns an admissible state** - `Rel/MhdProps.lean`: case analysis of what follows the loop.
* **C103 Relativistic MHD: Newton steps use the true derivative** - `Rel/MhdFun.lean`: `HasDerivAt` for the composed function; counterexample at Q=4, M^2=12, D=1 for the entropy function.
* **C104 Relativistic HLLC flux: true signal speeds, no NaN, exact in the cases that decide it** - Rel/Hllc models hllc_sr.c line by line; specification of characteristics and physical flux in Rel/HllcProps; speeds by the quadratic of the sound cone, special cases by algebra.
* **C105 Relativistic HLLC fan is ordered and its states are physical** - The physical states form a convex cone (Cons.Warm); lambda U - F lies in it for lambda beyond a signal speed; the contact quadratic changes sign between the signal speeds; star states are differences lambda U - F plus a pressure term, in the cone again.
* **C106 First-order relativistic step keeps the gas physical** - Update of a cell as a sum of fan regions with non-negative weights (Godunov averaging), cone closed under sums; `warm_iff` ties the cone to density, velocity and pressure via C99.
* **C107 Relativistic first-order repair: bad zones become physical, totals are kept** - Step 14 and FixCell loop of the 1D integrator for any check and fluxes; invariant: zone = update with face flux F - m(F-FP), m = repaired neighbours. Corollaries; counterexamples for adjacent zones and 3D.
* **C108 Relativistic MHD signal speeds bound the magnetosonic waves** - getVChar_pluto transcribed with NaN as none; separate magnetosonic polynomial; factorisation for Bx = 0, biquadratic at rest; two refutations for Bx < 0.
* **C109 Closed-form cubic and quartic solvers return the roots** - CUBIC, QUARTIC transcribed over the reals; triple-angle formula; Ferrari resolvent; acceptance test gives the residual bound.
* **C11 Buffered restart writing does not change the file contents** - Restart: buffered writer state machine; refinement to plain append.
* **C110 Relativistic HLLE flux: causal, consistent, conservative** - fluxes, flux_LR, entropy_flux transcribed; physical flux written from the stress-energy tensor; algebra.
* **C111 Redistribution of a decomposed array** - model `pack_3d`, the seven unpackings, `remap_3d_collide`, the plan and `remap_3d` (Fft/Model); show that the lists of addresses enumerate the overlap, that different elements have different places, that the receive buffers are disjoint, then the final contents by induction over the unpackings in any order (Fft/Pack, Fft/Remap).
* **C112 The Fourier transform does not depend on the decomposition** - model `bifactor`, the three distributions, the targets, the sharing of plans and `fft_3d` on all processes (Fft/Fft3d); compose C111 with the lemma on a set of line transforms, relate to the three-dimensional DFT (Fft/Fft3dProps, Fft/Fft3dDft); refute for 9 x 16 x 9 on two processes.
* **C113 The multigrid gravity solver returns for every Grid** - Mg/Model: `multig_3d` with the depth of the recursion as an argument; by induction on it the call returns exactly if a number of zones halves to 4 (Mg/Props); refuted for 24 zones.
* **C114 The multigrid gravity solver keeps the exact potential** - Mg/Model: sweeps, restriction, prolongation and the driver on one Grid; maximum principle and signs of the errors show the drift (Mg/Props); sweeps alone keep the solution (4 zones in a direction).
* **C115 Jacobi sweeps of the multigrid solver converge to the only solution** - Mg/Jacobi: errors as averages of the neighbours' errors; comparison with a product of sines gives the rate; uniqueness from convergence, existence from injectivity of the linear map.
* **C116 Ghost zones of a refined Grid hold the interpolation of the parent** - Smr/Prolong: messages, scratch arrays, the six loops; geometry of the two levels, folds over blocks and boundaries (Smr/ProlongProps); nghost = 5 refuted.
* **C117 Field in the ghost zones of a refined Grid** - Smr/Prolong: known faces, ProFld and the guarded writes; invariant over the boundaries done so far (Smr/ProlongFld).
* **C118 Prolongation creates no divergence** - From C117 and C31: shared faces of neighbouring blocks agree (Smr/ProlongDiv); exact zeros refuted.
* **C119 Disk gravity satisfies Poisson's equation** - Modelled: selfg_fft_disk_1d/2d/3d (Grav/Open), with the coefficients of the code, and the extrapolation of bvals_grav. The two transforms with and without half wave numbers are the even and odd parts of one transform of the density padded with empty planes (Grav/OpenDft), so the Laplacian is the padded density minus its image half a period away, which is empty inside (Grav/Disk). The two-dimensional solver is shown equal to the three-dimensional one with one zone in the second direction; one dimension by induction over the recursion. The refutation sums the equation over the lowest plane.
* **C12 Grids tile each Domain exactly** - Decomp: quotient/remainder sizes; every zone in exactly one Grid.
* **C120 Disk gravity is that of an isolated disk** - The sum over a plane is antiperiodic with half the period and has the right second differences; these determine it (Grav/DiskProps). Refuted with one massive zone in 2x1x2 and 2x1x3 zones, evaluated in closed form (Grav/DiskMore).
* **C121 Open-boundary gravity satisfies Poisson's equation** - Modelled: selfg_fft_obc_3d with the multiplications of all Grids of a decomposition (Grav/Open). The eight transforms are one of the density padded to twice the size in every direction (Grav/OpenDft), hence the solver is the periodic one there (Grav/Obc), and the theorems on that solver apply.
* **C122 Transfers between multigrid levels conserve the residual and keep linear potentials** - Direct from the model of Restriction_3d and Prolongation_3d (Mg/Transfer): pairing of zones for the sum, parity cases for the interpolation.
* **C123 Multigrid boundary values are those of the mass of the gas** - From the model of selfg_multig_3d (Mg/Mono); refuted with two Grids that differ in the origin of one coordinate.
* **C124 Positive density and pressure in the first-order steps** - Hydro/HllePos.lean: for a zone and the HLLE fluxes at its two sides, what goes out of density and of the energy in any frame is at most B times the contents, B a bound for the signals of the solver (Einfeldt's positivity, with the solver's own speeds); signals_iso, signals_adb bound them by those of the zones. Integr/Positive.lean: the predictors and the first-order CTU step are the zone minus dt/dx times such differences. The refutation computes the flux between two layers that move along each other.
* **C125 Coriolis force and tide of the shearing box** - Shear/Source.lean models the source terms, flux differences and ApplyCorr of a zone with arbitrary face fluxes, and the loop over the Grid; SourceProps: the two momenta are solved for, giving the Crank-Nicholson equations (linear algebra), which keep a quadratic form; ApplyCorr is linear in the fluxes, member by member for the seven ways FixCell calls it. SourceGrid: sums over the Grid telescope, induction over runs.
* **C126 A potential set for the shearing box acts on the gas** - Shear/SourceGrid.lean: the momenta of `zone` do not depend on the potential; a column in hydrostatic balance gains momentum; NULL is a distinct outcome; for the potential of the tide the force is rewritten from C125.
* **C127 Test problems start with a divergence-free magnetic field** - Model the loops of seven generators as updates of blocks of arrays that start at zero; prove each face field to be the curl of one potential at the position of the face, then the divergence in 1D, 2D and 3D; refute the divergence for loops and waves out of the plane of a 2D Grid, and the array bounds of the 1D current sheet.
* **C128 Test problems start with the pressure and density asked for** - Compute the pressure from the conserved variables of every zone; rotate the momenta of the wave; refute the density of the rotor for radii other than those in the code.
* **C129 Waves and rotated loops fit a periodic Domain** - Trigonometry of the default angles; shift of the potentials by constants; the two while loops of the rotated loop as reduction modulo the wavelength.
* **C13 Automatic domain decomposition is valid, complete and optimal** - Decomp: the three search functions with their loops; soundness, completeness, minimality of the cost.
* **C130 A run does not depend on the choice of units** - Integr/Scale.lean: conversion of states, slopes, fluxes and electric fields; each step of the six integrators commutes with it if reconstruction and fluxes do (Funs.Scale). Recon/Scale*.lean, Hydro/Units.lean: they do for the code's limiters, eigensystems and HLLE. Runs by C75/C112-style reduction to the lattice and induction (Integr/ScaleRun.lean); Run/CflUnits.lean for new_dt; refute by two witnesses.
* **C131 Reversing the magnetic field reverses it for ever** - The conversion of C130 with field factor -1 and everything else 1; the eigensystems by cases on the sign of Bx; refute equality of the time steps with one zone, prove it where faces and centres agree.
* **C132 Random perturbations lie between 0 and 1 and differ between processes** - `ran2()` with its integer overflow (Schrage's method) as a state machine over ℤ; invariant of the state by induction over the calls; seeds of the first generator stay different because the multiplier is a unit modulo its prime; the code's seeds by rank and by Grid position.
* **C133 The particle history holds the averages over all particles** - dump_particle_history.c as folds over the particles of each process, with the packing of the messages; the result is compared with sums over the list of all particles; permutation invariance of these sums gives independence of the decomposition.
* **C134 Physical constants in code units are consistent for every choice of units** - init_units and init_consts as functions of the three base units; each constant is given its physical dimension in the specification, and the value is compared with cgs value over unit; dimensionless products by induction over the list of factors.
* **C135 The two-dimensional Fourier transform does not depend on the decomposition** - pack_2d.c, remap_2d.c and fft_2d.c function by function as for C112; a two-dimensional redistribution is proved equal to a three-dimensional one with one plane, whose correctness for every schedule is known; the transform then follows stage by stage. Counter-example: a spike in 5 x 5 zones on two processes.
* **C136 Self-gravity with periodic boundaries does not depend on how the Domain is divided among processes** - `Grav/Parallel.lean`: the two solvers on all processes at once, on memory (`fill3`, `elt`, `F3DI`), composed from the decomposed transforms (`Fft/`) and the Grid-wise multiplications (`Grav/Model.lean`). Holding invariant: each array is the process's part of one data set; then the solution of one Grid (`Psi`) applies.
* **C137 Ghost zones of the gravitational potential are the periodic images, on any number of Grids** - Model of the pack, exchange and unpack functions of Phi and of its boundary functions (Bvals/Phi.lean) with the messages, buffers and order of arrival; invariant over the three directions: after direction k all zones of the arrays in the directions done, and the active zones in the others, hold the periodic potential. Combined with C136 in Grav/Ghosts.lean.
* **C138 Joined and sorted particle lists hold every particle once and do not depend on the decomposition** - `Join/Lis.lean`: files as sequences of typed values. `join_all` by induction over processes; `quicksort_spec`: every pass permutes the range and keeps smaller / not smaller sides of the pivot, recursion depth bounded by the length; `lists_agree_partial` from the uniqueness of the sorted list of distinct names. `names_meet`: the names of C45. `sort_empty_false`: a list of no particles is undefined behaviour.
* **C139 Joining the per-process binary dumps gives the file of a single-process run** - `Join/Bin.lean`, with the order of files of `Join/Sort.lean` and the loops over rows of `Join/Read.lean`. `joinbin_exact`: what is joined, by induction over the variables; `joinbin_gravity_false`: the potential is lost; `joinbin_check_false`: the consistency check accepts everything.
* **C14 Processor assignment is balanced and never doubles up within a Domain** - Decomp: round-robin assignment over lists of Domains.
* **C140 The inclined shock tube starts from the exact cell averages and keeps its symmetry at the boundaries** - `Prob/Shk2d.lean`: `problem` zone by zone and the four boundary functions. The parts of a zone are integrals over the zone (`leftPart`); `zone_weights` settles the nine cases. `average_partial`, `faces_exact`, `divergence_free`, `repeats`, `grids_agree`; `corner_false`, `position_false`, `refined_false`. Boundary functions by induction over the ghost lines: `ghosts_partial`, `stale_false`.
* **C141 A restarted run solves the same problem as the run it continues** - `Run/Setup.lean`: for seventeen generators what `problem` and `problem_read_restart` set (constants, potentials, boundary functions, history columns, static variables), the calls from `main` and `restart_grids`, the choice of boundary functions in `bvals_mhd_init` and the tests of `selfg_init`. `same_physics` by induction over the Domains; `strat_restart`, `*_restart_partial`; `*_restart_false` for the others.
* **C142 The jet enters where and as the input says, before and after a restart** - `Prob/Jet.lean`: `jet_iib` with the static variables left by `Run/Setup.lean`; `nozzle_partial`, `wall_partial`, `rest_kept`, `ghost_div_partial` for a new run; `restart_partial`, `restart_false`, `last_face_false`.
* **C143 The double Mach reflection starts and is driven by an exact plane shock** - `Prob/Dmr.lean`: `problem` and the three boundary functions; the jump conditions as the specification: `jump_partial`, `gamma_false`, `initial_exact`, `left_exact`, `wall_exact`, `top_partial`, `top_false`, `only_2d`, `active_kept`.
* **C144 The Noh problem is driven by the exact inflow** - `Prob/Noh.lean`: the state in a zone at the start and in a ghost zone at any time; the specification is conservation of mass (as derivatives) and of entropy: `start_state`, `ghost_state_partial`, `density_solves`, `ghost_start`, `right_covered`, `pressure_false`, `origin_false`.
* **C145 The shock-cloud problem starts from, and is fed by, an exact shock** - `Prob/ShkCloud.lean`: the jumps, the state in a zone, the boundary function; jump conditions as the specification: `shock_exact`, `shock_compresses`, `initial_partial`, `boundary_partial`, `boundary_false`, `field_false`.
* **C146 The carbuncle and Shu-Osher problems start from exact shocks** - `Prob/Carbuncle.lean`: the states and the perturbation in a zone; `standing_exact`, `uniform_flow`, `checkerboard_partial`, `decomposition_false`, `one_d_false`, `shu_osher_shock`.
* **C147 A shock tube along any axis is the same problem, and its reported error is meaningful** - `Prob/Shk1d.lean`: the state in a zone, the reference solutions, the array over the list of Domains, the error over lists of Grids; `turned`, `sides`, `divergence_free`, `message_false`, `sod_start`, `rj_start`, `sod_jumps`, `fan_isentropic`, `fan_characteristic`, `fan_edges`, `sod_pos`, `rj_contact`, `rj_waves` (`Prob/Rj2a.lean`), `root_partial`, `compare_partial`, `refined_false`, `restart_false`, `error_decomposition`, `error_zero`.
* **C148 The square implosion starts symmetric about the diagonal, whatever the decomposition** - `Prob/Implode.lean`: the state in a zone of a Grid of a Domain, and `diff_d`; `interface_partial`, `symmetric`, `diff_exact`, `decomposition_false`, `diff_grid_false`, `diff_shape_false`, `refined_false`.
* **C149 The flow in a periodic potential starts steady, on the chosen branch, whatever the decomposition** - Pgflow.lean: prob/pgflow.c over the reals; induction over the bisection loop with the bracket as invariant and the intermediate value theorem, then the Bernoulli function at both ends of the bracket; the dependence of the potential on the decomposition is refuted.
* **C15 Same-level Domains never overlap or touch** - Nest: the pairwise test of step 4 over integer boxes.
* **C150 The rotor has the radii, the rim velocity and the taper of the input** - Rotor.lean: the initial state of prob/rotor.c over the reals against a taper between the radii of the input; proved for the radii of the reference, refuted for others by zones of negative density and a wrong velocity at the rim.
* **C151 The current sheets start divergence-free and in pressure balance on every Grid** - Sheet.lean: the stores of prob/current_sheet.c zone by zone; an invariant over any order of the zones gives every face and centre of an active zone; the store beyond the array in one dimension is refuted.
* **C152 The rotating flow starts in balance and a restart continues it** - Rayleigh.lean: the rotation, field and potential of prob/cylrayleigh.c as real functions; their derivatives give the radial balance and the shear; what is enrolled after a start and after a restart is compared.
* **C16 Refined Domains are properly nested** - Nest: the per-parent test of step 5; the full claim is refuted.
* **C17 Overlap computation returns exactly the shared cells** - Overlap: max/min interval intersection against set intersection.
* **C18 Parent and child agree on the size of every refinement message** - Overlap: word counts on both sides; odd sizes refuted.
* **C19 Neighbour tables are mutually consistent** - Nest: rank table and neighbour look-up.
* **C20 Boundary conditions fill all ghost zones and leave active zones unchanged** - Bvals: ghost filling as loops over index functions; each ghost entry equals an image of an active zone.
* **C21 MPI ghost exchange delivers the neighbour's zones and fits its buffers** - Bvals: pack to list, unpack from list; lengths and contents.
* **C22 Decomposed and single-Grid runs see the same ghost data** - Bvals: composition of the three exchange stages on all Grids against one Grid.
* **C23 The time step respects the CFL condition everywhere** - Cfl: folds of max over zones, Grids, levels and ranks; witnesses for the cases in which the code's bound is too small.
* **C24 The time step never more than doubles and never overshoots tlim** - Cfl/Main: the clipping logic and its composition with the main loop.
* **C25 Primitive/conserved conversion round-trips** - State: conversions over the reals; round trips.
* **C26 The fast speed bounds all signal speeds** - State: fast speed as root of the characteristic polynomial.
* **C27 Restriction conserves mass, momentum, energy and scalars** - Smr: averaging loops, message, unpacking; sums.
* **C28 Flux correction makes the composite mesh conservative** - Smr: flux correction; composite integral by face sums.
* **C29 Restriction of the face-centred field preserves its divergence** - Smr: face averages, EMF correction and divergence of covered zones.
* **C30 Prolongation conserves and creates no new extrema** - Smr: mcd_slope/ProCon over an ordered field.
* **C31 Prolongation of the face field is divergence-preserving and keeps fine fields** - Smr: ProFld (Toth-Roe) over a field; algebraic identity; sentinel refuted.
* **C32 The integrators conserve mass, momentum, energy and scalars** - Integr: all six Newtonian integrators with flux function and reconstruction as parameters; telescoping sums; induction over steps.
* **C33 Constrained transport keeps div B = 0** - Integr: the constrained-transport update of each integrator; algebraic identity; induction over steps and boundary calls.
* **C34 Riemann solvers are consistent and upwind** - Rsolve, Roe, Hlld: HLLE, HLLC, FORCE, two-shock, Roe, HLLD over the reals; consistency, upwinding, intermediate states.
* **C35 Riemann solvers are mirror symmetric** - Rsolve, Roe, Hlld: mirror symmetry; refuted for FORCE with adiabatic MHD and for HLLD's degenerate branches.
* **C36 Reconstruction is monotone, exact for uniform and linear data, and local** - Recon: limiters, profiles and stencils of every reconstruction.
* **C37 gcd is correct** - Utils: Euclid's loop against Nat.gcd; b=0 is `ub`.
* **C38 Byte swapping is an involution that reverses each word** - Utils: byte lists; involution; negation for other lengths.
* **C39 LU decomposition solves linear systems and inverts matrices** - Lu: pivoted Crout over an ordered field; loop invariants.
* **C40 Bisection and min/max utilities** - Roots: bisection loop with the code's iteration cap; min/max folds.
* **C41 Vector potentials give divergence-free fields** - VecPot: edge potentials to face fields; algebraic identity.
* **C42 The I/O baton never admits more than the allowed number of ranks and never deadlocks** - Baton: transition system over rank states; safety invariant and progress.
* **C43 Signals are never lost and stop the run cleanly** - Main: flag per rank, MPI sum; the race between read and reset is a witness.
* **C44 Log levels filter exactly** - Log: level/stream state machine with a file system oracle.
* **C45 Output file names are unique and fit their buffer** - Fname: decimal formatting and concatenation into a bounded buffer; injectivity and length.
* **C46 Slice specifications select the intended zones** - Slice: parser on characters; zones selected; means.
* **C47 Cell position functions are mutually inverse** - Pos: positions over an ordered field with truncation.
* **C48 Message completion order does not matter in refinement exchanges** - Wait: MPI_Waitany loop over a compacted request list; permutation invariance.
* **C49 Multi-dimensional arrays never alias and are zero-initialised** - Arr: address arithmetic of the three allocators.
* **C50 Numerical ODE and quadrature helpers are exact on the functions they claim** - Quad: trapezoid refinement and Simpson extrapolation.
* **C51 Refinement overlap tables are complete** - Overlap: tables of children/parents against the set of overlapping pairs.
* **C52 Child Grids are addressed by their position in the parent communicator** - Nest: communicator positions; refuted for parents that do not use all ranks.
* **C53 Input files produce only well-formed parameters** - Par: every accepted file gives names and values without separators or comments.
* **C54 Super-time-stepping sub-steps add up to the time step** - Sts: sub-step lengths by Chebyshev polynomials.
* **C55 The explicit diffusion step is stable** - Sts/Cfl: bound on the diffusion number.
* **C56 Every Domain and every output writes its own file** - DumpNames: level/domain tags as carried between iterations; collisions exhibited.
* **C57 Table dumps can be read back column by column** - Io/Tab: header and rows of dump_tab character by character; blanks split them into fields; the fields are the entries of the documented columns. Negations for two-zone directions and for long indices.
* **C58 History files hold the volume averages of the documented quantities** - Io/Hist: sums over the zones of each Grid, reduction over Grids (tiling of C12), division by the Domain's volume; equality with the volume average; columns, labels, array bound, writing process. Negations for ignorable directions, refined Domains and relativistic MHD.
* **C59 First-order flux correction repairs zones without creating or destroying anything** - Step 14 of both van Leer integrators as a fold over the zones; invariant `Made`: the Grid is the update of the old state with the fluxes at hand, proved for one FixCell by Kronecker-delta algebra, then by induction over the loop; conservation, divergence and agreement on faces follow from it.
* **C60 A decomposed run is the single-Grid run, bit for bit** - Integr: run of all Grids with exchange against one Grid, by an agreement invariant on the zones each Grid knows; needs locality of flux and reconstruction only.
* **C61 Relativistic reconstruction stays below the speed of light** - Recon: relativistic reconstruction; refuted.
* **C62 Characteristic tracing and LimO3 create no new extrema** - Recon: characteristic tracing and LimO3; refuted in three configurations.
* **C63 EMF correction keeps the divergence outside the refined region** - Smr: EMF correction of the zones next to the refined region.
* **C64 Results do not depend on the names of the axes** - Lattice step of each 3D integrator commutes with cyclic renaming (Rot.lean), image specification of the boundary conditions is symmetric in the directions, two runs stay related by induction (Sym.lean), lifted to decomposed runs by the companion run of the undivided Domain (RotRun.lean).
* **C65 Roe's and the HLLD solver keep a single discontinuity exactly** - Roe*: roe.c and the four eigensystems over the reals; the eigenvectors are proved dual, their matrix computed in closed form and compared with the jump of the fluxes; refuted in MHD. Hlld*: closed forms of the intermediate states and the jump conditions at every wave of the fan.
* **C66 The exact Riemann solver solves the Riemann problem** - Exact*: exact.c over the reals (log, exp, pow are the real functions), with its Newton/bisection loops; the solution of the Riemann problem is specified separately (ExactSpec: Wave1, Wave2, AtZero, Solves) and the flux compared with it. Full for exact roots; refuted for the absolute tolerances (exactI_solution_false, exactA_defined_false).
* **C67 A run on mirrored data is the mirror image of the run** - `Integr/Mirror*.lean`: the update on an unbounded lattice commutes with reversing a direction (`latt_mir`, by following every intermediate array of the six integrators: fluxes change sign but for the longitudinal momentum, left and right states change places, edge fields change sign); `image_mir` for the boundary conditions; `runs_related` carries both through any number of cycles on any decomposition. Hypothesis `Funs.Mirror` on solver, reconstruction and conversions (solvers: C35); met by a donor-cell, local Lax-Friedrichs scheme with the MHD flux. Outflow refuted on a 4 by 4 Domain with the field (x1, -x2). `Integr/Code.lean`: the functions of the code with the HLLE solver, every equation of state, with and without field, and all reconstructions satisfy `Funs.Mirror` (`Recon/Mirror*.lean`: each limiter is odd, the eigensystem of the mirrored state has the mirrored eigenvectors in opposite order; `Hydro/HlleMirror.lean`), which gives `code_run_mirror_partial`.
* **C68 A lower-dimensional run is a higher-dimensional run of the same data** - Modelled: the six Newtonian integrators as lattice maps. Proved: on a lattice independent of x3 (x2) the corner electric fields of the 3D (2D) integrators collapse to the fluxes of the lower-dimensional ones, the multidimensional source terms cancel, and the two maps coincide; then induction over the cycles of runs on periodic Domains via `lattice_run`. Boundaries other than periodic are not covered. `code_plain`, `code_exact`: the hypotheses hold for the functions of the code with the HLLE solver (`Integr/CodeRuns.lean`).
* **C69 A uniform flow stays exactly uniform** - A uniform lattice has period one, so the step's commuting with translations makes its result uniform and conservation over one period fixes its value; the zone-centred field follows from the averages. The boundary conditions continue a uniform state (ghost image theorem). Then induction over the cycles of a run on any decomposition.
* **C70 Explicit thermal conduction moves energy from hot to cold, conserves it and keeps a uniform temperature** - Micro/Conduct*: conduction.c over the reals with arbitrary work arrays; proved equal to a shift-invariant lattice step on active zones, from which conservation follows by telescoping; temperature bound as a convex combination; refuted with explicit data (max_principle_false, conduct_2d_3d_false).
* **C71 Explicit resistivity conserves, keeps div B, heats by eta J^2 and never amplifies the field** - Micro/Resist*, Decay: resistivity.c with Q_Hall = 0 as a shift-invariant lattice step; discrete curl and its adjoint over a period, bound of the curl norm by the inverse square of the zone size, energy estimate; linear fields in closed form.
* **C72 Explicit viscosity conserves momentum and energy, heats, and leaves rigid motion alone** - Micro/Visc*: viscosity.c in the same form; linear velocity fields computed in closed form, heating as a sum of squares, Galilean change of frame by algebra.
* **C73 Runs with conduction, resistivity and viscosity: decomposition, conservation, div B, decay** - Micro/Diffuse, DiffuseRun: the cycle as a sum type of integrator and diffusion calls; the general run theorems of Integr/Gen*, GenLat instantiated.
* **C74 Restarting a run with resistivity** - Micro/ResistRestart: the Grid with its diffusivity arrays as the state carried between cycles; refuted by a linear field.
* **C75 The gravitational potential solves the periodic Poisson equation** - Grav/Dft, Model, Solve, Poisson: the transform as a finite Fourier sum over the complex numbers with orthogonality and inversion proved; pcoeff as the inverse eigenvalue of the discrete Laplacian; the 1D recursion in closed form; ghost zones by index arithmetic; uniqueness by summation by parts. Refuted in 1D for a wrong grav_mean_rho (potential_1d_false).
* **C76 Self-gravity conserves mass and momentum** - Grav/Cons, Zone, Props: source terms and correction of a zone as differences of face quantities, which telescope over the periodic Grid for arbitrary potentials; the force formula by algebra for quadratic potentials.
* **C77 Self-gravity conserves total energy** - Grav/Props: summation by parts turns the work of gravity into the potential times the change of the density; self-adjointness of the discrete Laplacian and C75 give the potential energy. Refuted in 2D (energy_2d_false).
* **C78 A static gravitational potential conserves total energy** - Model the potential step and the flux differences of the six integrators (`Static/Pot`) and prove the balance zone by zone, then sum by telescoping.
* **C79 Gas drag on particles is damped stably and accurately** - Part/Drag: the three velocity updates; in uniform gas each is multiplication by a rational factor of dt/ts; bounds on the factor, exp series. Refuted for the explicit integrator.
* **C80 Particle orbits in the shearing box keep their invariants** - Part/Drag: algebra of the semi-implicit update with the Coriolis terms.
* **C81 Feedback of particles conserves momentum and energy** - Part/Drag: feedback_corrector; energy balance from the midpoint form of the update. Refuted for moving gas.
* **C82 Interpolation between grid and particles is exact to its order and conservative** - Part/Weight: one-dimensional weights sum to one and have the right moments; products of them in three dimensions.
* **C83 Sorting and deleting particles keeps the others intact** - Part/Sort: loop invariants of the partition loop; induction on the length; Delete_Ghost as a filter on multisets.
* **C84 No particle is lost or duplicated at boundaries, on any decomposition** - Part/Bvals, BvalsProps, BvalsEx: the passes are additive in the particles, so one particle suffices; copies left outside their Grid in a finished direction die whatever is made of them later. Run theorems by induction. Four refutations.
* **C85 Particle quantities put on the mesh do not depend on the decomposition and nothing is lost at Grid boundaries** - Model the exchange of the coupling arrays of all Grids (rows in x3, x2, x1 with messages and boundary functions; `Part/Exch`). Specification: the position of a zone in the Domain and the zone a position stands for. Prove one row exact for every weight function, compose the three passes, read off each zone (`Part/ExchProps`), ghost zones of the predictor (`Part/ExchGhost`); `Part/Bin` adds `getweight` and the binning loop and compares with the shape functions summed over the multiset of all particles. Refutations with concrete arrays.
* **C86 The shearing-sheet boundary continues the flow** - Model `RemapFlux` at both orders on rows over the integers (`Shear/Remap`), the shift by whole zones through one or several Grids with message matching and the ghost zones along x2 (`Shear/Sheet`), all variables with the velocity offset (`Shear/State`). Specification: the Grids hold a periodic row of the Domain (`Holds`). Prove that the result is the remap of the row moved by floor and fract of the sheared distance; read off independence, sums, bounds, exactness. Refutations with concrete rows in `Shear/Refute`; undefined behaviour (unset entries, negative counts, missing Grids) is a distinct outcome.
* **C87 Totals are conserved in the shearing box** - Model `RemapFlx_*` and the averaging at the edges for arbitrary fluxes (`Shear/Flux`); prove the sums along x2 of the two edges equal, and from this the totals over the Domain by telescoping sums. Refutations: scalars, non-periodic edges.
* **C88 Particle motion does not depend on the units** - Rescale environment and particle (`Part/Units`) and prove that the three integrators commute with it; refute for the xy box without FARGO.
* **C89 Orbital advection moves the gas with the background shear** - Model `Fargo` on all variables (`Shear/Fargo`), the shearing-box velocities and the number of extra ghost zones (`Shear/FargoBox`). Specification: the Grids hold periodic rows of the Domain (`HoldsQ`); a row is carried by whole zones and the remap (`carried`), the transverse field by the induced field (`induced`). Prove each result equals the specification, then sums, bounds, exactness, divergence, uniform states and that the Courant condition keeps offsets within the ghost zones; refutations in `Shear/FargoEx`.
* **C90 Rolling to the nearest periodic point** - Model `RemapVar` on a row, reusing the shift of the shearing sheet (`Shear/Roll`); prove it slides the row, for the times the gravity solvers call it; refute for boxes away from the origin.
* **C91 Cylindrical coordinates: conservation, divergence-free fields and equilibrium** - Model integrate_3d_vl.c with its CYLINDRICAL blocks (`Cyl/Vl3`) and the last steps of integrate_3d_ctu.c (`Cyl/Ctu3`). Specification: zone volume `r dx1 dx2 dx3`, face areas, `Quant`. Prove balance per zone and telescope; divergence from the edge fields; equilibrium by following every array of the step (`Cyl/Rest`). Refutations in `Cyl/Ctu3False`. `Cyl/Stress` states the radial momentum equation of a zone (pressure on the faces, hoop stress) and the half-step quantities of CTU independently of the loops.
* **C92 Work arrays of the CTU integrators are allocated before they are used** - Tabulate conditions of allocation and use of the work arrays (`Cyl/Alloc`); prove the exact set of safe configurations.
* **C93 Joining the per-process VTK files gives the file of a single-process run** - Model dump_vtk and join_vtk byte by byte after the header lines: lists of bytes, positions in the files, fscanf with white space, the loop stepping back over it, qsort as any function returning a sorted permutation. Prove the three rounds of sorting give the order of the Grids (blocks of a sorted permutation), the step back finds the start of the data whatever the data, and the interleaved reading of rows is the loop nest of one process (induction over the loops on the number of rows read from each file). Refute for origins that print alike, for DIMENSIONS of plane runs, for Grids one zone thick in x2 only. `Join/Refuse`: files whose first variables disagree are never joined.
* **C94 Eigensystems of the reconstruction are complete and consist of waves of the equations** - `Recon/Mhd.lean` models the two MHD functions statement by statement with partial division and roots; `Recon/MhdSpec.lean` states the conservation laws and what a wave is (derivatives along a line of states). The branches for `alpha` and `beta` are reduced to seven relations (`MRel`), from which the inverse and the wave equations follow entry by entry.
* **C95 Images show the data** - `Io/Image.lean` models output_pgm, output_ppm, compute_rgb, getRGB on rows of exact reals; `Io/Palette.lean` holds the seven colour tables copied from palette.h (all 768 entries, kernel-checked to lie in [0,1]). `Io/ImageProps.lean` states shades and interpolation independently (`Shade`, `Lerp`, `place`) and proves every pixel, its position in the file and the range of bytes. Refute for values far outside a given scale in gray images.
* **C96 The distribution file describes the data of the Domain** - `Io/Pdf.lean` models output_pdf without and with MPI, on lists of exact values, with the static array sizes and the (int) conversion that is undefined out of range. `Io/PdfProps.lean`: specification of mean, deviations, bins; the loops are sums (induction), each value falls in exactly one bin, a file of the right `Shape` is unique up to order of the data, hence independence of the decomposition. Refute for the mean deviation with MPI and for refined Domains.
* **C97 Cooling** - `Micro/Cool` models KoyInut, Lam, dLam, the Newton iteration with halving of the step, both passes over a Grid and the loop over Domains over the reals (not-a-number as `none`); derivative by branch off the breaks, solver by induction on halvings, resets and zones; witnesses for two Domains and for cold gas.
* **C98 A reflecting wall does what the mirrored fluid would do** - `Integr/Wall.lean`: the relation between the contents of the Domain and of the doubled Domain (equal in the upper half, the doubled one symmetric) is carried by integration from all zones to the active ones (`advance_half`) and by the boundary conditions back (`image_half`: ghost zones behind the wall are the zones behind the plane of symmetry; the normal field on the wall, set to zero, vanishes by symmetry); `runs_related` does the induction. `code_wall_is_symmetry_partial`: for the code with the HLLE solver, every equation of state and reconstruction.
* **C99 Relativistic gas: primitive variables come back unchanged** - `Rel/Quartic.lean`, `Rel/Convert.lean`, `Rel/Speed.lean`, `Rel/HydroProps.lean`: the quartic in the flow speed has exactly two real roots in the cases that occur; `speed_eq`: Cardano's formula gives the real root of the resolvent (discriminant positive, `cardano_signs`), which factors the quartic so that the formula of the code picks the root below one.

## Disagreements between the code and the properties

Found while modelling; those marked (thm) are proved about the model.

* par.c: an empty value followed by a comment is read back as the comment; a block named `par_end` ends the file; a
  line that starts with `=` is undefined behaviour; par_dist_mpi overflows its line buffer (thm: C04, C06, C53).
* par.c: par_getd_def returns its default but stores 16 digits of it; a later read (or a restarted run) gets another
  number if the default needs 17 digits, e.g. 0.1+0.2 (thm: C02).
* main.c: a restart with a smaller `tlim` overshoots it; SIGTERM is reported as time limit; a signal between reading
  and resetting the flag is lost; a restarted run repeats data_output at the same time (thm: C07, C43).
* output.c: `dump_flag` has room for 11 outputs only; a schedule lags when steps exceed the interval; in init_output the
  variable `fmt` can be used uninitialised (thm: C08).
* new_dt.c: negative field components, adiabatic MHD pressure and particle velocities are handled wrongly (thm: C23).
* init_mesh.c: a Domain away from every parent is accepted (thm: C16); line 787 stores a world rank where a communicator
  position is meant (thm: C52); mixed periodic flags in one direction give unmatched neighbours (thm: C19).
* init_grid.c: odd child Grids give messages of different length on the two sides (thm: C18).
* bvals_mhd.c: reflecting functions overwrite the wall face of the field; the outer outflow functions copy face `ie`
  rather than `ie+1`; Grids thinner than the ghost zones receive wrong zones; periodic on one side only never
  completes (thm: C20, C22).
* restart.c: `<par_end>` inside the parameter part, dimensions that differ (thm: C10); counters ib/jb/kb are not reset
  between Grids; unchecked `fread`.
* convert_var.c: `cfast` applies no pressure floor (thm: C26).
* cc_pos.c: celli/cellj/cellk round towards zero (thm: C47).
* ath_array.c: zero outer dimension and size wrap-around (thm: C49).
* ath_files.c: an empty path reads before the buffer (thm: C45). Dump functions keep a stale Domain tag and ignore the
  output id (thm: C56). `levstr`/`domstr` overflow for 10000 or more.
* dump_tab.c: the header omits columns that the rows have when a direction has two (x3: up to three) zones, and index
  columns run together when indices have more digits than the zone count (thm: C57). dump_history.c: averages are multiplied
  by the extents of directions with one zone; process 0 also writes a (partial) line for refined Domains in which it is not
  first; with special relativity and MHD more than 26 user columns overflow `scal` (thm: C58).
* utils.c: singular matrices without a zero row are not reported (thm: C39); bisection success does not imply a small
  value (thm: C40); byte swap of other lengths (thm: C38); compute_l1_error multiplies the volume by `dx` of collapsed
  directions.
* force.c:273 uses the left magnetic pressure for the central state (thm: C35). HLLC's contact wave leaves the fan for
  gamma near 1 (thm: C34). roe.c: the averages do not linearise the MHD flux when density and transverse field both jump,
  so a tangential discontinuity at rest is not kept (thm: C65); one-sided fans can carry scalars against the mass flux
  (thm: C34). hlld.c: its degenerate branches take the left state at a contact at rest, and the isothermal density floor
  gives a mass flux between two mirror-symmetric streams (thm: C35); its Alfven wave can overtake the outer wave (thm: C34).
  exact.c: absolute tolerances make the isothermal solver stop at the middle of its bracket at low densities and the adiabatic one
  abort on strong rarefactions (thm: C66). Roe and HLLE leave or misuse `Pflux` in cylindrical coordinates.
* reconstruction: the relativistic four-velocity loops never run (`n==3`) (thm: C61); double subtraction for waves at
  rest, stale index in the third order scalar loop, LimO3 unlimited at small variations (thm: C62).
* smr.c: an overlap one coarse zone wide misaligns the restriction message with magnetic fields (thm: C28); 3D
  prolongation can give negative density and does not conserve energy (thm: C30); 0.0 is used as "not set" (thm: C31);
  the address in Prolongate is wrong with two parents on one processor (thm: C48, unreachable by nesting); the ghost
  buffers need nghost of at least 4; next to touching Grids the cell-centred field is not refreshed.
* microphysics: the conduction time step ignores the density, so that a strong density contrast makes the temperature negative;
  two-dimensional anisotropic conduction leaves B3 out of the field strength (thm: C70).  VISCOSITY with MHD does not compile
  (`Vel.x` where the type has `x1`).  The diffusivities are not restored at restart, so the first cycle after it has no resistivity
  (thm: C74); in later sub-steps of super time stepping they are stale, and the Hall diffusivity is divided by the field strength
  again in each; `#ifdef RESISTIVTY` in the destructor leaks the arrays.
* gravity: in two dimensions selfg_fc subtracts `Phi` where `Phi_old` is meant (selfg.c:174), so energy is not conserved (thm: C77); in one
  dimension a `grav_mean_rho` other than the mean density gives a wrong potential silently (thm: C75).
* particles: the explicit integrator amplifies drag beyond two stopping times (thm: C79); the energy given to moving gas lacks the work of the
  drag (thm: C81); weights are misaligned when the stencil is cut at the lower edge (thm: C82); reflect_ix3_particle lacks a factor 2, the
  limit x3lpar for outflow has the wrong sign, a particle landing exactly on an outer wall is lost, negative identifiers change when a
  particle crosses (thm: C84); `NBUF` is 0 for particle arrays of up to 6 entries, so that the first packed particle overruns the buffer.
* integrators: with H_CORRECTION the 2D/3D van Leer integrators read face states that were not set;
  1D and 3D CTU in cylindrical coordinates dereference `dhalf` without gravity and cooling, and 1D CTU dereferences `phalf` with particles in
  an adiabatic gas (inverted `#ifdef`s; thm: C92). 3D CTU in cylindrical coordinates: step 8b divides by `r/dx2` for `r*dx2`, the energy source of
  a potential is the mean gravity times the mean flux and does not conserve energy, the Coriolis force is added to the plane `ks` only and the
  half-step radial momentum uses the density of that plane (thm: C91). The van Leer integrators and 1D CTU ignore ROTATING_FRAME; integrate_init returns NULL when all dimensions are 1.
- **C67** `outflow_ox1` (and ox2, ox3) continues the interface field normal to the boundary from the last interface before the boundary, `B1i[ie]`, `outflow_ix1` from the interface on the boundary, `B1i[is]`; outflow boundaries are not mirror symmetric (`outflow_mirror_false`).
- Operator-split cooling (C97): integrate_cooling takes the time step of each Grid from the Mesh and lowers that of the Mesh afterwards, but Grids of Domains already cooled keep the
  longer step, with which the integrator then advances them (`cooling_dt_false`). Under MPI the second pass may lower the step of one process only, after the only reduction. KoyInut takes
  gas below 10 K as having 10 K and can remove more energy than there is (`koyInut_positive_false`).
- **C93**: join_vtk tells Grids apart by their origin as printed with `%e`, seven digits: Grids whose edges print alike (1000000 and 1000000.25) are joined in whatever order they were named (`join_order_false`); the joined file of a plane or linear run says two zones in x3 (`DIMENSIONS … 2`) with data for one (`join_dims_false`); files of Grids with one zone in x2 and more in x3 are refused (`join_thin_false`); a single file is refused (`join_one_false`).
- C85: `feedback_predictor` limits the force of each zone by the stiffness the Grid itself has binned there, before
  `exchange_gpcouple` adds what other Grids binned (integrators_particle.c:554-567): next to Grid boundaries the
  force depends on the decomposition (`pred_split_false`). `reflect_ix1_exchange` mirrors at `js` instead of `is`
  (exchange.c:1878): in one-dimensional runs it reads outside the array (`reflect_1d_false`). Also seen there, not
  modelled: without FARGO the binning exchange in the shearing box adds `qshear*Omega_0*Lx` to the binned momentum
  without multiplying by the density (exchange.c:475-482, 496-503, 515-531).
- C86: bvals_shear.c: the third-order `RemapFlux` calls itself extremum preserving, but the limiter after the block for extrema makes
  it inert (`edges_eq`, `parabola_false`), and it can make densities negative (`positive_false`); variables are limited one by
  one, so pressure and divergence are not kept (`thermal_false`, `divergence_false`); `qshear*Omega_0 < 0` reads unset data
  (`backward_false`); with Nx[1] = nghost B2c is stale in one ghost zone (`centred_false`) and Step 9 overruns the MPI buffers with MHD
  (`step9_false`).  C87: fluxes of scalars and energy are not remapped (`concentration_false`); fluxes are averaged whatever
  the boundary condition (`outflow_false`).  Seen, not modelled: two-dimensional xy boxes do not remap fluxes at all; the buffers are
  sized for the last Grid looked at, not the largest; FARGO's extra ghost zones are estimated with qshear*Omega_0 = 1.5.
- C89: the extra ghost zones of orbital advection are counted for a sound speed of at least 1; slower gas allows longer time
  steps and the run stops (`fargo_runs_false`). Grids with fewer zones along x2 than extra ghost zones use memory nobody
  set (`small_false`). In 2D the cell-centred B3 is not advected (`flat_b3_false`). At third order densities can become
  negative (`fargo_positive_false`).
- C90: `RemapVar` wraps its index once, and offsets count from x1 = 0: in boxes further from the origin than their length it
  reads outside the row (`roll_far_false`).
- C88: the predicted position of particles in the xy shearing box without FARGO has the term `qshear*v1*dt^2`
  (integrators_particle.c:204, 323, 420), which lacks `Omega_0` and which that box does not need (`units_false`).
- C59: in 3D, zones at the boundary of a Grid keep their second-order boundary fluxes: they can stay or become negative although the
  first-order step is positive everywhere, and the loop does not come back to zones it has passed (`fofc_positive_false`); the result
  depends on the decomposition (`fofc_split_false`).  In 2D the boundary fluxes are replaced, but on one side only: mass appears
  (`fofc2_conserves_false`) and the two copies of a face part (`fofc2_faces_false`).  Seen, not modelled: the check for NaN before Step 14
  in 3D reads predictor fluxes one row outside what Step 5d saved.
* output_pdf.c: with MPI the mean absolute deviation is summed over the root's zones only but divided by all; mean and moments are
  not reset between Domains; a Domain with more zones than the first written overruns `data` (thm: C96).  Processes other than a root return
  from the loop over Domains at the first Domain.
* output_pgm.c:105 converts to int before clamping, undefined for values further than 2^31 shades from a given scale (thm: C95).
* **C103** convert_var.c:1274-1303: `calc_ent_dfunc` multiplies by `pow(rho,(Gamma+1))` where the derivative of `pgas*pow(rho,-Gamma)` has
  `pow(rho,-(Gamma+1))`, and leaves out the factor `d` of that term (`sr_mhd_entropy_derivative_false`).
* **C99** a moving state with momentum below TINY_NUMBER comes back at rest (`sr_hydro_slow_false`).  In the branch `iT < 0` (three real
  roots of the resolvent) the modulus is computed as `sqrt(iR^2 + iT)` instead of `sqrt(iR^2 - iT)`; the branch is not reached by
  admissible states in exact arithmetic (`cardano_signs`).
* **C101** densities below 1e-4 and pressures below 1e-5 are raised to these numbers, whatever the units (`sr_mhd_floor_false`).  The
  rescaling of superluminal velocities divides by V^2 rather than |V| (Cons1D_to_Prim1D, convert_var.c:775-790).
* **C107** integrate_1d_vl_sr.c:616-697: FixCell does not record that a face already has its
  first-order flux; two adjacent bad zones get the correction of the shared face twice and can
  end with negative density (`sr_fix_adjacent_false`).
* **C107** integrate_3d_vl_sr.c:2216-2248: x3FD_kp1 is computed from x2Flux; :2287-2292 and
  :2341-2357 add the momenta of the 3-fluxes in the order (Mz,Mx,My) instead of (My,Mz,Mx)
  (`sr_fix3_uniform_false`, `sr_fix3_component_false`).
* **C108** hlle_sr.c:448, hllc_sr.c:847, hlld_sr.c:961: `if (Bx < 1.0e-14)` lacks fabs, so every
  state with negative normal field gets the speeds of a state without normal field: waves outrun
  them, and reversing the field changes the result (`sr_mhd_speeds_negative_false`,
  `sr_mhd_speeds_reverse_false`).
* hlle_sr.c:568: `if (vasq > 0.0) vasq = 0.0` (no effect, asq is computed before). hlle_sr.c uses
  W.By outside `#ifdef MHD` and so does not compile for hydrodynamics.
* **C112** fft_3d.c:414-436: when two of the lengths agree the FFTW plan is shared, although the
  number of lines (`total/length`) can differ: with 9 x 16 x 9 zones on two processes eight lines
  of process 0 stay untransformed and process 1 transforms eight too many (`fft3d_false`).
  The comment at fft_3d.c:57 (1 = forward) contradicts the code (-1 = forward), which ath_fft.c follows.
* **C135** fft_2d.c:330-333: the same sharing in two dimensions: with 5 x 5 zones on two processes divided along x1 (the extra zone on
  the first, as init_mesh.c puts it) process 1 transforms two of its three lines along x1 (`fft2d_false`); every square Domain divided along x1
  only, whose Grids differ from the shares `me*n/nprocs`, is affected.
* **C113** selfg_multigrid.c:308, 319-321: the recursion ends only if a number of zones is exactly 4, but odd numbers are halved with
  rounding, so that 6, 12, 24, 48, ... or 20, 40, 80, ... zones end in 0 and an endless recursion (thm: C113).
* **C114** selfg_multigrid.c:475-484: the coarse right-hand side is the residual, but the coarse potential starts from the average of
  the fine potential instead of zero and is then added to the fine one, so that the exact potential is changed by every call (thm: C114).
* **C116** smr.c:1461, 1694-1721, defs.h.in:125-131: prolongation sets ghost zones in pairs; with `nghost` = 5 (particles and third order) the last
  pair includes the first active zone of the child, which is overwritten (thm: C116).
* **C118** smr.c:2354-2440: a child's field of exactly 0 on the first face of a block is taken for "not known", so that the ghost zone at the
  boundary between the levels gets a divergence the parent does not have (thm: C118).
* open-boundary gravity: the solver is the periodic one in a Domain of twice the size (selfg_fft_obc.c:225-323), so that one eighth of the mean density is
  subtracted from the source everywhere and the periodic images act on the gas (thm: C121).
* disk gravity: in the lowest and highest plane the ghost zones are extrapolated linearly (bvals_grav.c:642, 686), which drops the density of that plane from
  Poisson's equation; in one and two dimensions bvals_grav_init does not know the disk solver at all (bvals_grav.c:456, 500, 549, 593), so the open direction
  gets the periodic or reflecting ghost zones of the gas, over those the 1D solver has set, and outflow is an error (thm: C119).  The factors
  `exp(-k Lperp)` (selfg_fft_disk.c:146-156, 298-311) decay as in the continuous equation and not as in the difference equation, so the gravity of a
  structured disk depends on the number of empty planes (thm: C120).
* multigrid gravity: the monopole of the boundary values sits at the origin of the coordinates and not at the centre of mass (selfg_multigrid.c:153-229, thm: C123).
* C124: new_dt.c:120-190 limits the time step by `|V_t| + c` of the zones, but the sound speed at the Roe average, which hlle.c takes as signal speed, also contains the jump of the transverse velocities. Between layers of density 1 and 1/4 that move along each other at 72 times the speed of sound the density becomes negative in the van Leer predictor and in a first-order CTU step, with a Courant number of 0.4 (`vl1_predictor_positive_false`, `ctu1_positive_false`).
* C126: the last step of the 2D and 3D integrators calls `ShearingBoxPot` without the test for `NULL` that the predictor has (integrate_3d_vl.c:1396, 712; globals.h:32), so a shearing box whose problem sets none crashes (`null_potential_false`). The momenta get the tide only, hard-coded; other parts of `ShearingBoxPot` change the energy and the predictor but not the momenta, so the vertical gravity that prob/par_strat3d.c:485-510 and par_strat2d.c:480 put there does not hold the disk together (`potential_no_force`, `stratified_false`).
* C127: field_loop.c with a loop along x1 or x2 on a two-dimensional Grid takes the difference of the potential in x3 for one component only, so the field has a divergence if the zone is not centred on the axis of the loop (`field_loop_plane_false`); linear_wave.c and cpaw.c with a given `ang_2` on a two-dimensional Grid give a divergence (`linear_wave_plane_false`); current_sheet.c:69-75 writes `B2i[k][je+1]` in one dimension, where the arrays have one row (`current_sheet_bounds_false`).
* C128: rotor.c:79-80 tapers up to `r1` of the input file with the radii 0.1 and 0.115 in the formula; `r1` above 0.117 gives negative densities (`rotor_density_false`).
* C131: new_dt.c:98-103 takes `B1c + fabs(B1i - B1c)` as the field: for a negative `B1c` the difference weakens the field, so reversing the field changes the time step (`dt_reverse_false`).
* C130: lr_states_prim3c.c switches its limiter on `eta`, which contains the zone size in code units, so the interface states depend on the unit of length (`compact_units_false`). The floor of the pressure in convert_var.c is the constant `TINY_NUMBER` in code units (`floor_units_false`).

* C132: src/prob/par_strat2d.c:106, par_strat3d.c:107, streaming2d_multi.c:101, streaming3d_multi.c:102 seed the generator with the rank of
  the process. `ran2()` initialises only for seeds of at most 0, so all processes but the first skip the initialisation and draw the same first
  eight numbers (`rank_same`). src/prob/hgb.c:134-138 and three others compute the seed with `int`: in a Domain of 2048 zones in each
  direction it overflows (`grid_seed_false`).

* C71: src/microphysics/resistivity.c:1127-1268 takes the field and the other components of the current at an edge as averages over
  neighbours. The emf of ambipolar diffusion then need not oppose the current: on a field that repeats after two zones the energy of the field
  grows in two and three dimensions, within the time step limit (`ambi_decays_false`).

* C133: src/particles/dump_particle_history.c:189 computes the number of zones of the Domain as a product of `int`; it overflows for Domains
  of 2048 zones in each direction (`hist_large_false`). The comment at :15-16 names variables 2 and 3 in the other order than the code and the
  column headers.
* sort_lis: for a list of no particles `calloc_2d_array(0,7,…)` writes `array[0]` of an array without elements (sort_lis.c:254-259): `sort_empty_false`.
* join_bin: copies NVAR variables only, so the potential (and binned particles) of the dumps is lost though the header says that it follows (join_bin.c:465): `joinbin_gravity_false`.
* join_bin: `chek_domain_3d` starts from `warn_flag = 0` and only applies `&&` (join_bin.c:269-287), so it never refuses files that do not belong together: `joinbin_check_false`.
- **C140, shkset2d.c:316-326**: the last case is meant for an interface that leaves a zone by its right faces, but also takes the zones where it passes a corner and the smaller side is left (`dlr == 0 && drl > 0`, `dlr > 0 && drl == 0`). These get half of each state; the exact left part is `min(r1,r2)/(2 max(r1,r2))`. There are such zones wherever `r1 != r2`, one in every unit cell along the interface (`corner_false`).
- **C140, shkset2d.c:231-234**: `ix1 = i + Disp[0]` counts from the first ghost zone and not from the first zone, so that the interface lies `nghost-1` zones below and left of the diagonal of the Domain, where the analytic solution of the error test assumes it (`position_false`). On refined Domains it counts zones of that level while `gcd*r1*r2` counts those of the root level (`refined_false`).
- **C140, shkset2d.c:788-866**: the boundary functions in x1 run before those in x2, and for the rows next to the lower left and the upper right corner read ghost rows that still hold the state before (`stale_false`).
- **C140, shkset2d.c:193**: the test that both states have one `Bx` calls `ath_error(0, ...)`, with a null format: undefined behaviour in place of a message.
- **C141, problem_read_restart**: dmr.c:109, noh.c:102, shk_cloud.c:244, shkset2d.c:538, cylwind.c:156 enroll boundary functions in `problem` only, so that a restarted run takes the conditions from the input flags or stops (`dmr_restart_false`, `noh_restart_false`, `shk_cloud_restart_false`, `shkset2d_restart_false`, `cylwind_restart_false`); cylwind.c and pgflow.c:212 lose the gravitational potential (`pgflow_restart_false`).
- **C141**: jeans.c:200 and linear_wave.c:540 do not set `four_pi_G` and `grav_mean_rho` again; with self-gravity a restarted run stops in `selfg_init` (`jeans_restart_false`, `linear_wave_restart_false`). collapse3d.c never sets `grav_mean_rho`: with self-gravity every run stops (`collapse3d_gravity_false`).
- **C141**: blast.c:118 and field_loop.c:343 lose the coefficients of diffusion (`blast_restart_false`, `field_loop_restart_false`); hb3.c, kh.c and hgb.c lose columns of the history file (`history_restart_false`).
- **C141, rt.c:300-327**: on restart the reflecting walls are enrolled for every Domain, also for refined Domains inside the root Domain, where `problem` tests the position (`rt_restart_false`).
- C142 / C141: `problem_read_restart` of prob/jet.c reads the state and the radius of the jet again but not `x2_mid` and `x3_mid` (:27, 85-87), which stay zero: after a restart the nozzle is at x2 = x3 = 0, wherever the root Domain is (`jet_restart_false`, `restart_false`). `jet_iib` (:204-206) does not set the fields of the last x2- and x3-faces of the ghost zones, as the standard functions do (`last_face_false`).
- C143: prob/dmr.c needs gamma = 1.4 and does not check it (`gamma_false`); `dmrbv_ojb` (:216) puts the shock at height 1 in all ghost zones above the edge, whatever their own height and that of the Domain (`top_false`).
- C144: in prob/noh.c the pressure of the ghost zones is 1e-6 times the density to the power 1 + gamma in three dimensions and constant in two, instead of the power gamma (`pressure_false`).
- C145: `shk_cloud_iib` (prob/shk_cloud.c:296-298) sets the zones 1 to `nghost` instead of 0 to `nghost` - 1: the outermost ghost zone is never set and the first active zone is overwritten before every step (`boundary_false`). With MHD `bxr`, `byr`, `bzr` are never set and `beta` is not used (`field_false`).
- C146: the checkerboard of prob/carbuncle.c:124 goes by the index in the Grid, so that it depends on the decomposition when Grids have an odd number of zones (`decomposition_false`); with one zone in x2 the loop of :93 leaves the array (`one_d_false`).
- C147: prob/shkset1d.c:100 calls `ath_error` with a null format instead of the message (`message_false`); :269 does not test the level, so that refined Domains overwrite the reference solution of the root Domain (`refined_false`); after a restart the array is null and is read (`restart_false`). With MPI and scalars :625 does not compile (`tot_err.s`).
- C148: prob/lw_implode.c:68 adds the displacement of the Domain where that of the Grid is meant, so that the initial state depends on the decomposition (`decomposition_false`); `diff_d` (:127) transposes within the Grid (`diff_grid_false`, `diff_shape_false`); the interface of a refined Domain is elsewhere (`refined_false`).
- C149: prob/pgflow.c:98 and 103 set the wavelength of the potential from the size of the Grid, not of the Domain, so that the potential and the initial state depend on the decomposition (`potential_false`).
- C150: prob/rotor.c:80 tapers to the constants 0.115 and 0.015, and :73-74 turn with `v0`/0.1, instead of the radii of the input: another outer radius gives zones of negative density (`taper_false`), another radius of the rotor another velocity at the rim (`rim_false`).
- C151: prob/current_sheet.c:69 stores `B2i[k][j+1][i]` also when the Grid has one zone in x2, where the array has one row (`one_dim_false`); :70 makes the test for x3.
- C152: `problem_read_restart` of prob/cylrayleigh.c (:158) enrols the potential only; the boundary functions are commented out (`restart_false`) and with orbital advection `OrbitalProfile` and `ShearProfile` stay null (`restart_fargo_false`).

## Not modelled

Floating-point rounding; decimal formatting of `double`; performance; the memory allocator; terminal and file-system
behaviour beyond "can be opened"; the MPI runtime beyond message matching; the other problem generators in src/prob, and in those that are modelled their history outputs, work in the loop and error norms; self-gravity by multigrid on several Grids, the disk solver in a shearing box, FFTW itself, the two-dimensional routines of fftsrc; particles in the shearing box beyond their forces (remap, FARGO advection), the forces of the predictor step of the feedback (only their limiting and exchange); Hall diffusion, cooling with sub-cycles, anisotropic viscosity;
the 2D xz ghost zones of the shearing box, its source terms in the predictor of the CTU integrators; cylindrical coordinates except the vector-potential divergence, the 3D van Leer step and the last steps of 3D CTU; the rest of the special-relativistic integrators, hllc_sr/hlld_sr for MHD, entropy_fix1D, vsq1D_fix; H-correction;
the bounds of the arrays in Prolongate and children with several parent Grids there.
