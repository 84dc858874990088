# Formal model of PICSAR (thaisacs/PICSAR) in Lean 4 — design

## 1. What is here

* `properties.jsonl` — the semantic properties (C01 …), in terms of the API.
* `lean/Verif/Base.lean` — the outcome type: every undefined behaviour, exception or
  out-of-range access of the C++/Fortran code is a *distinct* outcome (`Fault`), never a default value.
* `lean/Verif/Model/*.lean` — the model, function by function; every definition cites file and lines.
* `lean/Verif/Spec/*.lean` — small specifications that do not mention the model's helpers.
* `lean/Verif/Lemmas/*.lean` — helper lemmas.
* `lean/Verif/Props/*.lean` — the property theorems only, each followed by a non-vacuity `example`.
* `MANIFEST.json` — property → theorem names and status.
* `seeded/LOG.jsonl` — record of the mutation runs (wrong programs against the theorems).

## 2. Trusted base

* Lean 4.33.0 kernel. Axioms: at most `propext`, `Classical.choice`, `Quot.sound` (checked with
  `#print axioms`). No `sorry`, no own axioms, no `native_decide`/`bv_decide`.
* The reading of the sources in `/repo` into the model (nothing is executed or extracted).
* Numbers: `double`/`REAL(num)` arithmetic is modelled over `ℝ` (rounding, overflow to infinity and
  NaN are not modelled, except where a property is about them: then an explicit outcome
  is used, e.g. `Fault.divByZero`). `size_t`, `int`, `INTEGER(idp)` are unbounded `Nat`/`Int` except where a
  property is about wrap-around (`generate_log_lin_log_spaced_vec`, table headers), where `size_t` is `mod 2^64`.
* MPI: messages between a pair of ranks with the same tag are matched in FIFO order (the MPI
  non-overtaking rule); `SENDRECV` is matched one-to-one. Message loss/latency is not modelled.
* OpenMP: a parallel loop is any interleaving of the atomic actions of its iterations.

## 3. What is modelled, and what is not

Every definition cites its file and lines; simplifications are named there. Overview:

| part of the code | model | left out |
|---|---|---|
| QED/src/utilities.hpp, lookup_tables.hpp, picsar_vector.hpp | Utilities, LookupTables, TableIO, PicsarVector | general (non-equispaced) 2-D lookup beyond what the engines call |
| breit_wheeler_engine.hpp, quantum_sync_engine.hpp, schwinger_pair_engine.hpp, chi_functions.hpp | BreitWheeler, QuantumSync, Schwinger, Vec3, Chi, OmpTables, Innards | boost quadrature, Bessel functions and root finder: function parameters; OpenMP/CUDA decorations other than the table-filling loops; random engine (a stream of draws) |
| test_program/src/species.cpp, lepton.cpp, photon.cpp | Species | file output |
| particle_pushers/{boris,vay}_pusher, particle_pusher_manager_3d | Pushers | SIMD copies; per-tile OpenMP distribution (each tile is handled by the same code) |
| field_solvers/Maxwell/yee_solver, karkainnen_solver | Grid, Maxwell, Norder2d | multimode r-z: see Multimode |
| current and charge deposition, 3-D, scalar orders 1-3; default vectorised charge deposition | Deposition, PicLoop, ChargeVec | vectorised copies of the current deposition |
| current (Esirkepov) and charge deposition in x-z and r-z, orders 0-3 | Deposition2d | l4symtry, type_rz_depose (constants at every call) |
| division by the cell volumes in r-z (apply_rz_volume_scaling_rho, _j; not called inside the repository) | RzVolume | nothing |
| field_gathering, 3-D and 2-D | Gather, GatherUnrolled | SIMD reduction order, developer algorithms 3-7, r-z |
| boundary_conditions/field_boundaries.F90 | FieldExchange, Datatypes, Mpi, Window, PersistSum, Exchange2d | the three components of the persistent summation are treated one at a time |
| boundary_conditions/particle_boundaries.F90 | ParticleBcs, PartExchange, Tiling, TileOmp, TileOmp2, SendCount, MpiLists | the 2-D copy of the MPI exchange is in Tile2d, the combined version in Combined below |
| parallelization/mpi/mpi_routines.F90 | Topology | FFT groups are in FftGroups below |
| parallelization/tiling/tiling.F90 | Tiling, Loading, Antenna | python interface wrappers |
| particle_pushers/laser_pusher_manager_3d.F90 | Antenna | timers |
| housekeeping/sorting.F90, load_balancing.F90 | Sorting, LoadBalance, Remap, Remap2d | load profiles are in ProjLoad |
| submain.F90 (init_pml_arrays), maxwell_solver_manager.F90, kin_energy.F90, diags.F90 | Pml, Energy, DivDiag | Lorentz-boosted frame: Lorentz below; python getters: PlaneDiag below |
| ios/simple_io.F90 (output_routines, write_3d_field_array_to_file, write_single_array_to_file, write_particles_to_file and what it calls, output_temporal_diagnostics), diags.F90 (init_temp_diags), mpi_derived_types.F90 | FieldFile, PartDump, TempDiag | MPI library: subarray types and file views as byte offsets; text or binary form of records |
| local energies of the temporal diagnostics (diags.F90: get_loc_kinetic_energy, get_loc_field_energy_2d) | TempEnergy | order of the OpenMP reduction (exact sums) |
| split for one distributed Fourier transform (mpi_routines.F90: adjust_grid_mpi_global) | FftwSplit | the sizes of the Fourier arrays (local_nx and so on); the library itself (its slabs are a hypothesis) |
| tiling.F90: are_tiles_reallocated, point_to_tile | Realloc | one tile at a time; one block stands for all arrays of the tile, which are always reallocated together |
| tiling.F90: py_add_particles_to_species | PyAdd | the number of attributes given is `npid` |
| tiling.F90: get_local_tile_mem (particles) | TileMem | exact sums; the grid tiles and get_global_tile_mem are left out |
| GPSTD_solver/init_kspace_3D.F90 (logfactorial, FD_weights_hvincenti), submain.F90 (FD_weights) | Stencil | logarithm and exponential exact |
| GPSTD_solver/init_kspace_3D.F90 (sinc, compute_k_1d, fftfreq, init_kspace, init_gpstd, compute_cc_mat_merged_fields), fourier_psaotd.F90 (push_psaotd_ebfielfs_2d/3d and the transforms around them), maxwell_solver_manager.F90 (push_psatd_ebfield) | Psatd | one process per transform, merged fields (no absorbing layer), `g_spectral = .FALSE.`; the transforms of FFTW are the sums of its documentation; copying between field arrays and arrays of the transform left out |
| GPSTD_solver/GPSTD.F90 (multiply_mat_vector, multiply_unit_blocks), init_kspace_3D.F90 (allocation in init_gpstd, compute_cc_mat_splitted_fields), maxwell_solver_manager.F90 (merge_fields) | PsatdMat | sizes of blocks explicit, wrong sizes are faults; threads write to different elements and are left out; damping of the layers left out |
| GPSTD_solver/init_kspace_3D.F90 (copy_field_forward, copy_field_backward), mpi_routines.F90 (bounds in allocate_grid_quantities) | PsatdCopy | one loop per component; reflecting cells behind absorbing layers left out |
| breit_wheeler_engine.hpp, quantum_sync_engine.hpp (rate functions, integrands, cumulative distributions), special_functions.hpp (k_v), quadrature.hpp | Rates | quadratures and Bessel functions exact; root finder: any that finds a root when there is one |
| direct_current_deposition_3d.F90 (scalar routines, vnr routines, current_reduction), current_deposition_manager_3d.F90 (currdepo=3, one tile) | DirectJ | the three components written once; the vecHVv2/vecHVv3 routines of the library interface are not modelled |
| filtering/nci_godfrey_corr.F90 | Godfrey, GodfreyTable | nothing; single precision literals taken as the decimal numbers |
| particle_pusher_manager_3d.F90 (whole step over tiles and threads), field_gathering_manager_3d.F90 (field_gathering_sub) | PushManager, PushKernels (generated by tools/pusher_gen.py) | timers; iterations of a parallel region are taken one at a time in any order (each writes only its tile and its thread) |
| test_program/src/main.cpp (test_BW), species.cpp (print_on_disk) | TestProgram | screen output, number formatting; an invalid floating point operation stops the program (feenableexcept) |
| load_balancing.F90 (groups: intersections, lists of communications), mpi_routines.F90 (setup_groups, z), field_boundaries.F90 (l2g, g2l exchanges), fourier_psaotd.F90 (copies on the process) | FftGroups | 2-D override of the y sizes, layout of p3dfft, current arrays with guard cells of their own, reflective zeroing, the transforms themselves; FFTW slabs as documented |
| particle_boundaries.F90 (particle_bcs_tiles_and_mpi_3d) | Combined | several threads; the branch with communications in OpenMP tasks; counts of 2^31 and more |
| field_gathering_on_circ.F90, field_gathering_manager_circ.F90 | CircGather | `cmplx` without kind (single precision in the program) is exact |
| esirkepov_circ.F90 | CircDeposit (lemmas also in CircVolume) | modified shapes of Davoine (`type_rz_depose == 2`); one weight for all particles; `cmplx` without kind is exact |
| init_external.F90 | External | the communicator set-up and plans of the pseudo-spectral branch; pointers to Fourier arrays are taken to be null before the first call (the code does not initialise them) |
| yee.F90, pushers on azimuthal modes | Multimode | the OpenMP build, where the loop index over the modes is private and not assigned (remark below) |
| diags.F90, Lorentz transformations of snapshots | Lorentz | array bounds (the loops run over the declared extents); the message before STOP |
| breit_wheeler_engine.hpp, lookup_tables.hpp, picsar_array.hpp: life of engines in memory | EngineHeap | members that own no memory; malformed files (C12, C13); order of evaluation of arguments is left to right; the synchrotron engine (same members, no assignment) |
| load_balancing.F90: create_new_tile_split; tiling.F90: set_tile_split_for_species, init_tile_arrays_for_species | Retile | memory of the old tiles (not freed by the code); part_y of 2-D runs, taken as defined; contents of undefined variables are arbitrary parameters |
| load_balancing.F90: projected loads, times per particle and cell, compute_new_split | ProjLoad | measurement of the times; the argument nx_glob is nx_global; rounding, except for the bits of the particle count |
| load_balancing.F90: remap_particles, remap_particles_2D | RemapPart | messages without particles are empty messages; the size of the receive buffer when no process sends; the routines have no callers in the repository, so that agreement on the new split is a hypothesis (`Agree`); more than 1000 neighbours are a fault |
| tiling.F90: add_particle_to_species_2d, add_particle_at_tile_2d, rm_particles_from_species_2d, rm_particle_at_tile_2d; particle_boundaries.F90: packing, messages and unpacking of particle_bcs_mpi_non_blocking_2d | Tile2d | one direction of the exchange; the loops over tiles are `ParticleBcs.scan .nonBlocking2d`; MPI transports an undefined element as undefined |
| diags.F90: get_local_number_of_particles_from_species, getquantity, getquantity_pid, load_test_plane, select_quantity, interpolate_quantity | PlaneDiag | the sum over processes; threads (iterations use different elements) |
| initialization/control_file.F90 (read_input_file, section readers, read_from_cl) | Input | list-directed `READ(..., *)` (a parameter), error exits of bad values (runtime error of `READ` as an outcome), print-outs |

Not modelled at all: time statistics and screen output of the Fortran code, Python bindings, floating-point rounding.

How faults are treated: reads and writes are checked against the declared bounds, uninitialised data, null and freed memory, bad
conversions, division by zero and exceptions are outcomes of type `Fault`; a theorem `f x = .ok y` therefore includes that none of
them occurs. Parallel loops and MPI programs are relations or step functions over arbitrary schedules.

## 4. Plan per property

| id | model | proof |
|---|---|---|
| C01 | `picsar_upper_bound` as count/step recursion on an indexed read that faults out of range | induction on count, loop invariant "everything left of `first` ≤ val, everything right of the window > val" |
| C02–C03 | element recurrences of the two generators over ℝ | induction on index; closed forms `i*step+min`, `min*ratio^i` |
| C04 | three segments with `size_t` wrap and 0/0 as a fault | closed forms for sizes divisible by 3; refutation witnesses otherwise |
| C05 | loop with the early-exit test, as a fuel-free partial-sum recursion | partial sums of the exponential series; termination from convergence |
| C06–C11 | tables as coordinate/data lists with faulting reads | floor arithmetic over ℝ; convex-combination lemmas; refutation for `where = back` (C07) |
| C12–C13 | byte streams: 8-byte little-endian sizes and opaque fixed-width elements | round-trip by induction over lists; truncation counterexample for every crash point |
| C14–C19 | heap of blocks + vector objects, operations as a state machine | invariant over every history; refutations for self-assignment, leak, non-const `back`, moved-from resize |
| C20–C23 | evolve function of both engines | real arithmetic; induction over sub-step lists |
| C24–C28 | generation functions with faulting table access | algebra over ℝ; search invariant; refutation for saturated chi (C28) |
| C29–C31 | rate and chi formulas | inequalities between invariants; vector algebra |
| C32 | row loop as interleaved row writes | commutation of writes to distinct rows |
| C33 | engine state with owning / aliasing tables | state equality; refutation for uninitialised tables |
| C34–C37 | species as parallel arrays + maps | invariant over histories; permutation argument; refutations |
| C38–C43 | pushers over ℝ³ | algebra; `_partial`/refutation for the division by zero (C43) |
| C44–C47 | fields as functions on ℤ³, updates as in the loops | finite-difference algebra, induction on steps; telescoping sums for Esirkepov |
| C48, C74 | shape factors and deposition loops | finite sums, permutation invariance |
| C49–C51 | ring of ranks with local arrays, exchange phases | index arithmetic on the ring; refutation for the cached datatypes |
| C52–C54 | decomposition and topology arithmetic | `Nat`/`Int` division and modulus |
| C55–C57 | per-particle boundary step; message matching per direction | case analysis; FIFO matching argument; refutations |
| C58–C62 | tile split, tile arrays with capacity, removal/addition loops | induction; permutation of records; refutation for group add |
| C63–C64 | colour classes and interleavings of read/write actions | disjointness of footprints; lost-update witness |
| C65 | counting sort with faulting array writes | permutation, sortedness and stability by induction |
| C66–C69 | greedy split, searches, interval intersections, index conversion | induction, interval arithmetic; refutations |
| C70 | helper as written | refutation, partial |
| C71–C73 | shifts, damping factors, energy sums | algebra |
| C74, C91 | gathering: loop algorithms parametrised by order, unrolled routines transcribed statement by statement (tools/gather_gen.py) as terms of a small expression language | symbolic evaluation of the unrolled routines to the spline sum; partition of unity; refutation for the 2-D full-order routines |
| C75, C76 | photon emission and unit scaling | algebra over ℝ |
| C77–C79 | test-bed pushers | vector algebra, per-particle independence by induction |
| C80, C81 | split pushers, radiation reaction | algebra; refutation for Boris |
| C82, C83 | div-E cleaning terms; 2-D arbitrary order | curl-gradient identity; refutations for private index and small guards |
| C84 | deposition loops of C46 | closed form of the running sums by telescoping; moments of the splines (sum 1, mean at the particle) for the total |
| C85, C92 | tile loops, private tile arrays, additions to the grid as element-wise read and write actions in four parallel loops separated by barriers (Model/TileReduce) | closed form of every tile (C84, C46) shifted to the grid; commuting additions; footprints of a row of tiles disjoint per loop; lost-update execution; out-of-bounds outcome with default guard cells |
| C86 | start-up check against the split of C54 | integer arithmetic; refutation |
| C87–C90, C93, C94 | input file and command line: lines and arguments as character lists, the chains of INDEX tests as ordered tables, one loop over the lines that remembers the active section reader, `(i10)` reading modelled, list-directed reading a parameter (Model/Input); documented keywords in a separate table (Spec/Input) | substring lemmas for a keyword among blanks; kernel-checked facts on the finite keyword tables; induction over lines, sections and options; refutations |
| C95 | plane deposition: the routine of any order with local arrays sized by `int(clight*dt/dx)` that persist across particles, the unrolled ones, old and new density (Model/Deposition2d); invariant over the two nested loops, closed form of what a particle adds, equality with a specification in shape factors, continuity and totals from the specification |
| C96 | volume scaling in r-z (Model/RzVolume): closed form of the row loops by invariant, ring volumes, mirrored sum, algebra of the continuity equation on and off the axis composed with the deposition of C95 |
| C97 | vectorised charge deposition on a flat array (Model/ChargeVec): blocks, `rhocells`, SIMD reduction | steps that add a function to the array compose; mixed-radix injectivity of cell and node numbers; linearity of the reduction; node-by-node comparison with the scalar statements |
| C98 | `load_particles` (Model/Loading): loops over cells, positions, weights, velocities from an arbitrary sequence of random numbers, the three distributions | characterisation of the rounded limits by the middle of the cell; sum over the loops; permutation of the cells of the subdomains; Minkowski inequality; additions to tiles as in C59; integrals for the thermal part |
| C99 | `load_laser_species`, `push_laser_particles`, `laser_pusher_profile` (Model/Antenna) with complex exponentials | orthonormal frame; plane cut by the subdomains as a permutation of loops; imaginary and real parts of exponentials against the spec of the field; induction over the steps |
| C100 | `output_routines`, `write_3d_field_array_to_file`, `write_single_array_to_file`, subarray types (Model/FieldFile) as writes of data at byte offsets | cuts give a unique owner; offsets injective on cells; any permutation of disjoint writes gives the same file; decimal digits injective |
| C101 | `calc_field_div`, `calc_field_divB`, local norms, reduction (Model/DivDiag) | loops as permutations of boxes (Grid); sums over the subdomains joined by the split (C52); C45 for the conservation |
| C102 | `write_particles_to_file`, `get_particles_to_dump`, `concatenate_particle_variable`, `write_particle_variable` (Model/PartDump) as writes at offsets | fold over the tiles with the positions reached; the write lists of the processes compared for the negations |
| C103 | `init_temp_diags`, `output_temporal_diagnostics`, units and files (Model/TempDiag) | positions in the buffer are increasing, hence disjoint; induction over the events of a run; smallest diagnostic that is off for the negation |
| C104 | `FD_weights_hvincenti`, `FD_weights` (Model/Stencil) | closed form of the coefficients; moments by Lagrange interpolation on the squares of the distances; kernel evaluation of the recurrence for the orders where it is wrong |
| C105 | `compute_k_1d`, `fftfreq` (Model/Psatd) | the sine sums of the code are the symbols of the differences; positivity of the symbol between 0 and the alternating wave by concavity arguments; loop invariant for `fftfreq` |
| C106 | `init_gpstd`, push, transforms (Model/Psatd) | discrete Fourier transform on Z/n by geometric sums; solution of every mode in time and its value by the coefficients of the code; conjugate symmetry for the modes that are not stored; uniqueness by energy |
| C107 | iteration of the step | from C106: divergences and energy of solutions by summation by parts, induction over the steps |
| C108 | allocation of blocks, `multiply_mat_vector` (Model/PsatdMat) | fold over rows and columns gives the sum over all columns; blocks that are not stored are zero; in two dimensions the terms that the explicit push leaves out vanish or are imaginary at the constant mode |
| C109 | `compute_cc_mat_splitted_fields`, `merge_fields` (Model/PsatdMat) | rows of a component added up, mode by mode; linearity of the transforms; induction over the steps with C107 |
| C110 | `copy_field_forward`, `copy_field_backward` (Model/PsatdCopy) | loop invariant of a copy with shifted indices; counterexamples for different guard cells |
| C111 | `compute_TT_integrand`, `compute_cumulative_pair` (Model/Rates), table (Model/BreitWheeler) | Bessel functions as integrals, positivity, bounds and measurability of the integrand, so the primitive is strictly increasing; substitution chi - x for the symmetry |
| C112 | `compute_KK_integrand`, `compute_cumulative_phot_em`, function given to the root finder (Model/Rates), table (Model/QuantumSync) | as C111; continuity and intermediate values give a root; induction along a row shows that the guard against results below the previous one does not cut it off |
| C113 | `compute_dN_dt`, `interp_dN_dt` with the table of the rate function (Model/Rates) | interpolation of logarithms between nodes (C26, C28), positivity of C111, C112 |
| C114 | `deposeDirect` (Model/DirectJ) | every statement is inside the array, so the loop adds the sum of the statements at each node, which is a product of B-splines; sums of B-splines over the array are 1 |
| C115 | `vnr`, `reduction`, `tileDirect` (Model/DirectJ) | statements on cells decomposed by cell and column; the reduction adds a column at its offset, injective on the frame of cells |
| C116 | `applyFilter` (Model/Godfrey) | loops over boxes are simultaneous updates; induction over the passes; the sum over pairs is the symmetric sum |
| C117 | `initFilter`, tables (Model/Godfrey, GodfreyTable) | multiple-angle formulas turn the stencil into a polynomial in sin²; its Bernstein coefficients are bounded for all columns of the tables (kernel evaluation over the whole tables), convex combinations for ratios in between |
| C118 | `index`, `weight`, `prestencil` | floor arithmetic; the integer division is 0 for every index |
| C119 | `step`, `region`, `tileStep`, `copyTile`, `fullWork`, `gatherWork`, `pushWork` (Model/PushManager) | the sum over the tile array is the sum over the whole grid (supports of the splines); induction over the events with the invariant that a thread's arrays have the sizes it remembers |
| C120 | `kernelWork`, `kLoop`, `kBlock` and the three generated kernels | the kernels are the gathering programs of C74 with lowered order; the blocks split the particle list |
| C121 | `split1`, `tileExt`, `guardCells` (Model/Tiling, TileReduce) | arithmetic of the division into tiles |
| C122 | `step`, `run`, `collectPairs`, `pairProd`, `opticalDepth` (Model/TestProgram) | the loops over structure-of-arrays are maps over lists of particles; induction over the steps with C21, C24, C26, C35, C77 |
| C123 | `run`, `initPhotons` | induction over the steps on the pairs (momentum, depth); the exponential law from C20 |
| C124 | `photonPushPos`, `advance` | distance along the ray; the negation for every photon that decays at a positive depth |
| C125 | `fileName`, `printOnDisk` | the digits of an integer have no underscore, so the last underscore splits the name |
| C126 | `l2gSend`, `l2gRecv`, `g2lSend`, `g2lRecv`, `Axis`, `cellsOf` (Model/FftGroups) | case analysis of the intersections per direction; both ends have the same cases |
| C127 | `setupZ`, `groupCells`, `groupMin`, `fftwSlab` with `split` | closed form of the prefix sums; nonlinear bounds for slab plus subdomain |
| C128 | `blocking`, `nonblocking` over the message-passing model, `Way.self`, `store` | lockstep result of C49-style programs; invariant over the receives: what has come is right, the rest unchanged; the negation for every odd number of cells |
| C129 | same, other direction | unique image of a cell; same invariant |
| C130 | C128 and C129 composed | the image of a cell has the cell as source |
| C131 | `Cut.work`, `Cut.requests`, `Way.postRequests` | `exec_bounded`, `exec_result`; counting the listed displacements |
| C132 | `combOne`, `combTile`, `combSpecies`, `push`, `sendDir`, `localPart` (Model/Combined) | invariant over the particles of a tile and over the tiles in loop order; counting per particle |
| C133 | `combined` over the message-passing model, `takeRows`, `recvSpecies` | lockstep result; invariants over the groups of counts and of data, strided receive type element by element |
| C134 | `Race`: posting and reading of the count buffer in any order | invariant over the steps; the run that reads last |
| C135 | same as C133 | count of what stays, leaves and is absorbed |
| C136 | `gatherOne`, `gatherAll`, `gatherE`, `gatherB`, `getEB` (Model/CircGather) | the loops over nodes and modes as sums; angle and turning; counterexample fields for the displaced nodes |
| C137 | same as C136 | the splines sum to one for every order, option and displacement |
| C138 | `deposeC`, `cellC`, `doR`, `doT`, `doZ` (Model/CircDeposit), `prep2` of the plane routine | invariant over the two loops with closed forms per mode; running powers of the phases; algebra of the continuity equation |
| C139 | `scaleC`, `foldAll`, `divRowsC`, `boundaryRow` | folded and divided rows pointwise; continuity at a node and its mirror node |
| C140 | same as C139 | values of the row on the axis |
| C141 | `solve`, `evecX`, `bvecX`, `view`, `release`, `params` (Model/External) | sweeps of Grid applied to the truncated sums; sums over kept terms become the full stencil; weights by C104 |
| C142 | same as C141 | every kept term lies inside the arrays; the result of a sweep does not depend on the order |
| C143 | same as C141 | both runs by the equations of C141; counterexample by evaluation of one point |
| C144 | same as C141; `history` in Spec/External | divergence of a curl vanishes for commuting differences; induction over the history |
| C145 | `initLib`, `toFourier` | induction over the calls; a longer grid needs more elements |
| C146 | `evec`, `bvec` (Model/Multimode): expressions evaluated on bounded arrays | statements commute point by point; closed form of each sweep; division faults excluded by the radius |
| C147 | same as C146; `historyM` in Spec/Multimode | divergence of a cylindrical curl vanishes; induction over the history with the invariant Ez = 0 on the axis above mode 0 |
| C148 | same as C146 | closed forms on the axis; rotation of the transverse vector by cos and sin |
| C149 | same as C146 and C139 | the continuity equation of C139 in the step of C147 |
| C150 | `transform2d`, `transform3d` (Model/Lorentz); Spec: `L F Lᵀ` for the field tensor, `L J` for the current, with the 4x4 boost matrix | closed form of one point; sweep over a permutation |
| C151 | `parts` (Model/Lorentz); Spec: events and field tensors under the same matrix | laboratory times differ below the speed of light; weights are affine |
| C152 | same as C151 | same as C151 |
| C153 | same as C151; `drift` in Spec | the transformation is linear, so the line between two events of a uniform motion is its world line |
| C154 | `estep`, `erun` (Model/EngineHeap) over the heap of Model/PicsarVector; Spec: `wstep`, a list of tables per engine | invariant by induction over histories: a view of the memory (pointer, contents, ownership of each vector) is advanced step by step through all temporaries |
| C155 | same as C154 | frame lemma of the description, carried over by C154 |
| C156 | same as C154; `arraysAlive`, `arraysOwned`, `lost` | balance is part of the invariant; induction over the number of computations for the refutation |
| C157 | same as C154 | invariant of the description; the moved-from vectors are seen in the view |
| C158 | same as C154 | two further steps from any state of the invariant |
| C159 | `newTileSplit` (Model/Retile): two stages over `Species` of Model/Tiling; Spec: `Inside`, `InTileOf`, `Stores`, `Covers` | each stage moves every particle once (induction over tiles), tile limits from C58 |
| C160 | same as C159 | projection of the result of both stages |
| C161 | same as C159; `Junk` are the undefined values | same; the flag of the grids is followed through both stages |
| C162 | `projected` (Model/ProjLoad); Spec: `InPlane`, `inPlane`, `AllInside`, `cells` | induction over particles and processes; floor and plane are equivalent |
| C163 | same as C162; `real8`, `Tree`, `Gives`: bits of doubles and any order of addition | each particle is in one plane; integers below 2^53 are multiples of the smallest subnormal, sums are exact; induction over trees |
| C164 | `newSplit`, `newSplit2` | C162, C163 and C66 |
| C165 | `before`, `exchange`, `after` (Model/RemapPart) over Model/Mpi and Model/Tiling; Spec: `Cuts`, `Domain.Owns`, `Agree`, `Start` | the route of a particle ends at the process whose limits contain it; invariants of the scan over tiles and species; determinism of the exchange (Mpi); induction over messages |
| C166 | same as C165; `number`, `inner`, `outer` | every particle has one owner, sums over processes exchanged |
| C167 | `sendTo`, `recvFrom`, `exchange` | symmetry of intersections, `exec_bounded`, `exec_result` of Lemmas/Mpi |
| C168 | `addTile2`, `rmTile2` (Model/Tile2d) over Model/Tiling; Spec: `run2`, `InPlane` | a removal leaves the list with the last particle at the place of the removed one but for its y; induction over the history |
| C169 | `pack2`, `raw`, `received`, `unpackSpecies2`, `handOver`; Spec: `Gained` | the buffer has the values of particle q from q·nvar+1 on; induction over particles and species |
| C170 | `localNumber`, `getquantity`, `getquantityPid` (Model/PlaneDiag) over Model/Tiling | the array holds the values of the tiles visited; induction over tiles |
| C171 | `loadTestPlane`, `select`; Spec: `side`, `Crosses` | induction over particles; with more marks than room the selection faults |
| C172 | `interpolate`; Spec: `on`, `OnPlane` | induction over selected particles; a linear function with values ≤ 0 and > 0 has one zero |
| C173 | `sendInit`, `sumPersistent`, `prepare`, `Call` (Model/PersistSum) over Model/FieldExchange and Model/Mpi; Spec: `Steps`, `nodeSum` | the requests refer to the storage in use: invariant of the history; simulation of the non-blocking program |
| C174 | `perInit`, `prepare`; Spec: `Steps`, `Loop` | induction over the calls |
| C175 | `noY`, `sumNonblocking2`, `exchNonblocking2` (Model/Exchange2d): the programs of Model/FieldExchange without the groups along y; Spec: `Planar`, `planeSum` | with one process and no neighbour along y these groups of the 3-D program do nothing; leaving them out keeps the lockstep result |
| C176 | `sumBlocking2`, `summationBlocking2` (Model/Exchange2d): without the groups along y, followed by the exchange in three directions; Spec: `planeSum` | sum over the copies along x, then z; the exchange copies the owner; a concrete absorbing case |
| C177 | `colours2` (Model/TileOmp2) with the threads of C63; Spec: `Adjacent2` | as C63: tiles of one loop are three apart, so the tiles they reach are different; the 9 loops visit every tile once; the storage of two dimensions is that of three for particles in the plane |
| C178 | `inter2`, `sub2`, `remap2` (Model/Remap2d); Spec: `Lim2.Has`, `Lim2.loc` | the program of the plane is that of C68 for limits of thickness one along y |
| C179 | `addKin`, `locKin`, `kinDiag` (Model/TempEnergy); Spec: `kineticTotal` | blocks of 16 joined are the list; sums; the factor of the mass |
| C180 | `assoc` (storage order of dummy and actual argument), `fieldDiag2`, `field2` (Model/TempEnergy); Spec: `planeEnergy` | division and remainder by the extents give the element; concrete fields for the refutation |
| C181 | `locNorm2`, `arrayNorm` (Model/DivDiag), `field2` (Model/TempEnergy); Spec: `planeSquares` | the loops over `1:nx, 1:1, 1:nz` as a sum; concrete arrays for the refutation |
| C182 | `allNz`, `fftwSplit`, `adjust` (Model/FftwSplit), `topo`, `coords2` (Model/Topology); Spec: `Slabs` (what the library promises) | loop invariant: the elements set so far are the slabs; the shuffle of two ranks computed for every stream of random numbers |
| C183 | `PyTile.add`, `PyTile.rm`, `PyTile.view`, `PyTile.clear` (Model/Realloc): the operations of Model/Tiling with the identity of the allocation and the flag; Spec: `PyTile.run` | invariant over histories: flag clear and same block, or flag set and a later block |
| C184 | `pyAdd` (Model/PyAdd), a fold of `addSpecies` of Model/Tiling; Spec: `HoldsAll`, `InTile3`, `InSub` of Spec/Tiling | induction on the list of particles; refuted for positions outside of the subdomain |
| C185 | `localMem`, `tileMem` (Model/TileMem) on the tiles of Model/Tiling; Spec: `Holds`, `run`, `Valid` of Spec/Tiling | sums; invariant over histories: at most the first capacity, or 2 npmax ≤ 5 np + 4 |

## 5. Disagreements found (property false of the code)

Each line: location, what goes wrong, theorem. For each the proved remainder is in the `_partial` theorem of the same property.

| id | where | what goes wrong | theorem |
|---|---|---|---|
| C03 | utilities.hpp generate_log_spaced_vec | `min = 0` accepted, interior coordinates not finite | C03_log_spaced_refuted |
| C04 | utilities.hpp generate_log_lin_log_spaced_vec | `size_t` subtraction wraps for sizes 3k+2; sizes 0, 1, 4 wrong | C04_log_lin_log_refuted, C04_log_lin_log_small_refuted |
| C07 | lookup_tables.hpp interp_linear_equispaced | one read past the end at the last grid point | C07_closed_range_refuted, C07_closed_range_2d_refuted |
| C13 | lookup_tables.hpp read_from_stream_bin | stream state never checked: truncated tables report themselves initialised | C13_truncated_file_refuted |
| C15 | picsar_vector.hpp operator= | self-assignment destroys the elements | C15_self_assign_refuted |
| C17 | picsar_vector.hpp operator= | old block leaked | C17_leak_refuted |
| C18 | picsar_vector.hpp back | non-const overload returns the first element | C18_back_nonconst_refuted |
| C19 | picsar_vector.hpp resize | moved-from vector cannot be resized | C19_moved_from_resize_refuted |
| C24 | breit_wheeler_engine.hpp pair generation | `0·log 0` at interior grid points, `0/0` at vanishing chi | C24_generate_refuted, C24_zero_chi_refuted |
| C27 | quantum_sync_engine.hpp photon emission | `0/0` at vanishing chi | C27_zero_chi_refuted |
| C28 | quantum_sync_engine.hpp rate lookup | read past the table at and above the largest chi | C28_rate_refuted, C28_evolve_refuted |
| C33 | engines, export_innards | engine without tables is rebuilt as one with (empty) tables | C33_flag_refuted, C33_evolve_refuted |
| C36 | species.cpp do_simple_process | unknown identifier inserts an empty entry | C36_unknown_id_refuted |
| C37 | species.cpp swap_particles | indexes components with the particle index | C37_large_index_refuted, C37_small_index_refuted |
| C43 | boris_3d.F90 B08 | `0/0` for a particle at rest in zero field | C43_b08_refuted |
| C50 | field_boundaries.F90 summation_bcs | currents wrap around absorbing boundaries | C50_summation_blocking_refuted |
| C51 | field_boundaries.F90 cached datatypes | types of the first array reused for arrays of other extents | C51_short_transfer_refuted, C51_overrun_refuted |
| C55 | particle_boundaries.F90 | reflecting walls periodic in combined and 2-D versions; half-cell overlap with one tile; blocking and non-blocking differ at corners; reflection by one cell | C55_combined_reflecting_refuted, C55_combined_tile_refuted, C55_corner_refuted, C55_far_reflecting_refuted |
| C56 | mpi_routines.F90 mpi_initialise | upper wall never recognised with zero offset | C56_upper_face_refuted |
| C61 | tiling.F90 add_group_of_particles_at_tile | capacity grows once, not to the size needed | C61_group_refuted |
| C64 | particle_boundaries.F90 combined version | `!OMP CRITICAL` is a comment: lost updates, buffer overrun | C64_lost_update_refuted |
| C65 | sorting.F90 | further `pid` columns not permuted; positive shift gives bin 0 | C65_columns_refuted, C65_shift_refuted |
| C66 | load_balancing.F90 balance_in_dir | ranges beyond the end, or last cell unassigned | C66_beyond_end_refuted, C66_misses_last_cell_refuted |
| C68 | load_balancing.F90 limits table | consequence of C69 | C68_limits_table_refuted |
| C69 | load_balancing.F90 pxr_convertindtoproc | y and z compared with `nprocx` | C69_collision_refuted |
| C70 | tiling.F90 product_matrix_2c2 | product overwritten instead of accumulated | C70_product_refuted |
| C71 | field_boundaries.F90 pxr_move_sim_boundaries | tables of all processes not moved | C71_process_tables_refuted |
| C72 | submain.F90, maxwell_solver_manager.F90 | merged component may grow; thickness of the layer not checked | C72_merged_refuted, C72_thick_layer_refuted |
| C73 | kin_energy.F90, diags.F90 | energies never initialised (antennas, get_kinetic_energy) | C73_antenna_refuted, C73_get_kinetic_refuted |
| C76 | schwinger_pair_engine.hpp | critical field not scaled with the reference length | C76_schwinger_refuted |
| C80 | particle_pusher_manager_3d.F90 | two Boris halves are not the full push | C80_boris_refuted |
| C83 | yee.F90 pxrpush_em2d_bvec_norder | private `k` never assigned; stencil not shortened | C83_openmp_refuted, C83_guard_refuted |
| C86 | mpi_routines.F90 | check counts grid points, not cells | C86_check_refuted |
| C85 | current_deposition_manager_3d.F90:1659-1699 | the loop over the x faces adds slabs that include the y and z guard cells; tiles adjacent in y or z race on them | C85_race_refuted |
| C85 | control_file.F90:108-116 | `nxjguards=MAX(nox,2)` is computed before `nox` is read; order 3 with two tiles or more then writes outside the tile arrays | C85_default_guards_refuted |
| C91 | field_gathering_o{1,2,3}_2d.F90 | terms dropped or components never written with `l_lower_order_in_v` false | C91_full_order_refuted |
| C92 | charge_deposition_manager.F90:648-654 | same race as C85 on the charge array | C92_race_refuted |
| C87 | control_file.F90:267-430 | options nxpml, nypml, nzpml, lvec_fieldgathe taken for nx, ny, nz, fieldgathe | C87_nxpml_refuted, C87_shadowed_options |
| C88 | control_file.F90:671-672 | mpi_buf_size of section solver never read | C88_mpi_buf_size_refuted |
| C89 | control_file.F90 section readers | repeated sections ignored (`end_section` saved); `temporal` swallows what follows | C89_repeated_section_refuted, C89_temporal_first_refuted |
| C90 | control_file.F90, format i10 | integers beyond column ten read as 0 or truncated | C90_blanks_refuted, C90_truncated_refuted |
| C93 | control_file.F90:973, 1331 | no check of the number of species | C93_too_many_refuted |
| C94 | control_file.F90:471-502 | a commented section header is obeyed | C94_commented_header_refuted |
| C96 | charge_deposition_2d.F90:423-427, current_deposition_manager_2d.F90:262-268 | `type_rz_depose=1` divides the axis row by πdr/3, not by the volume of the axis cell: a quarter of its charge is missing and the continuity equation of the field solver fails there | C96_corrected_volume_refuted, C96_corrected_volume_breaks_continuity_refuted |
| C96 | charge_deposition_2d.F90:414-417 | guard rows that reach the axis are divided by zero | C96_guard_row_on_axis_refuted |
| C97 | charge_deposition_3d.F90:1015, 1078-1087 | the cell number of a particle outside the tile wraps to another row: the charge is deposited elsewhere without notice, where the scalar routine uses the guard cells | C97_outside_tile_refuted |
| C97 | charge_deposition_3d.F90:1066-1095 | the last loop visits the guard cells whether or not a particle is there: without guard cells it writes before the array | C97_no_guard_refuted |
| C98 | tiling.F90:898-910 (and copies) | a thermal velocity above about a sixth of the speed of light gives the square root of a negative number for some random numbers; the NaN particle is loaded | C98_superluminal_refuted |
| C98 | tiling.F90:903-906 (and copies) | the thermal part is `cos cos`, `cos sin`, `sin` of two uniform angles: mean square along z twice the one along x and y | C98_isotropy_refuted |
| C98 | tiling.F90:978-980, 1023-1025 | random positions fill the whole subdomain, not the region of the species, with the number of particles of the region | C98_random_region_refuted |
| C98 | tiling.F90:1008-1009 | third distribution: `curr%is_antenna` is read before `curr` is associated | C98_third_distribution_refuted |
| C99 | tiling.F90:1759, 1800 | the direction is divided by its length before the check for a null direction | C99_null_vector_refuted |
| C99 | tiling.F90:1836-1857 | weight of the emitters: smallest of `d(i)/pol(i)`, with 1 for components that are zero: wrong for rotated polarisations (25/16 for (3,4,0)) and for cells larger than one | C99_rotated_polarisation_refuted, C99_large_cells_refuted |
| C99 | laser_pusher_manager_3d.F90:399-406 | odd `temporal_order`: the envelope grows without limit before the peak; order 0: the phase shift between the polarisations is dropped | C99_odd_order_refuted, C99_continuous_phase_refuted |
| C99 | laser_pusher_manager_3d.F90:455-460 | Hann window with `t_peak = 0`: division by zero at the first step | C99_hann_zero_peak_refuted |
| C100 | simple_io.F90:89-110 | step number written with `I5`: from step 100000 on it is `*****`, every dump overwrites the same file | C100_names_refuted |
| C100 | simple_io.F90:104-160; mpi_routines.F90:1807-1816 | `jx, jy, jz, rho` have `njguards` guard cells but are written with `nguards`: with different values the file is shifted or the array is left | C100_guards_refuted |
| C101 | diags.F90:187-189; simple_io.F90:170-177 | the loops of div B start at 1, the file takes the points from 0 on, `divb` has no initial value: three planes per process are garbage | C101_divB_refuted |
| C101 | diags.F90:145-152 | in two dimensions there are no guard cells in y and `ey(j, -1, l)` is read | C101_flat_refuted |
| C102 | simple_io.F90:736 | the mask is indexed with the position in the tile, not in the concatenated array: with two tiles other particles than the asked ones are dumped, and places are left unset | C102_wrong_particle_refuted, C102_lost_refuted |
| C102 | simple_io.F90:650-687, 862-876 | every process writes its blocks at the same offsets | C102_processes_refuted |
| C102 | simple_io.F90:643-645 | the name has only the species and the step (`I5`): two dumps of one species share a file, and from step 100000 on all steps do | C102_two_dumps_refuted, C102_names_partial |
| C103 | diags.F90:376-414; simple_io.F90:412-446 | files and outputs go by the number of diagnostics switched on, indices by their numbers: with a gap in the selection unset indices are read and later diagnostics have no file | C103_gap_refuted, C103_no_file_refuted |
| C103 | simple_io.F90:417 | `rank.le.temdiag_nb` instead of `.lt.` | C103_extra_process_refuted |
| C103 | simple_io.F90:503-516; diags.F90:385 | field dumps use unit 42 of process 0, which is also that of the first temporal diagnostic, and close it | C103_unit_refuted |
| C103 | control_file.F90:228-229; modules.F90:1029-1048 | `temdiag_act_list` has no default | C103_default_refuted |
| C104 | submain.F90:972-984 | the update of the earlier coefficients stands inside `IF (j .EQ. (i-1))`: from order 6 on the coefficients are wrong (derivative of x is 61/64) | C104_fdtd_refuted |
| C104 | submain.F90:955-961 | on a nodal grid the nodes are not symmetric about 0: factor 4 at order 2 | C104_fdtd_nodal_refuted |
| C105 | init_kspace_3D.F90:864 | `fftfreq` divides by 2 and multiplies by pi where a wave number needs a factor 2 pi: infinite order has a quarter of the wave number | C105_infinite_refuted |
| C105 | init_kspace_3D.F90:858 | one point along an axis (every 2-D run) with infinite order: `kxx((n-1)/2+2)` is outside of the array | C105_one_point_refuted |
| C105 | init_kspace_3D.F90:512-519 | unstaggered grid, even number of points: the alternating wave has norm 0 and only the constant mode is excepted from the division (with rounding the norm is a multiple of the rounding error) | C105_alternating_refuted |
| C110 | init_kspace_3D.F90:1572-1581, 1597-1611 | currents and charge densities are aligned with the fields at the lower bounds of the arrays: with `nxjguards > nxguards` the values of other points are transformed | C110_shift_refuted |
| C110 | init_kspace_3D.F90:1597-1611, control_file.F90:906-922 | with `nxjguards < nxguards` (e.g. `nguardsx` in the input file, which leaves `nxjguards` alone, or `l_smooth_compensate`) the current arrays are read outside of their bounds | C110_short_refuted |
| C113 | breit_wheeler_engine.hpp:595-603 | in SI units the constructor enforces lambda = 1, but set_lambda stores any value: the rate without table is then multiplied by it, the one with table is not | C113_set_lambda_refuted |
| C114 | direct_current_deposition_3d.F90 | the direct current is not the one of the continuity equation: after a diagonal move of half a cell the residual is -3/8 | C114_continuity_refuted |
| C115 | direct_current_deposition_3d.F90:3967-4003, 4085-4122, control_file.F90:111-116 | the reductions of orders 2 and 3 start one row or plane before the first cell, which needs three guard cells; the program starts with two: writes before the array even without particles | C115_two_guards_refuted |
| C115 | direct_current_deposition_3d.F90:700-730, 1700-1740, 3470-3510 | arrays of a block have LVECT elements, loops go up to the constant LVEC=8 | C115_short_block_refuted |
| C118 | nci_godfrey_corr.F90:309 | `weight_right = cdtodz - (index-1)/size_coeff_table` is an integer division and lacks the factor size_coeff_table: the weight of the right column is cdtodz itself, so at cdtodz = 1/2 the mean of two columns comes out instead of the tabulated one, and the coefficients jump at every column | C118_tabulated_refuted, C118_continuity_refuted |
| C118 | nci_godfrey_corr.F90:59, 161 | lists of 101 columns reshaped to [4,100]: the column for cdtodz = 1 is dropped | C118_last_column_refuted |
| C119 | particle_pusher_manager_3d.F90 (pusher 4) | columns exoldpid... of pid are never assigned, and pid has three columns: uninitialised or out-of-bounds reads | C119_landau_lifshitz_refuted |
| C120 | particle_pusher_manager_3d.F90 (cacheblock form, the default) | orders that differ between directions: no branch is taken, particles get zero fields and are not moved | C120_mixed_orders_refuted |
| C120 | particle_pusher_manager_3d.F90 (kernels) | the kernels always lower the order and assume Yee's grid; pushers 2, 3 and 4 are replaced by Boris without a message | C120_options_ignored_refuted, C120_full_order_refuted, C120_radiation_refuted |
| C121 | particle_pusher_manager_3d.F90 (copy to tile) | tiles have the guard cells of the currents; with njguards > nguards the copy of the fields reads outside | C121_more_current_guards_refuted |
| C124 | test_program/src/main.cpp:136-144 | photon pushed by dt and then by dt_prod again: pair born farther than light travels | C124_light_cone_refuted |
| C125 | test_program/src/species.cpp:166-174 | thirteen labels for fourteen values per line; prefix and name are joined ambiguously | C125_labels_refuted, C125_prefixes_refuted |
| C126 | load_balancing.F90:858-904, control_file.F90:935 | a process that is a group of its own copies its array with nzguards guard cells into a slab with nzg_group guard cells; the two are independent inputs | C126_guards_refuted |
| C128 | load_balancing.F90:1580-1620 | a subdomain that meets a slab in two periods sends only one of the two parts; happens for two processes and an odd number of cells | C128_odd_refuted |
| C131 | load_balancing.F90:1158-1181, field_boundaries.F90:545, 614 | requests allocated for mpicom_curr = 0 only, non-blocking routines used for every value but 1 | C131_persistent_refuted |
| C132 | particle_boundaries.F90:2253, 2508-2544 | buffers are allocated for border tiles only, particles of every tile may be written to them | C132_inner_tile_refuted |
| C133 | particle_boundaries.F90:2890-2968 | only border tiles take received particles, all are counted | C133_inner_tile_refuted |
| C134 | particle_boundaries.F90:2752-2766 | the variable `k` is the buffer of up to 26 pending sends and is assigned again for each | C134_counts_refuted, C134_too_small_refuted |
| C135 | particle_boundaries.F90:2967 | `species_npart` is increased for received particles and not decreased for sent or removed ones | C135_number_refuted |
| C136 | field_gathering_on_circ.F90:302-311, 598-606 | modes above 0 are read at `j+.., l+..` instead of `j0+.., l0+..`: displaced nodes | C136_modes_refuted |
| C136 | field_gathering_on_circ.F90:285-286, 581-582 | the azimuthal components are read with the stencil of the radial ones, half a cell off on a Yee grid | C136_theta_refuted |
| C139 | esirkepov_circ.F90:509 | `jt` below the axis is added with the sign of a scalar; the azimuthal direction turns over at the axis, and the deposited value already carries the sign of the radius | C139_axis_refuted |
| C141 | init_external.F90:75-96 | axes are reversed (C to Fortran order) and components relabelled; for right-handed axes this is a reflection, under which B changes sign, and the sign is not changed | C141_right_handed_refuted |
| C143 | init_external.F90:154-161 | the sums for Ex have no `MIN(norder/2, ...)` at the ends, those for Ey and Ez have | C143_rotation_refuted |
| C145 | init_external.F90:102-112 | `IF(.NOT. ASSOCIATED(exf))` keeps arrays of another size | C145_transforms_refuted |
| C146 | yee.F90:581-585, 1186, 1225 | `rmin/dr + j` vanishes at a point on the axis below a grid that starts off the axis; only `rmin = 0` is treated | C146_guard_refuted |
| C149 | yee.F90:591-594 with esirkepov_circ.F90 `type_rz_depose = 1` | density on the axis uses the volume `pi dr^2/3`, the solver the flux `4 Er/dr` of the volume `pi dr^2/4` | C149_axis_row_refuted |
| C150 | diags.F90:1385, 1432 | `bx = gam*(bx - cbeta*ey)`; the factor should be `beta_c` as in the lines for By | C150_bx_refuted |
| C152 | diags.F90:1521, 1598 | `gc` is interpolated between the steps, but never transformed to the laboratory frame | C152_gamma_refuted |
| C156 | picsar_vector.hpp:211-225, breit_wheeler_engine.hpp:655, 760 | assigning the computed table overwrites `v_data` without freeing it: each further computation loses the arrays | C156_refuted |
| C157 | lookup_tables.hpp:237-242, 245-253, 426-450 | `std::move(other.init_flag)` leaves the flag of the source set; the constructors from raw pointers set it unconditionally | C157_moved_refuted, C157_innards_refuted |
| C158 | picsar_vector.hpp:196-208, 259 | a moved-from vector has `should_manage_memory = false`, so that `resize` throws | C158_read_refuted |
| C160 | load_balancing.F90:2219-2455 | flags, sorting parameters and name of species are not copied | C160_flags_refuted |
| C161 | load_balancing.F90:2219-2455; tiling.F90:748, 845 | species_npart not set to zero; flag of allocated grid tiles not reset, so that new tiles get no arrays | C161_count_refuted, C161_grids_refuted |
| C163 | load_balancing.F90:1841 | INTEGER(idp) reduced with MPI_REAL8: zero where subnormals are flushed | C163_flush_refuted |
| C164 | load_balancing.F90:1969-1978 | consequence of C66 for particles that gather in one plane | C164_beyond_end_refuted |
| C165 | load_balancing.F90:2572-2640 | only particles of tiles at the border of the old subdomain are sent | C165_inner_tiles_refuted |
| C166 | load_balancing.F90:2570, 2804 | send buffers sized by npart_local, which only compute_time_per_part sets | C166_buffer_refuted |
| C168 | tiling.F90:594-609, 1393-1396 | removal in two dimensions does not move y, which the interface of Python sets | C168_y_refuted |
| C169 | particle_boundaries.F90:1996-2003, 2080-2083 | y is not sent; the last place of each particle in the buffer is sent without having been written | C169_y_refuted |
| C170 | tiling.F90:645-655, diags.F90:600-611 | fields at particles are not moved on removal, but returned to scripts | C170_fields_refuted |
| C171 | diags.F90:717-722 | marks of particles that do not cross are never cleared | C171_stale_refuted |
| C173 | field_boundaries.F90:1289-1305, 1458, 1623 | requests are created at it = 0 only and for the storage of that call; two receive requests of jx with a count that has no value | C173_late_refuted, C173_moved_refuted, C173_count_refuted |
| C174 | field_boundaries.F90:1289, 1458, 1623; test.py:149-176 | requests are created anew at every call while it = 0 and never freed | C174_grows_refuted |
| C176 | field_boundaries.F90:432-440, 485-494 | the blocking summation uses `neighbour`, not `proc_x_min` ..., in two dimensions, too | C176_absorbing_refuted |
| C179 | simple_io.F90:273-274 | the factor is the mass of the electron for every species | C179_mass_refuted |
| C180 | diags.F90:1039-1040, simple_io.F90:285, mpi_routines.F90:1531, 1786 | the array passed has two planes along y, the dummy argument one | C180_plane_refuted |
| C181 | diags.F90:1279-1281, simple_io.F90:376-391, mpi_routines.F90:1531 | the loop along y starts at 1, while the plane in use is 0 | C181_norm_refuted |
| C182 | mpi_routines.F90:1258-1270, 331-341 | sizes gathered by rank, used by coordinate; the random topology makes them differ | C182_random_refuted |
| C184 | py_add_particles_to_species does not check positions: the tile index is clipped from above only (tiling.F90:333-338), so a particle beyond the upper limit is stored in a tile it does not lie in, and one more than half a cell below the lower limit indexes the tile array at 0 or less |

Observed while reading, not (or not only) stated as theorems: the Schwinger CPU wrappers pass 11 arguments to functions of 14; a pair
table with a single column overruns its row (C32_single_column_overruns); the multimode r-z solver uses a private, unassigned `m`;
re-injection does not update `gaminv`; `shift_x_pml` is never assigned; `compute_kin_energy` uses `nc*dx*dy*dz/nppcell` instead of the
stored weights; gathering uses single-precision literals for 1/6 and 2/3.

## 6. Mutation tests

`seeded/LOG.jsonl`: one line per wrong program. The edits are made in a scratch copy of the Lean project, the whole project is rebuilt,
and a property theorem counts as failed if it, or a lemma it depends on, no longer checks.
