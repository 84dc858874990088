{
 "C03": "Holds for min>0 (C03_log_spaced_partial, and the empty result for rejected requests). For min=0 the code accepts the request and returns NaN coordinates: C03_log_spaced_refuted.",
 "C04": "Holds for size 2, 3 and every size>=6 with size mod 3 /= 2. False of the code for sizes 0,1,4 and every size 3k+2>=5 (size_t wrap): the two refuted theorems.",
 "C07": "In-bounds on [front,back) and for the general routine on the closed range except back; at the last grid point both 1-D routines read one past the end (two refuted theorems).",
 "C13": "Truncation leaves the stream failed or faults on an indeterminate header, but the code never checks: for every cut inside the payload the table reports itself initialised with indeterminate data (refuted).",
 "C15": "Copy construction and copy assignment between different vectors proved; self-assignment replaces all elements by indeterminate values (refuted).",
 "C17": "Proved for histories that never assign to a vector that owns memory; assignment to an owning vector leaks its block (refuted).",
 "C18": "front() and const back() proved; non-const back() returns the first element (refuted).",
 "C19": "Destination owns the elements, source empty, destructible and assignable; resize of a moved-from vector always throws (refuted).",
 "C24": "Proved for every photon above threshold with chi>0 and every list of draws in [0,1), unless log(chi) is exactly an interior grid point and a draw falls in the first cell: then the stored log(0) gives NaN (C24_generate_refuted). A vanishing chi gives NaN too (C24_zero_chi_refuted). C24_generated_table shows the engine's own table meets the hypotheses.",
 "C27": "Proved for a moving lepton with non-zero chi; with chi=0 (no field, or at rest) all momenta become NaN (refuted).",
 "C28": "Proved for chi below the table maximum; for every chi at or above it the lookup reads past the end (two refuted theorems).",
 "C32": "Proved for every schedule of the parallel loop. A pair-production table with a single fraction column makes the code write past its row (C32_single_column_overruns, a stated corner case outside the property).",
 "C33": "A clone built from exported innards of a complete engine behaves identically; an engine exported without tables comes back claiming to have them (two refuted theorems).",
 "C36": "Proved for registered ids; an unknown id silently inserts an empty entry that is called later (refuted).",
 "C37": "Exchanging two different particles is wrong in the code: for every index i>=3 (C37_large_index_refuted) and already for small indices (C37_small_index_refuted, C37_refuted); swapping a particle with itself works for i<3 (C37_self_partial).",
 "C43": "Proved for Boris, split Boris, Vay, split Vay, S09 and Landau-Lifshitz pushers; false of the B08 pusher (0/0).",
 "C44": "3D Yee (one push and any history), 2D Yee, r-z Yee, Cole-Karkkainen-Cowan 2D/3D (with the solver's own differences) and 3D arbitrary order with truncated stencils, for every execution order of the parallel loops. Real arithmetic. The multimode r-z solver is not modelled.",
 "C45": "3D, 2D, r-z (off and on the axis) and 3D arbitrary order, under the discrete continuity equation of C46.",
 "C46": "Scalar routines of order 1, 2, 3 (one parametrised model); the general-order and vectorised variants are not modelled. C46_fast_particle_faults shows the hypothesis is needed.",
 "C47": "Interior of one subdomain, Yee solver of order 2, particle states after the push as inputs; tiles and exchanges are separate properties.",
 "C48": "Scalar routines of order 1, 2, 3; vectorised variants not modelled.",
 "C76": "Proved for the quantum parameters and for the two rates; refuted for the Schwinger engine, which does not scale the critical field with lambda.",
 "C80": "Proved for Vay. False for Boris: each half uses tan of a quarter angle, so the two half rotations are not the full rotation (refuted); equality without magnetic field, magnitude conservation and reversibility proved.",
 "C83": "False of OpenMP builds for every input (k is PRIVATE and never assigned inside the region) and for guard regions narrower than the stencil (two refuted theorems); proved for serial builds with enough guard cells.",
 "C86": "Refuted: with 8 grid points, 2 processes and 4 guard cells the check passes and a process has 3 cells. Partial: what the check does guarantee (at least guards - 1 cells).",
 "C50": "Proved for the nonblocking version (the default). The blocking version wraps around absorbing boundaries (refuted) and is proved for periodic directions.",
 "C51": "False as stated (two refuted theorems: the datatypes cached by the first call are reused for arrays with other guard widths); proved when the first exchanged array had the same extents.",
 "C65": "3-D and 2-D counting sort proved to be a stable cell-ordered rearrangement of position, momentum, gamma and weight with no out-of-range access, for any number of particles in the sorting box. Refuted: with npid=3 the remaining pid columns are not permuted (C65_columns_refuted); a positive sorting shift makes particles of the tile index bin 0 (C65_shift_refuted).",
 "C66": "Proved: the chunks are contiguous from 0, and cover the whole range when the greedy scan does not run out of cells. Refuted: three processes and a load concentrated in the last cell get limits beyond the end; a zero load in the last cell leaves it without owner.",
 "C67": "Both searches, for lists of every length; includes the -1 answer for absent keys.",
 "C68": "3-D field remap on any number of processes and components under every schedule: values, left-over messages, liveness, matching lists. The self copy is modelled as a message to itself. The limits table is refuted for non-Cartesian communicators with npy > npx (consequence of C69).",
 "C69": "Proved with a Cartesian communicator and when npx is the largest; refuted otherwise (wrap tests for y and z compare with npx).",
 "C70": "Refuted: the result is overwritten in the inner loop; only the last term of the product survives. Partial: correct when the first terms vanish.",
 "C58": "For every grid size and tile count (the code's clamp to one tile included): node counts, contiguity, cover, and the index computed for a position is the one tile containing it. A tile count of zero divides by zero (C58_zero_tiles).",
 "C59": "One tile under every history of additions and removals (growth and shrink included), and a whole species under additions, removals and tile exchanges, with its particle count.",
 "C60": "Every population and every mask; the loop runs from the end, so the swap of the last particle never skips one.",
 "C61": "Refuted: the capacity grows only once, to twice its value plus one, so a large group is written past the arrays. Partial: holds when the group fits after that growth.",
 "C62": "3-D and 2-D sequential exchange, particles moving any distance. The domain of the routine is the particle domain of the process.",
 "C63": "Any interleaving of the threads of each of the 27 parallel loops, with one step per memory-relevant action (look at a particle, remove it, add it to another tile): two threads that are both inside a loop never touch the same tile, and every complete run ends in the state of the sequential exchange. Particles are assumed to move by at most one tile (the property's hypothesis).",
 "C64": "False of the code: the directive is spelt `!OMP CRITICAL` and is a comment. Refuted for every pair of same-colour border tiles with particles for the same direction; partial: with one thread the sizes are exact and no write goes past a buffer.",
 "C55": "Scan of one particle in all four versions (blocking, non-blocking, non-blocking 2-D, combined), real arithmetic. Proved for every combination of walls: pass/reflect/wrap, absorption, re-injection, and that a wrapped particle lands inside the limits of the process it is sent to, for every decomposition. False of the code, and refuted: combined and 2-D versions treat reflecting walls as periodic; the combined version ignores a particle within half a cell behind the wall when there is one tile; blocking and non-blocking versions disagree at an edge between an absorbing and a re-injecting wall; reflection moves by one cell only.",
 "C56": "False of the code at the upper face for every decomposition with default offsets; the lower face is recognised by exactly the processes at the lower end and absorbs.",
 "C57": "3-D blocking (26 sendrecv pairs per species) and non-blocking (sizes, then one message per distinct neighbour) versions as asynchronous message-passing programs: every schedule, every number of species and particles, neighbours may coincide with each other or with the process. The buffers are modelled as flat arrays of reals with stride 8+npid, the removal loop and the receive bookkeeping included. Hypotheses: mutual neighbours (C57_neighbours: holds for every processor grid) and particles land in a tile of the receiver (C57_land, with C55_periodic_lands for wrapped ones). The 2-D copy and the combined version are not modelled.",
 "C71": "pxr_move_sim_boundaries for any number of calls and any displacement: global and local bounds, tile bounds and particle domains move together, the local domains still partition the moved domain, node indices of moved particles are unchanged, and the boundary conditions commute with the move. Refuted for the per-process tables x_grid_mins/x_grid_maxs and the axis arrays, which are not moved.",
 "C72": "Damping factors of init_pml_arrays and the split-field damping of damp_e_field/damp_b_field: factors in (0,1], one outside the layers, monotone in depth, every split component contracts in absolute value. Refuted: the merged component (sum of two split parts) can grow under damping; a layer as thick as the local domain with guard cells is written out of bounds. Partial: bound of the merged component by the split parts.",
 "C73": "EM energy: exact value, sign, vanishing, and reduction over every decomposition of C52 in three directions. Kinetic energy: proved when no antenna species holds particles; refuted otherwise (an uninitialised tile energy is added) and for get_kinetic_energy, whose accumulator is never initialised. compute_kin_energy uses nc*dx*dy*dz/nppcell as the weight of each particle, not its stored weight.",
 "C74": "All 3D algorithms (scalar loops, arbitrary-order loops, unrolled default transcribed statement by statement from the Fortran), orders 1-3, Yee or nodal: gathered = B-spline sum over the array, average with weights summing to one, uniform and affine fields exact. Reals for floating point; SIMD and developer algorithms 3-7 not modelled.",
 "C91": {
  "status": "partial",
  "note": "Proved for the lowered order (default setting) and for the loop algorithms; refuted for the unrolled 2D routines with l_lower_order_in_v false (orders 1 and 2 drop terms of B, order 3 never writes Ez and Bz)."
 },
 "C84": "Scalar routines of order 1, 2, 3 (the model of C46); closed form per node, total current, locality, order independence. Strict room of (n+1)/2 cells inside the array is assumed, as the splines reach that far. Reals for floating point.",
 "C85": {
  "status": "partial",
  "note": "Proved: sequential routine for any tiles, independence of the tiling, equality with the direct deposition, the OpenMP routine on one thread in any order, and on any number of threads for a row of tiles along x. Refuted: with tiles also along y or z the loop over the faces in x adds slabs with transverse guard cells without synchronisation and can lose an update; and with order 3 and the default nxjguards (2, computed before nox is read) a particle makes the deposition write outside the tile arrays. Missing: the vectorised Esirkepov variants and the classical deposition managers (same reduction text)."
 },
 "C92": {
  "status": "partial",
  "note": "Proved on one thread in any order and on any number of threads for a row of tiles along x; refuted with tiles also along y or z (same unsynchronised slabs as C85). Scalar order 1 to 3 deposition."
 },
 "C87": {
  "status": "partial",
  "note": "Proved for every list of options except four keywords. Refuted for these: nxpml, nypml, nzpml are taken for nx, ny, nz, and lvec_fieldgathe for fieldgathe (C87_shadowed_options shows that these are exactly the shadowed keywords). List-directed reading is a parameter of the model, assumed to ignore trailing blanks."
 },
 "C88": {
  "status": "partial",
  "note": "Proved for every section and keyword; refuted for mpi_buf_size in section solver, whose value is never read. Values containing a keyword of the section or a # are excluded (substring search)."
 },
 "C89": {
  "status": "partial",
  "note": "Proved for all files whose global sections are not repeated and whose section temporal, if any, is last. Refuted otherwise: end_section is initialised in its declaration (SAVE) so a second section of the same name is ignored; temporal has no end mark and swallows the rest of the file. The species_name line of dumps is covered by C88_dump_species, not by the whole-file theorem."
 },
 "C90": {
  "status": "partial",
  "note": "Proved when the integer ends within ten columns after the equal sign; refuted beyond: read as 0 after ten blanks, truncated otherwise."
 },
 "C93": {
  "status": "partial",
  "note": "Proved up to 40 species (same files as C89); refuted beyond: the 41st writes outside species_parray without a check."
 },
 "C94": {
  "status": "partial",
  "note": "Proved for comments inside sections and for any line between sections that does not contain section::; refuted for a commented-out section, whose header is obeyed."
 },
 "C95": "Esirkepov and charge deposition of esirkepov_2d.F90 and charge_deposition_2d.F90, any order 0-3, x-z and r-z before the volume scaling, the unrolled routines and the choice between them. Flags fixed to the constants the callers pass. The unrolled routines need moves below one cell; two cells or more leave their local arrays (C95_fast_particle_leaves_arrays).",
 "C96": {
  "status": "partial",
  "note": "Proved for type_rz_depose other than 1 on a grid that starts on the axis or whose rows all lie on one side of it: charge per ring, total, current scaling, cylindrical continuity from the particles to the scaled arrays. Refuted for type_rz_depose=1 (axis volume) and for guard rows that reach the axis (division by zero)."
 },
 "C97": "Orders 1 to 3, any block length and SIMD width (a SIMD statement reads all lanes, then writes all lanes). The particles must be in the tile, faces included, as the particle boundary conditions that precede the deposition ensure, and the tile must have the guard cells of the scalar routine: C97_outside_tile_refuted and C97_no_guard_refuted show that the vectorised routine needs both where the scalar one does not.",
 "C98": "Density, decomposition, storage in tiles and momenta are proved for the uniform distribution in 3-D (density also in the plane), storage, momenta, number and weights also for the random one. Missing or false: the loading needs drift plus seven thermal velocities below the speed of light (C98_superluminal_refuted); the thermal part is not isotropic (C98_isotropy_refuted); random positions ignore the region (C98_random_region_refuted); the third distribution reads an undefined pointer (C98_third_distribution_refuted). Random numbers are an arbitrary sequence in [0,1).",
 "C99": "Plane, decomposition, frame, path of the emitters, symmetry and given amplitudes are proved in 3-D for all settings. C99_current_partial: the current is right for direction and polarisation along axes and cells of size at most one; false otherwise (C99_rotated_polarisation_refuted, C99_large_cells_refuted). Also false: a null direction divides by zero before the check (C99_null_vector_refuted); odd orders exceed the speed (C99_odd_order_refuted; C99_speed for even ones); order 0 ignores the phase shift (C99_continuous_phase_refuted); a Hann window with peak at 0 divides by zero (C99_hann_zero_peak_refuted). Missing: loading in two dimensions (modelled, no theorem).",
 "C100": "Contents, ownership, independence of the decomposition and schedule are proved. C100_names_partial: different names for steps below 100000; from then on all dumps of a field have the same name (C100_names_refuted). Currents and charge density are allocated with their own guard cells but written with those of the fields (C100_guards_refuted when they differ). A process without cells makes the MPI datatype fail (C100_empty_process). The MPI library (subarray types, collective writes to disjoint bytes) is modelled, not verified.",
 "C101": "Proved in three dimensions for div E, div J and the norms. C101_divB_partial: div B at the cells 1..n; the points of the file with an index 0 keep the unset content of the array (C101_divB_refuted). In two dimensions the divergence reads outside the arrays (C101_flat_refuted).",
 "C102": "Memory safety and sizes for every distribution; content for one process with one tile (C102_one_tile_partial). With two tiles the wrong particle is dumped (C102_wrong_particle_refuted) or places stay unset (C102_lost_refuted); with two processes that have asked particles the blocks overwrite each other (C102_processes_refuted); two dumps of one species share a file (C102_two_dumps_refuted). Names differ up to step 99999 (C102_names_partial).",
 "C103": "C103_values: every selection. C103_files_partial: the first m diagnostics selected and fewer than m processes (or exactly m without field dumps). Refuted: a selection with a gap (C103_gap_refuted, C103_no_file_refuted), more processes than diagnostics (C103_extra_process_refuted), a field dump taking unit 42 (C103_unit_refuted), settings left out of the input file (C103_default_refuted). Reading an index that was never set is a fault in the model; the compiled program would take whatever the static variable holds.",
 "C104": "Pseudo-spectral stencils: proved for every even order. Finite-difference solvers: orders 2 and 4 only (C104_fdtd_partial); order 6 gives 61/64 as derivative of x (C104_fdtd_refuted), nodal order 2 gives 4 (C104_fdtd_nodal_refuted).",
 "C105": "Even orders: proved on staggered grids; on unstaggered grids the alternating wave has wave number 0 (C105_alternating_refuted). Infinite order: the wave number is a quarter of the right one (C105_infinite_refuted), and with one point along an axis an element outside of the array is written (C105_one_point_refuted).",
 "C106": "Real numbers are exact; the transforms of FFTW are the sums of its documentation; mu0 eps0 c^2 = 1 is a hypothesis (in SI units the constants of the code satisfy it up to rounding). One process per transform, no absorbing layer, arrays of the transform periodic.",
 "C107": "Same scope as C106.",
 "C108": "Holds whenever the coefficients can be computed (C105-C106 say when); real numbers exact; one process per transform.",
 "C109": "The damping coefficients of the layers and the reflecting cells behind them are not part of the statement; one process per transform.",
 "C110": "Proved for equal numbers of guard cells (and for the copy back in general). With more guard cells for the currents they are taken from other points (C110_shift_refuted), with fewer their arrays are read outside of their bounds (C110_short_refuted); the input file lines nguardsx, nguardsy, nguardsz set only those of the fields.",
 "C111": "Quadratures and Bessel functions exact (the integrals that they approximate).",
 "C112": "Quadratures and Bessel functions exact; the root finder of the Boost library is assumed to find a root when there is one (QS.SolvesRoots).",
 "C113": "Proved between nodes and at nodes. In SI units set_lambda stores a value other than 1, which the rate without table uses and the one with table does not (C113_set_lambda_refuted); C113_pair_node_partial is for the lambda of the constructor.",
 "C114": "Proved for the value of every node, the order and the total; the continuity equation does not hold (C114_continuity_refuted).",
 "C115": "Proved with three guard cells where the columns need them and blocks of at least eight particles. With the two guard cells the program starts with, orders 2 and 3 write before the array (C115_two_guards_refuted); with a block length below eight the arrays of the block overflow (C115_short_block_refuted).",
 "C116": "Two and three dimensions; the guard cells needed are proved necessary and sufficient.",
 "C117": "For the decimal numbers of the tables (they are single precision literals in the code).",
 "C118": "Proved: the two columns around the ratio are combined, the second with weight c. Violated: integer division makes this weight the ratio itself instead of its distance to the column, so tabulated ratios do not give tabulated coefficients (C118_tabulated_refuted), the result jumps (C118_continuity_refuted), and the column for ratio 1 is cut off by reshape (C118_last_column_refuted).",
 "C119": "Three dimensions; pushers Boris, Vay and Boris with radiation reaction (where their formulas divide by zero the conclusion is not claimed). Violated: pusher 4 reads attribute columns that do not exist or whose numbers are never set (C119_landau_lifshitz_refuted).",
 "C120": "Proved for equal orders, lowered order, Yee grid, Boris and Vay. Violated: mixed orders are not pushed at all (C120_mixed_orders_refuted); l_lower_order_in_v, l_nodalgrid and radiation reaction are ignored (C120_options_ignored_refuted, with the runs C120_full_order_refuted and C120_radiation_refuted).",
 "C121": "Proved if the currents have not more guard cells than the fields; otherwise the copy to the tile leaves the field array (C121_more_current_guards_refuted).",
 "C122": "Photons with momentum whose clamped quantum parameter is nowhere exactly an inner grid point of the pair table (there C24 is false and the program stops); fewer than 2^64 photons.",
 "C123": "Same photons as in C122.",
 "C124": "Photons that stay and the line on which pairs are born are right. Violated: a decaying photon has already been moved by the whole step and is moved by the time to decay on top of it, so that the pair is born outside the light cone (C124_light_cone_refuted).",
 "C125": "Violated: thirteen labels, fourteen values (C125_labels_refuted); different prefixes can give the same name (C125_prefixes_refuted). Formatting of numbers is not modelled.",
 "C126": "Violated if every process is a group of its own and nzg_group differs from nzguards, which the input allows (C126_guards_refuted).",
 "C127": "Slabs as documented for fftw_mpi_local_size_3d; at least as many cells as processes.",
 "C128": "Proved for decompositions in which no process meets a slab in two periods; C127_once shows that the set-up gives such a decomposition for three or more processes in the direction or an even number of cells. Violated for two processes in one group and an odd number of cells (C128_odd_refuted).",
 "C129": "",
 "C130": "Same decompositions as C128.",
 "C131": "Violated for mpicom_curr = 2: the requests are not allocated (C131_persistent_refuted).",
 "C132": "Proved if particles leave the subdomain from tiles at its border only. Violated otherwise: the buffer of an inner tile is not allocated (C132_inner_tile_refuted).",
 "C133": "Full result for all schedules in C133_stored; delivery proved if what arrives belongs to border tiles. Violated otherwise: such a particle is dropped (C133_inner_tile_refuted). Counts taken when posted: see C134.",
 "C134": "Violated: one variable is the buffer of all pending sends (C134_counts_refuted). Right for libraries that read at once (C134_prompt_partial) and for equal counts.",
 "C135": "Violated: the number is never decreased (C135_number_refuted); exact excess in C135_number_partial.",
 "C136": "Full result for all options in C136_gather_partial with the nodes the code uses; equals the claim on nodal grids with full order (C136_gather_nodal). Violated: modes above 0 are read at displaced nodes for most options (C136_modes_refuted); the azimuthal components on a Yee grid are read half a cell off (C136_theta_refuted).",
 "C138": "Shapes of Davoine (type_rz_depose = 2) not modelled.",
 "C139": "Proved off the axis, for mode 0, for orders 0 and 1 in r, and on the axis for mode 0. Violated for orders 2 and 3 next to the axis on modes above 0: Jtheta below the axis is folded back with the wrong sign (C139_axis_refuted); exact excess in C139_axis_partial.",
 "C141": "Proved for arrays whose axes 1, 2, 3 are left-handed (z, y, x). For right-handed axes the library's relabelling (axes reversed, components reversed) is a reflection and the magnetic field has to be given reversed (C141_right_handed_partial, _refuted).",
 "C143": "Proved where the stencil is complete. Violated at the ends of the arrays: the first component of E has no limit on the terms along y and z in its inner sums, the others have (C143_rotation_refuted).",
 "C145": "Holds while the grid keeps its size. Violated for a larger grid: the Fourier arrays of the first call are kept (C145_transforms_refuted).",
 "C146": "Proved for boxes whose points off the axis have a non-zero radius. Violated when the box reaches a point on the axis below a grid that does not start there: division by zero (C146_guard_refuted).",
 "C149": "Proved off the axis; on grids with an axis for mode 0 or orders 0 and 1 (the rest fails with the deposition, C139), and on the axis for the plain volume. Violated on the axis with type_rz_depose = 1: the solver keeps the flux factor of the plain volume (C149_axis_row_refuted).",
 "C150": "Proved for every component but Bx. Violated for Bx: the term with Ey carries c*beta instead of beta/c (C150_bx_refuted).",
 "C152": "Proved for the three components of the momentum. Violated for gamma: it is interpolated but never transformed, so that it does not belong to the reported momentum (C152_gamma_refuted).",
 "C156": "The balance is proved for all histories. Violated when a table in memory of its engine is computed or assigned anew: the copy assignment of picsar_vector overwrites the pointer (C156_refuted: 2 arrays for each further computation, without bound); without such operations nothing is lost (C156_no_leak_partial).",
 "C157": "Violated by the move constructor, which does not reset the flags (C157_moved_refuted), and by the constructor from innards, which sets them whatever it gets (C157_innards_refuted). Proved for histories without the two.",
 "C158": "Proved for computing. Violated for reading from a file: the moved-from vectors do not manage their memory, and resize throws (C158_read_refuted).",
 "C160": "Violated: create_new_tile_split copies fifteen components, and not the flags is_antenna, ldodepos, lfreeze nor the sorting parameters and the name: antennas, frozen species and test particles become ordinary species (C160_flags_refuted). Proved for the copied components.",
 "C161": "Violated: species_npart of the new species is never set to zero, so that the counter is off by an undefined value (C161_count_refuted, with the exact formula in C161_count_partial), and the arrays of the new grid tiles are never allocated, since l_aofgrid_tiles_array_allocated is still set (C161_grids_refuted, for every call).",
 "C163": "Totals proved. The numbers of particles are reduced with MPI_REAL8: right for fewer than 2^53 particles where subnormal numbers are honoured (C163_time_partial, C163_measured_partial), zero on processors that flush them (C163_flush_refuted).",
 "C164": "Violated for a plane with more than the average load (C164_beyond_end_refuted); proved when there is none.",
 "C165": "Proved if all particles that have to leave are in tiles at the border of the old subdomain. Violated otherwise: the routine looks only at tiles flagged subdomain_bound, and the new limits may exclude inner tiles (C165_inner_tiles_refuted).",
 "C166": "Proved if npart_local is at least the number of particles of the process. The send buffers have npart_local columns, which is set only by compute_time_per_part: a smaller value gives writes out of bounds (C166_buffer_refuted).",
 "C168": "Proved for the two-dimensional additions, which store y = 0. Violated for particles stored with another y by py_add_particles_to_species: the removal does not copy part_y, so that the moved particle gets the y of the removed one (C168_y_refuted).",
 "C169": "Proved for all properties but y. The message does not contain y (its place in the buffer is sent unwritten), and the neighbour stores 0 (C169_y_refuted).",
 "C170": "Proved for positions, momenta and further properties; stored field values are returned in the same order. Violated for fields after removals: rm_particle_at_tile does not move part_ex ... part_bz, so that the moved particle is listed with the fields at the removed one (C170_fields_refuted).",
 "C171": "Proved if index_particle contains no 1 before the call. load_test_plane does not clear it (INTENT(OUT)): a mark left for a particle that does not cross makes select_quantity write out of bounds (C171_stale_refuted).",
 "C173": "Proved for the time loop of the program with the arrays of the first call. Violated when the first call has it /= 0 (requests never created, C173_late_refuted), when the array is bound to other storage later (the old one is sent, C173_moved_refuted), and for jx when the local variable sz, passed as a count before it has a value, happens to be negative (C173_count_refuted).",
 "C174": "Proved for the time loop of the program. Scripts that call the routines one by one leave it = 0, and every call creates 6 or 8 new requests that are never freed (C174_grows_refuted).",
 "C176": "Proved for periodic boundaries. With an absorbing boundary the neighbours are those of the periodic arrangement, and contributions beyond one end of the domain are added at the other (C176_absorbing_refuted, as C50 in three dimensions).",
 "C177": "One tile in y. The steps of the threads use the storage routines of three dimensions; C177_storage shows that those of two dimensions do the same for particles in the plane (what they do for others: C168).",
 "C178": "The limits are given; the table of limits is that of C68/C69. The local copy is treated as a message of a process to itself. Inside the repository the routine is offered to scripts only.",
 "C179": "Proved for species with the mass of the electron. The code multiplies by the electron mass for every species: the value of a species of mass m is its kinetic energy times emass/m (C179_scaled_partial), which is wrong for every other species with moving particles (C179_mass_refuted).",
 "C180": "Proved for arrays with a single plane in y. The arrays of 2-D simulations have two planes (ny = 1, nyguards = 0), while the routine declares one: by sequence association it reads lines of both planes alternately, at half the height (C180_storage_partial), so that energy in the plane can be missed altogether or reported where there is none (C180_plane_refuted).",
 "C181": "Proved: the value is the root of the sum of squares over the plane y = 1 of all processes. The solver and the deposition use the plane y = 0, on which the value does not depend at all (C181_norm_refuted).",
 "C182": "Proved for the ordered and the Cartesian topology. With the random topology the sizes are gathered by rank but used by coordinate: on two processes the program either stops or gives the process of rank 0 the half of the grid that the transform gives to rank 1 (C182_random_refuted).",
 "C183": "Proved for tiles whose arrays are allocated, as init_tile_arrays leaves them.",
 "C184": "Proved for positions in the subdomain; refuted for others: more than half a cell below the lower limit in x the tile array is accessed out of bounds, above the upper limit the particle is stored in a tile although it lies in none.",
 "C185": "Particle arrays only; the memory of the grid tiles and the sum over processes are not part of the claim. The thresholds 0.4 and 0.5 are exact."
}